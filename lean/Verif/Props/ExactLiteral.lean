import Verif.Props.Mysql
import Verif.Spec.SqlString

/-! The exact condition for C66. -/

namespace Octo
open Spec

theorem sqlString_other {c : Char} (r : Str) (h1 : c ≠ '\'') (h2 : c ≠ '\\') :
    sqlString (c :: r) = (sqlString r).map fun (v, rest) => (c :: v, rest) := by
  rw [sqlString]
  all_goals intros; simp_all

theorem selfLiteral_other {c : Char} (r : Str) (h1 : c ≠ '\'') (h2 : c ≠ '\\') : SelfLiteral (c :: r) ↔ SelfLiteral r := by
  rw [SelfLiteral]
  all_goals intros; simp_all

theorem sqlString_quote {c : Char} (r : Str) : sqlString ('\'' :: c :: r) =
    if c = '\'' then (sqlString r).map fun (v, rest) => ('\'' :: v, rest) else some ([], c :: r) := by
  rw [sqlString]

theorem sqlString_backslash {c : Char} (r : Str) : sqlString ('\\' :: c :: r) =
    (sqlString r).map fun (v, rest) => (sqlEscape c ++ v, rest) := by
  rw [sqlString]

theorem sqlEscape_length (c : Char) : (sqlEscape c).length = if c = '%' ∨ c = '_' then 2 else 1 := by
  unfold sqlEscape
  by_cases h : c = '%' ∨ c = '_'
  · rcases h with rfl | rfl <;> decide
  · rw [if_neg h]
    repeat' split
    all_goals rfl

/-- Reading does not make texts longer. -/
theorem sqlString_length : ∀ (n : Nat) (x v rest : Str), x.length ≤ n → sqlString x = some (v, rest) → v.length + rest.length + 1 ≤ x.length
  | _, [], _, _, _, h => by cases h
  | 0, _ :: _, _, _, hn, _ => by simp at hn
  | n + 1, c :: r, v, rest, hn, h => by
    rw [List.length_cons] at hn ⊢
    by_cases h1 : c = '\''
    · subst h1
      cases r with
      | nil => cases h; decide
      | cons d r =>
        rw [sqlString_quote] at h
        rw [List.length_cons] at hn ⊢
        split at h
        · rw [Option.map_eq_some_iff] at h
          obtain ⟨⟨v', rest'⟩, h, he⟩ := h
          cases he
          have := sqlString_length n r _ _ (by omega) h
          rw [List.length_cons]
          omega
        · cases h
          rw [List.length_cons, List.length_nil]
          omega
    · by_cases h2 : c = '\\'
      · subst h2
        cases r with
        | nil => cases h
        | cons d r =>
          rw [sqlString_backslash] at h
          rw [List.length_cons] at hn ⊢
          rw [Option.map_eq_some_iff] at h
          obtain ⟨⟨v', rest'⟩, h, he⟩ := h
          cases he
          have := sqlString_length n r _ _ (by omega) h
          rw [List.length_append, sqlEscape_length]
          split <;> omega
      · rw [sqlString_other r h1 h2, Option.map_eq_some_iff] at h
        obtain ⟨⟨v', rest'⟩, h, he⟩ := h
        cases he
        have := sqlString_length n r _ _ (by omega) h
        rw [List.length_cons]
        omega

/-- A literal reads as the text between its quotes if and only if that text stands for itself. -/
theorem sqlString_iff (r : Str) (hr : r.head? ≠ some '\'') : ∀ (n : Nat) (s : Str), s.length ≤ n →
    (sqlString (s ++ '\'' :: r) = some (s, r) ↔ SelfLiteral s)
  | _, [], _ => by
    refine ⟨fun _ => trivial, fun _ => ?_⟩
    rw [List.nil_append]
    cases r with
    | nil => rfl
    | cons d r =>
      rw [sqlString_quote, if_neg]
      rintro rfl
      exact hr rfl
  | 0, _ :: _, hn => by simp at hn
  | n + 1, c :: s, hn => by
    rw [List.length_cons] at hn
    by_cases h1 : c = '\''
    · subst h1
      refine ⟨fun h => ?_, fun h => by rw [SelfLiteral] at h; exact h.elim⟩
      exfalso
      rw [List.cons_append] at h
      have hl : ∃ d y, s ++ '\'' :: r = d :: y := by
        cases s with
        | nil => exact ⟨_, _, rfl⟩
        | cons d s => exact ⟨_, _, rfl⟩
      obtain ⟨d, y, e⟩ := hl
      rw [e, sqlString_quote] at h
      split at h
      · rw [Option.map_eq_some_iff] at h
        obtain ⟨⟨v', rest'⟩, h, he⟩ := h
        cases he
        have := sqlString_length _ y _ _ (le_refl _) h
        have := congrArg List.length e
        rw [List.length_append, List.length_cons, List.length_cons] at this
        omega
      · cases h
    · by_cases h2 : c = '\\'
      · subst h2
        cases s with
        | nil =>
          refine ⟨fun h => ?_, fun h => by rw [SelfLiteral] at h; exact h.elim⟩
          exfalso
          rw [List.cons_append, List.nil_append, sqlString_backslash, Option.map_eq_some_iff] at h
          obtain ⟨⟨v', rest'⟩, -, he⟩ := h
          have he := congrArg Prod.fst he
          have e : sqlEscape '\'' = ['\''] := by decide
          rw [e] at he
          cases he
        | cons d s =>
          rw [List.length_cons] at hn
          rw [List.cons_append, List.cons_append, sqlString_backslash, SelfLiteral, ← sqlString_iff r hr n s (by omega)]
          by_cases hd : d = '%' ∨ d = '_'
          · have e : sqlEscape d = ['\\', d] := by rcases hd with rfl | rfl <;> decide
            rw [e]
            constructor
            · intro h
              rw [Option.map_eq_some_iff] at h
              obtain ⟨⟨v', rest'⟩, h, he⟩ := h
              cases he
              exact ⟨hd, h⟩
            · rintro ⟨-, h⟩
              rw [h]; rfl
          · refine ⟨fun h => ?_, fun h => absurd h.1 hd⟩
            exfalso
            rw [Option.map_eq_some_iff] at h
            obtain ⟨⟨v', rest'⟩, h, he⟩ := h
            have h3 := sqlString_length _ _ _ _ (le_refl _) h
            have h4 := congrArg (List.length ∘ Prod.fst) he
            have h5 := congrArg (List.length ∘ Prod.snd) he
            simp only [Function.comp, List.length_append, List.length_cons, sqlEscape_length, if_neg hd] at h3 h4 h5
            omega
      · rw [List.cons_append, sqlString_other _ h1 h2, selfLiteral_other s h1 h2, ← sqlString_iff r hr n s (by omega)]
        constructor
        · intro h
          rw [Option.map_eq_some_iff] at h
          obtain ⟨⟨v', rest'⟩, h, he⟩ := h
          cases he
          exact h
        · intro h
          rw [h]; rfl

/-- A text stands between quotes somewhere, and no further quote follows directly. -/
def InQuotes (v text : Str) : Prop := ∃ a b, text = a ++ '\'' :: (v ++ '\'' :: b) ∧ b.head? ≠ some '\''

theorem InQuotes.before {v text : Str} (x : Str) (h : InQuotes v text) : InQuotes v (x ++ text) := by
  obtain ⟨a, b, rfl, hb⟩ := h
  exact ⟨x ++ a, b, by rw [List.append_assoc], hb⟩

theorem InQuotes.after {v text y : Str} (h : InQuotes v text) (hy : y.head? ≠ some '\'') : InQuotes v (text ++ y) := by
  obtain ⟨a, b, rfl, hb⟩ := h
  refine ⟨a, b ++ y, by simp, ?_⟩
  cases b with
  | nil => exact hy
  | cons c b => exact hb

theorem InQuotes.join {v sep x : Str} {l : List Str} (h : InQuotes v x) (hx : x ∈ l) (hs : ∃ c r, sep = c :: r ∧ c ≠ '\'') :
    InQuotes v (join sep l) := by
  induction l with
  | nil => cases hx
  | cons y l ih =>
    cases l with
    | nil => rw [List.mem_singleton.1 hx] at h; exact h
    | cons z l =>
      rw [join_cons_cons]
      rcases List.mem_cons.1 hx with rfl | hx
      · obtain ⟨c, r, rfl, hc⟩ := hs
        rw [List.append_assoc]
        refine h.after ?_
        intro e
        exact hc (Option.some.inj e)
      · exact (ih hx).before _

theorem InQuotes.lines {v : Str} {l : List Str} {x : Str} (h : InQuotes v x) (hx : x ∈ l) :
    InQuotes v ((Mysql.withCommas l).flatMap fun d => "  "ₛ ++ d ++ "\n"ₛ) := by
  have hn : ∀ y : Str, ("\n"ₛ ++ y).head? ≠ some '\'' := fun y e => absurd (Option.some.inj e) (by decide)
  have hc : ∀ y : Str, (","ₛ ++ y).head? ≠ some '\'' := fun y e => absurd (Option.some.inj e) (by decide)
  induction l with
  | nil => cases hx
  | cons y l ih =>
    cases l with
    | nil =>
      rw [List.mem_singleton.1 hx] at h
      rw [Mysql.withCommas, List.flatMap_cons, List.flatMap_nil, List.append_assoc, List.append_assoc]
      exact (h.after (hn _)).before _
    | cons z l =>
      rw [Mysql.withCommas, List.flatMap_cons]
      rcases List.mem_cons.1 hx with rfl | hx
      · rw [List.append_assoc, List.append_assoc, List.append_assoc]
        exact (h.after (hc _)).before _
      · exact (ih hx).before _

theorem inQuotes_self (v : Str) : InQuotes v ("'"ₛ ++ v ++ "'"ₛ) :=
  ⟨[], [], by have : "'"ₛ = ['\''] := rfl; rw [this]; simp, by simp⟩

/-- Every text of a column that is written is between quotes in its definition. -/
theorem inQuotes_definition {c : Column} {v : Str} (h : v ∈ writtenTexts c) : InQuotes v (Mysql.columnDefinition c) := by
  have hsp : ∃ (x : Char) (r : Str), " "ₛ = x :: r ∧ x ≠ '\'' := ⟨' ', [], rfl, by decide⟩
  have hcon : InQuotes v (Mysql.columnConstraints c) → InQuotes v (Mysql.columnDefinition c) := by
    intro hq
    unfold Mysql.columnDefinition
    refine hq.join ?_ hsp
    rw [if_pos]
    · exact List.mem_append_right _ (List.mem_singleton.2 rfl)
    · intro e
      obtain ⟨a, b, hab, -⟩ := hq
      rw [e] at hab
      cases a <;> cases hab
  unfold writtenTexts at h
  rcases List.mem_append.1 h with h | h
  · rcases List.mem_append.1 h with h | h
    · split at h
      · rename_i ht
        have hj : InQuotes v (quoteAndJoin c.values "'"ₛ ", "ₛ) := by
          unfold quoteAndJoin
          exact (inQuotes_self v).join (List.mem_map.2 ⟨v, h, rfl⟩) ⟨',', [' '], rfl, by decide⟩
        have hp : ∀ y : Str, InQuotes v (y ++ quoteAndJoin c.values "'"ₛ ", "ₛ ++ ")"ₛ) := fun y =>
          (hj.before y).after fun e => absurd (Option.some.inj e) (by decide)
        have hty : InQuotes v (Mysql.toMysqlColumnType c) := by
          rcases ht with ht | ht
          · have : Mysql.toMysqlColumnType c = "enum("ₛ ++ quoteAndJoin c.values "'"ₛ ", "ₛ ++ ")"ₛ := by
              unfold Mysql.toMysqlColumnType; rw [ht]; rfl
            rw [this]; exact hp _
          · have : Mysql.toMysqlColumnType c = "set("ₛ ++ quoteAndJoin c.values "'"ₛ ", "ₛ ++ ")"ₛ := by
              unfold Mysql.toMysqlColumnType; rw [ht]; rfl
            rw [this]; exact hp _
        unfold Mysql.columnDefinition
        exact hty.join (List.mem_append_left _ (List.mem_cons_of_mem _ (List.mem_singleton.2 rfl))) hsp
      · cases h
    · split at h
      · rename_i ht
        obtain ⟨hm, hx⟩ := List.mem_filter.1 h
        rw [Bool.and_eq_true, decide_eq_true_eq, Bool.not_eq_true'] at hx
        have hs : isStringType c.type = true := by rcases ht with ht | ht <;> rw [ht] <;> decide
        have hval : ∀ y : Str, InQuotes v (y ++ Mysql.valueText c.type (getValue v)) := by
          intro y
          have e : getValue v = (v, false) := by
            unfold getValue
            rw [if_neg (by show ¬hasPrefix v "fn::"ₛ = true; rw [hx.2]; decide)]
          rw [e]
          unfold Mysql.valueText
          rw [if_neg (show ¬(false = true) by decide), if_pos hs]
          exact (inQuotes_self v).before y
        refine hcon ?_
        unfold Mysql.columnConstraints
        rcases List.mem_cons.1 hm with rfl | hm
        · refine (hval "DEFAULT "ₛ).join ?_ hsp
          rw [if_pos hx.1]
          exact List.mem_append_left _ (List.mem_append_left _ (List.mem_append_right _ (List.mem_singleton.2 rfl)))
        · rw [List.mem_singleton.1 hm] at hx hval ⊢
          refine (hval "ON UPDATE "ₛ).join ?_ hsp
          rw [if_pos hx.1]
          exact List.mem_append_left _ (List.mem_append_right _ (List.mem_singleton.2 rfl))
      · cases h
  · split at h
    · cases h
    · rename_i hne
      rw [List.mem_singleton.1 h]
      rw [List.mem_singleton.1 h] at hcon
      refine hcon ?_
      unfold Mysql.columnConstraints
      refine InQuotes.join (x := "COMMENT '"ₛ ++ c.description ++ "'"ₛ) ?_ ?_ hsp
      · have e : "COMMENT '"ₛ ++ c.description ++ "'"ₛ = "COMMENT "ₛ ++ ("'"ₛ ++ c.description ++ "'"ₛ) := by
          rw [← List.append_assoc, ← List.append_assoc]; rfl
        rw [e]
        exact (inQuotes_self _).before _
      · exact List.mem_append_right _ (by rw [if_pos hne]; exact List.mem_singleton.2 rfl)

theorem inQuotes_export {filter : Option (Table → Bool)} {suffix : Str} {s : Schema} {t : Table} {c : Column} {v : Str}
    (ht : t ∈ s.tables) (hf : passes filter t = true) (hc : c ∈ t.columns) (hv : v ∈ writtenTexts c) :
    InQuotes v (Mysql.exportSchema filter suffix s) := by
  have h1 : InQuotes v (Mysql.exportTable suffix t) := by
    unfold Mysql.exportTable
    refine (InQuotes.before _ ?_).after (fun e => absurd (Option.some.inj e) (by decide))
    refine (inQuotes_definition hv).lines ?_
    unfold Mysql.definitions
    exact List.mem_append_left _ (List.mem_append_left _ (List.mem_append_left _ (List.mem_map.2 ⟨c, hc, rfl⟩)))
  unfold Mysql.exportSchema
  have hm : t ∈ s.tables.filter (passes filter) := List.mem_filter.2 ⟨ht, hf⟩
  generalize s.tables.filter (passes filter) = l at hm
  induction l with
  | nil => cases hm
  | cons u l ih =>
    rw [List.flatMap_cons]
    rcases List.mem_cons.1 hm with rfl | hm
    · refine h1.after ?_
      cases l with
      | nil => simp
      | cons w l =>
        rw [List.flatMap_cons]
        intro e
        exact absurd (Option.some.inj e) (by decide)
    · exact (ih hm).before _

/-- C66, exactly: every member, default value and description of every column of a selected table is written between quotes, and the
literal reads as that text, ending at its closing quote, if and only if the text stands for itself. -/
theorem C66_exact (filter : Option (Table → Bool)) (suffix : Str) (s : Schema) (t : Table) (ht : t ∈ s.tables)
    (hf : passes filter t = true) (c : Column) (hc : c ∈ t.columns) (v : Str) (hv : v ∈ writtenTexts c) :
    ∃ a b, Mysql.exportSchema filter suffix s = a ++ "'"ₛ ++ v ++ "'"ₛ ++ b ∧
      (sqlString (v ++ "'"ₛ ++ b) = some (v, b) ↔ SelfLiteral v) := by
  obtain ⟨a, b, e, hb⟩ := inQuotes_export (suffix := suffix) ht hf hc hv
  have hq : "'"ₛ = ['\''] := rfl
  refine ⟨a, b, ?_, ?_⟩
  · rw [e, hq]; simp only [List.append_assoc, List.cons_append, List.nil_append]
  · rw [hq, List.append_assoc, List.cons_append, List.nil_append]
    exact sqlString_iff b hb _ v (le_refl _)

/-- A column with texts of all kinds. -/
def exTexts : Column := { name := "a"ₛ, type := "varchar"ₛ, size := 9, defaultValue := "50\\%"ₛ, description := "it's"ₛ }

/-- C66: both texts of the column are written; one stands for itself, the other does not. -/
example : "50\\%"ₛ ∈ writtenTexts exTexts ∧ SelfLiteral "50\\%"ₛ ∧ "it's"ₛ ∈ writtenTexts exTexts ∧ ¬SelfLiteral "it's"ₛ := by
  refine ⟨by decide +kernel, ?_, by decide +kernel, ?_⟩
  · exact ⟨Or.inl rfl, trivial⟩
  · exact fun h => h

end Octo
