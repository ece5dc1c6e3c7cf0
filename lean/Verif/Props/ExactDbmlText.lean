import Verif.Props.Dbml
import Verif.Spec.DbmlString

/-! The exact condition for C76. -/

namespace Octo
open Spec

/-- Reading does not make texts longer. -/
theorem dbmlString_length (q : Char) : ∀ (n : Nat) (x v rest : Str), x.length ≤ n → dbmlString q x = some (v, rest) →
    v.length + rest.length + 1 ≤ x.length
  | _, [], _, _, _, h => by cases h
  | 0, _ :: _, _, _, hn, _ => by simp at hn
  | n + 1, c :: r, v, rest, hn, h => by
    rw [List.length_cons] at hn ⊢
    rw [dbmlString.eq_def] at h
    dsimp only at h
    split at h
    · cases h; simp
    · split at h
      · cases h
      · split at h
        · split at h
          · cases h
          · rename_i d r
            rw [Option.map_eq_some_iff] at h
            obtain ⟨⟨v', rest'⟩, h, he⟩ := h
            cases he
            rw [List.length_cons] at hn ⊢
            have := dbmlString_length q n r _ _ (by omega) h
            dsimp only
            rw [List.length_cons]
            omega
        · rw [Option.map_eq_some_iff] at h
          obtain ⟨⟨v', rest'⟩, h, he⟩ := h
          cases he
          have := dbmlString_length q n r _ _ (by omega) h
          dsimp only
          rw [List.length_cons]
          omega

/-- A string reads as the text between its quotes if and only if that text needs no escaping. -/
theorem dbmlString_iff (q : Char) (r : Str) : ∀ s : Str, (dbmlString q (s ++ q :: r) = some (s, r) ↔ PlainQuoted q s)
  | [] => by
    refine ⟨fun _ => ⟨List.not_mem_nil, List.not_mem_nil, List.not_mem_nil⟩, fun _ => ?_⟩
    rw [List.nil_append, dbmlString.eq_def]
    dsimp only
    rw [if_pos rfl]
  | c :: s => by
    have ih := dbmlString_iff q r s
    have hcons : PlainQuoted q (c :: s) ↔ (q ≠ c ∧ '\\' ≠ c ∧ '\n' ≠ c) ∧ PlainQuoted q s := by
      unfold PlainQuoted
      simp only [List.mem_cons, not_or]
      tauto
    rw [hcons, ← ih, List.cons_append, dbmlString.eq_def]
    dsimp only
    by_cases h1 : c = q
    · rw [if_pos h1]
      exact ⟨fun h => (by cases h), fun h => absurd h1.symm h.1.1⟩
    · rw [if_neg h1]
      by_cases h2 : c = '\n'
      · rw [if_pos h2]
        exact ⟨fun h => (by cases h), fun h => absurd h2.symm h.1.2.2⟩
      · rw [if_neg h2]
        by_cases h3 : c = '\\'
        · rw [if_pos h3]
          refine ⟨fun h => ?_, fun h => absurd h3.symm h.1.2.1⟩
          exfalso
          split at h
          · cases h
          · rename_i d y e
            rw [Option.map_eq_some_iff] at h
            obtain ⟨⟨v', rest'⟩, h, he⟩ := h
            cases he
            have := dbmlString_length q _ y _ _ (le_refl _) h
            have := congrArg List.length e
            rw [List.length_append, List.length_cons, List.length_cons] at this
            dsimp only at this
            omega
        · rw [if_neg h3]
          constructor
          · intro h
            rw [Option.map_eq_some_iff] at h
            obtain ⟨⟨v', rest'⟩, h, he⟩ := h
            cases he
            exact ⟨⟨fun e => h1 e.symm, fun e => h3 e.symm, fun e => h2 e.symm⟩, h⟩
          · rintro ⟨-, h⟩
            rw [h]; rfl

/-- A text stands somewhere and is followed by nothing, a comma or a bracket. -/
def Followed (x text : Str) : Prop := ∃ a b, text = a ++ x ++ b ∧ (b = [] ∨ b.head? = some ',' ∨ b.head? = some ']')

/-- A text stands somewhere and is followed by a comma or a bracket. -/
def Settled (x text : Str) : Prop := ∃ a b, text = a ++ x ++ b ∧ (b.head? = some ',' ∨ b.head? = some ']')

theorem followed_join {x : Str} {l : List Str} (hx : x ∈ l) : Followed x (join ", "ₛ l) := by
  induction l with
  | nil => cases hx
  | cons y l ih =>
    cases l with
    | nil =>
      rw [List.mem_singleton.1 hx]
      exact ⟨[], [], by simp [join], Or.inl rfl⟩
    | cons z l =>
      rw [join_cons_cons]
      rcases List.mem_cons.1 hx with rfl | hx
      · exact ⟨[], ", "ₛ ++ join ", "ₛ (z :: l), by rw [List.nil_append, List.append_assoc], Or.inr (Or.inl rfl)⟩
      · obtain ⟨a, b, e, hb⟩ := ih hx
        exact ⟨y ++ ", "ₛ ++ a, b, by rw [e]; simp only [List.append_assoc], hb⟩

theorem Followed.close {x text : Str} (h : Followed x text) : Settled x (text ++ "]"ₛ) := by
  obtain ⟨a, b, rfl, hb⟩ := h
  refine ⟨a, b ++ "]"ₛ, by rw [List.append_assoc], ?_⟩
  cases b with
  | nil => exact Or.inr rfl
  | cons c b => exact hb.resolve_left (by simp)

theorem Settled.before {x text : Str} (y : Str) (h : Settled x text) : Settled x (y ++ text) := by
  obtain ⟨a, b, rfl, hb⟩ := h
  exact ⟨y ++ a, b, by simp only [List.append_assoc], hb⟩

theorem Settled.after {x text : Str} (y : Str) (h : Settled x text) : Settled x (text ++ y) := by
  obtain ⟨a, b, rfl, hb⟩ := h
  refine ⟨a, b ++ y, by simp only [List.append_assoc], ?_⟩
  cases b with
  | nil => rcases hb with hb | hb <;> cases hb
  | cons c b => exact hb

theorem Settled.join {x y sep : Str} {l : List Str} (h : Settled x y) (hy : y ∈ l) : Settled x (join sep l) := by
  induction l with
  | nil => cases hy
  | cons z l ih =>
    cases l with
    | nil => rw [List.mem_singleton.1 hy] at h; exact h
    | cons w l =>
      rw [join_cons_cons]
      rcases List.mem_cons.1 hy with rfl | hy
      · rw [List.append_assoc]; exact h.after _
      · exact (ih hy).before _

/-- Every setting of every column is in the document. -/
theorem settled_export {filter : Option (Table → Bool)} {s : Schema} {t : Table} {c : Column} (ht : t ∈ s.tables) (hc : c ∈ t.columns)
    (x : Str) (hx : ∀ defined, x ∈ Dbml.params defined c) : Settled x (Dbml.exportText filter s) := by
  have hline : ∀ defined, Settled x (Dbml.columnLine defined c) := by
    intro defined
    unfold Dbml.columnLine
    rw [if_neg (List.ne_nil_of_mem (hx defined)), List.append_assoc _ (join _ _)]
    exact (followed_join (hx defined)).close.before _
  have hloop : ∀ (ts : List Table) (defined : List Str), t ∈ ts →
      ∃ d, Dbml.columnLine d c ∈ (Dbml.tablesLoop defined ts).1 := by
    intro ts
    induction ts with
    | nil => intro _ h; cases h
    | cons u ts ih =>
      intro defined h
      unfold Dbml.tablesLoop
      rcases List.mem_cons.1 h with rfl | h
      · exact ⟨defined, List.mem_cons_of_mem _ (List.mem_append_left _ (List.mem_map.2 ⟨c, hc, rfl⟩))⟩
      · obtain ⟨d, hd⟩ := ih (u.name :: defined) h
        exact ⟨d, List.mem_cons_of_mem _ (List.mem_append_right _ (List.mem_cons_of_mem _ (List.mem_cons_of_mem _ hd)))⟩
  obtain ⟨d, hd⟩ := hloop s.tables [] ht
  unfold Dbml.exportText
  exact (hline d).join (List.mem_append_left _ hd)

/-- A bare value reads as itself exactly when it is a number or constant. -/
theorem readDbmlValue_raw (v : Str) : readDbmlValue v = some (.raw v) ↔ isNumber v = true ∨ v ∈ ["true"ₛ, "false"ₛ, "null"ₛ] := by
  have hlist : (isNumber v || v == "true"ₛ || v == "false"ₛ || v == "null"ₛ) = true ↔
      (isNumber v = true ∨ v ∈ ["true"ₛ, "false"ₛ, "null"ₛ]) := by
    simp only [Bool.or_eq_true, beq_iff_eq, List.mem_cons, List.not_mem_nil, or_false, or_assoc]
  constructor
  · intro h
    unfold readDbmlValue at h
    split at h
    · rw [Option.map_eq_some_iff] at h
      obtain ⟨x, -, e⟩ := h
      cases e
    · split at h
      · cases h
      · split at h
        · rename_i h1
          exact hlist.1 h1
        · cases h
  · intro h
    have hc := (raw_chars h).2
    have hq : ∀ q, isQuote q = true → unwrap q q v = none := by
      intro q hq
      apply unwrap_none
      intro e
      rw [(hc q (List.mem_of_head? e)).2.1] at hq
      cases hq
    unfold readDbmlValue
    rw [hq _ rfl, hq _ rfl]
    dsimp only
    rw [if_pos (hlist.2 h)]

/-- C76, exactly: the description of every column and the default value of every column of a character type stand between quotes in
the document, and are read as they are if and only if they have no quote, backslash or line break; the default value of any other
column stands there bare, and is a DBML value if and only if it is a number or a constant. -/
theorem C76_exact (filter : Option (Table → Bool)) (s : Schema) (t : Table) (ht : t ∈ s.tables) (c : Column) (hc : c ∈ t.columns) :
    (c.description ≠ [] → ∃ a b, Dbml.exportText filter s = a ++ "note: \""ₛ ++ c.description ++ "\""ₛ ++ b ∧
      (dbmlString '"' (c.description ++ "\""ₛ ++ b) = some (c.description, b) ↔ PlainQuoted '"' c.description)) ∧
    (c.defaultValue ≠ [] → isStringType c.type = true →
      ∃ a b, Dbml.exportText filter s = a ++ "default: '"ₛ ++ c.defaultValue ++ "'"ₛ ++ b ∧
      (dbmlString '\'' (c.defaultValue ++ "'"ₛ ++ b) = some (c.defaultValue, b) ↔ PlainQuoted '\'' c.defaultValue)) ∧
    (c.defaultValue ≠ [] → isStringType c.type = false →
      ∃ a b, Dbml.exportText filter s = a ++ "default: "ₛ ++ c.defaultValue ++ b ∧ (b.head? = some ',' ∨ b.head? = some ']') ∧
      (readDbmlValue c.defaultValue = some (.raw c.defaultValue) ↔
        isNumber c.defaultValue = true ∨ c.defaultValue ∈ ["true"ₛ, "false"ₛ, "null"ₛ])) := by
  have h1 : "\""ₛ = ['"'] := rfl
  have h2 : "'"ₛ = ['\''] := rfl
  have hd : ∀ x, Dbml.defaultParam c = [x] → ∀ defined, x ∈ Dbml.params defined c := by
    intro x e defined
    unfold Dbml.params
    rw [e]
    exact List.mem_append_left _ (List.mem_append_left _ (List.mem_append_right _ (List.mem_singleton.2 rfl)))
  refine ⟨fun hne => ?_, fun hne hs => ?_, fun hne hs => ?_⟩
  · obtain ⟨a, b, e, -⟩ := settled_export (filter := filter) ht hc ("note: \""ₛ ++ c.description ++ "\""ₛ) (by
      intro defined
      unfold Dbml.params
      exact List.mem_append_right _ (by rw [if_neg hne]; exact List.mem_singleton.2 rfl))
    refine ⟨a, b, by rw [e]; simp only [List.append_assoc], ?_⟩
    rw [h1, List.append_assoc, List.cons_append, List.nil_append]
    exact dbmlString_iff '"' b _
  · obtain ⟨a, b, e, -⟩ := settled_export (filter := filter) ht hc ("default: "ₛ ++ ("'"ₛ ++ c.defaultValue ++ "'"ₛ)) (hd _ (by
      unfold Dbml.defaultParam; rw [if_neg hne, if_pos hs]))
    refine ⟨a, b, ?_, ?_⟩
    · have e' : "default: '"ₛ = "default: "ₛ ++ "'"ₛ := rfl
      rw [e, e']; simp only [List.append_assoc]
    · rw [h2, List.append_assoc, List.cons_append, List.nil_append]
      exact dbmlString_iff '\'' b _
  · obtain ⟨a, b, e, hb⟩ := settled_export (filter := filter) ht hc ("default: "ₛ ++ c.defaultValue) (hd _ (by
      unfold Dbml.defaultParam; rw [if_neg hne, if_neg (by rw [hs]; decide)]))
    exact ⟨a, b, by rw [e]; simp only [List.append_assoc], hb, readDbmlValue_raw _⟩

/-- C76: a column of each kind. -/
example : ({ name := "c"ₛ, type := "varchar"ₛ, size := 3, defaultValue := "a b"ₛ, description := "the \"c\""ₛ } : Column) ∈
      (Table.columns { name := "t"ₛ, columns := [{ name := "c"ₛ, type := "varchar"ₛ, size := 3, defaultValue := "a b"ₛ, description := "the \"c\""ₛ }] }) ∧
    PlainQuoted '\'' "a b"ₛ ∧ ¬PlainQuoted '"' "the \"c\""ₛ ∧ isStringType "varchar"ₛ = true ∧ isStringType "date"ₛ = false ∧
    isNumber "-1.5"ₛ = true := by
  decide +kernel

end Octo
