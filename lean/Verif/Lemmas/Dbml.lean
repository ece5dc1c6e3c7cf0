import Verif.Lemmas.Mysql
import Verif.Model.Dbml
import Verif.Spec.Dbml
import Mathlib.Data.List.Forall2

/-! Lemmas about the DBML exporter: what it writes is read by the DBML reader. -/

namespace Octo
open Spec

/-! ### Identifiers -/

theorem ident_chars {s : Str} (h : Ident s) : ∀ c ∈ s, isIdent c = true := List.all_eq_true.1 h.2

theorem ident_not {x : Char} (hx : isIdent x = false) {s : Str} (h : Ident s) : x ∉ s := by
  intro hm
  rw [ident_chars h x hm] at hx; cases hx

theorem isIdent_good {c : Char} (h : isIdent c = true) :
    sqlSep c = false ∧ isQuote c = false ∧ c ≠ '(' ∧ c ≠ ')' := by
  have key : ∀ x : Char, isIdent x = false → c ≠ x := by
    rintro x hx rfl; rw [h] at hx; cases hx
  refine ⟨?_, ?_, key _ rfl, key _ rfl⟩
  · simp [sqlSep, isBlank, key ' ' rfl, key '\n' rfl, key '\t' rfl, key '\r' rfl, key ',' rfl, key ';' rfl]
  · simp [isQuote, key '\'' rfl, key '"' rfl, key '`' rfl]

theorem good_ident {s : Str} (h : Ident s) : Good sqlSep s := good_chars fun c hc => isIdent_good (ident_chars h c hc)

theorem ident_colType {t : Str} (h : t ∈ colTypes) : Ident t := by
  have : ∀ t ∈ colTypes, Ident t := by decide +kernel
  exact this t h

/-! ### Numbers -/

theorem digits_of {s : Str} (h : isDigits s = true) : s ≠ [] ∧ ∀ c ∈ s, isDigit c = true := by
  unfold isDigits at h
  rw [Bool.and_eq_true] at h
  refine ⟨?_, List.all_eq_true.1 h.2⟩
  rintro rfl; exact absurd h.1 (by decide)

theorem isUnsigned_chars {s : Str} (h : isUnsigned s = true) : s ≠ [] ∧ ∀ c ∈ s, isDigit c = true ∨ c = '.' := by
  unfold isUnsigned at h
  split at h
  · rename_i a heq
    have hn : '.' ∉ s := splitN2_snd_none.1 (by rw [heq])
    rw [splitN2_no_sep hn] at heq
    cases heq
    have := digits_of h
    exact ⟨this.1, fun c hc => Or.inl (this.2 c hc)⟩
  · rename_i a b heq
    rw [Bool.and_eq_true] at h
    obtain ⟨e, -⟩ := splitN2_some heq
    have h1 := digits_of h.1
    have h2 := digits_of h.2
    refine ⟨by rw [e]; simp, ?_⟩
    intro c hc
    rw [e] at hc
    rcases List.mem_append.1 hc with hc | hc
    · exact Or.inl (h1.2 c hc)
    · rcases List.mem_cons.1 hc with rfl | hc
      · exact Or.inr rfl
      · exact Or.inl (h2.2 c hc)

theorem isNumber_chars {s : Str} (h : isNumber s = true) :
    s ≠ [] ∧ ∀ c ∈ s, isDigit c = true ∨ c = '-' ∨ c = '.' := by
  unfold isNumber at h
  split at h
  · obtain ⟨h1, h2⟩ := isUnsigned_chars h
    refine ⟨by simp, ?_⟩
    intro c hc
    rcases List.mem_cons.1 hc with rfl | hc
    · exact Or.inr (Or.inl rfl)
    · exact (h2 c hc).imp id Or.inr
  · obtain ⟨h1, h2⟩ := isUnsigned_chars h
    exact ⟨h1, fun c hc => (h2 c hc).imp id Or.inr⟩

theorem number_char {c : Char} (h : isDigit c = true ∨ c = '-' ∨ c = '.') :
    sqlSep c = false ∧ isQuote c = false ∧ c ≠ '(' ∧ c ≠ ')' := by
  rcases h with h | rfl | rfl
  · exact isIdent_good (by simp [isIdent, h])
  · decide
  · decide

/-- Numbers and constants are words. -/
theorem raw_chars {s : Str} (h : isNumber s = true ∨ s ∈ ["true"ₛ, "false"ₛ, "null"ₛ]) :
    s ≠ [] ∧ ∀ c ∈ s, sqlSep c = false ∧ isQuote c = false ∧ c ≠ '(' ∧ c ≠ ')' := by
  rcases h with h | h
  · exact ⟨(isNumber_chars h).1, fun c hc => number_char ((isNumber_chars h).2 c hc)⟩
  · have : ∀ s ∈ ["true"ₛ, "false"ₛ, "null"ₛ], s ≠ [] ∧
        ∀ c ∈ s, sqlSep c = false ∧ isQuote c = false ∧ c ≠ '(' ∧ c ≠ ')' := by decide
    exact this s h

theorem newline_of_word {s : Str} (h : ∀ c ∈ s, sqlSep c = false ∧ isQuote c = false ∧ c ≠ '(' ∧ c ≠ ')') : '\n' ∉ s :=
  fun hm => absurd (h _ hm).1 (by decide)

/-! ### Settings -/

theorem unescape_plain {q : Char} {s : Str} (h1 : q ∉ s) (h2 : '\\' ∉ s) : unescape q s = some s := by
  induction s with
  | nil => rfl
  | cons c s ih =>
    rw [unescape.eq_def]
    dsimp only
    rw [if_neg (fun e => h2 (by simp [e])), if_neg (fun e => h1 (by simp [e])),
      ih (fun hm => h1 (by simp [hm])) (fun hm => h2 (by simp [hm]))]
    rfl

theorem unquote_wrap {q : Char} {s : Str} (h1 : q ∉ s) (h2 : '\\' ∉ s) : unquote q ([q] ++ s ++ [q]) = some s := by
  unfold unquote
  rw [unwrap_wrap, Option.bind_some, unescape_plain h1 h2]

/-- A setting as written, and what it says. -/
def SettingText (p : Str) (s : DbmlSetting) : Prop :=
  ∃ toks : List Str, p = join " "ₛ toks ∧ (∀ x ∈ toks, Good sqlSep x ∧ x ≠ []) ∧ readDbmlSetting toks = some s ∧
    '\n' ∉ p

/-- The default value as read. -/
def dbmlDefault (c : Column) : List DbmlSetting :=
  if c.defaultValue = [] then []
  else [.default (if c.type = "char"ₛ ∨ c.type = "varchar"ₛ then .text c.defaultValue else .raw c.defaultValue)]

def dbmlRefSetting (defined : List Str) (c : Column) : List DbmlSetting :=
  match c.ref with
  | none => []
  | some r => if r.table ∈ defined then [.ref (dbmlRel r.relationship) r.table r.column] else []

/-- The settings as read. -/
def dbmlSettings (defined : List Str) (c : Column) : List DbmlSetting :=
  (if c.primaryKey then [.pk] else []) ++ (if c.uniqueKey then [.unique] else []) ++
  (if c.notNull then [.notNull] else []) ++ dbmlDefault c ++ dbmlRefSetting defined c ++
  (if c.description = [] then [] else [.note c.description])

theorem rel_eq (r : Reference) : Dbml.relationshipType r = dbmlRel r.relationship := by
  unfold Dbml.relationshipType dbmlRel
  by_cases h1 : r.relationship = "n:1"ₛ
  · rw [if_pos h1, h1]; rfl
  · by_cases h2 : r.relationship = "1:n"ₛ
    · rw [if_neg h1, if_pos h2, h2]; rfl
    · by_cases h3 : r.relationship = "1:1"ₛ
      · rw [if_neg h1, if_neg h2, if_pos h3, h3]; rfl
      · rw [if_neg h1, if_neg h2, if_neg h3, List.lookup_cons, beq_eq_false_iff_ne.2 h1]
        dsimp only
        rw [List.lookup_cons, beq_eq_false_iff_ne.2 h2]
        dsimp only
        rw [List.lookup_cons, beq_eq_false_iff_ne.2 h3]
        rfl

theorem rel_cases (r : Str) : dbmlRel r = ">"ₛ ∨ dbmlRel r = "<"ₛ ∨ dbmlRel r = "-"ₛ := by
  have := rel_eq ⟨[], [], r⟩
  rw [← this]
  unfold Dbml.relationshipType
  split
  · exact Or.inl rfl
  · split
    · exact Or.inr (Or.inl rfl)
    · split
      · exact Or.inr (Or.inr rfl)
      · exact Or.inl rfl

theorem rel_ok (r : Str) : isDbmlRel (dbmlRel r) = true ∧ Good sqlSep (dbmlRel r) ∧ dbmlRel r ≠ [] ∧ '\n' ∉ dbmlRel r := by
  rcases rel_cases r with h | h | h <;> (rw [h]; exact ⟨by decide, good_literal _ (by decide), by decide, by decide⟩)

theorem readDotted_of {a b : Str} (h : Ident a) : readDotted (a ++ "."ₛ ++ b) = some (a, b) := by
  unfold readDotted
  rw [List.append_assoc, show "."ₛ ++ b = '.' :: b from rfl, splitN2_append_sep (ident_not (by decide) h)]

theorem good_dotted {a b : Str} (ha : Ident a) (hb : Ident b) : Good sqlSep (a ++ "."ₛ ++ b) :=
  .append _ _ (.append _ _ (good_ident ha) (good_literal _ (by decide))) (good_ident hb)

theorem isStringType_type {t : Str} (h : t ∈ colTypes) :
    (isStringType t = true) = (t = "char"ₛ ∨ t = "varchar"ₛ) := propext (isStringType_iff h)

theorem newline_append {a b : Str} (ha : '\n' ∉ a) (hb : '\n' ∉ b) : '\n' ∉ a ++ b := by
  rw [List.mem_append]; rintro (h | h); exacts [ha h, hb h]

theorem default_text {c : Column} (ht : c.type ∈ colTypes) (h : PlainDbmlDefault c) :
    List.Forall₂ SettingText (Dbml.defaultParam c) (dbmlDefault c) := by
  unfold Dbml.defaultParam dbmlDefault
  by_cases h0 : c.defaultValue = []
  · rw [if_pos h0, if_pos h0]; exact .nil
  · rw [if_neg h0, if_neg h0]
    rcases h with h | h
    · exact absurd h h0
    · refine .cons ?_ .nil
      by_cases hs : c.type = "char"ₛ ∨ c.type = "varchar"ₛ
      · rw [if_pos hs] at h
        rw [if_pos hs, if_pos ((isStringType_iff ht).2 hs)]
        refine ⟨["default:"ₛ, "'"ₛ ++ c.defaultValue ++ "'"ₛ], ?_, ?_, ?_, ?_⟩
        · rw [join_cons_cons]; rfl
        · intro x hx
          rcases List.mem_cons.1 hx with rfl | hx
          · exact ⟨good_literal _ (by decide), by decide⟩
          · rw [List.mem_singleton.1 hx]
            exact ⟨good_single ⟨h.1, h.2.1⟩, by simp⟩
        · unfold readDbmlSetting
          dsimp only
          rw [if_neg (by decide), if_pos rfl]
          unfold readDbmlValue
          rw [show unwrap '\'' '\'' ("'"ₛ ++ c.defaultValue ++ "'"ₛ) = some c.defaultValue from unwrap_wrap _ _ _]
          dsimp only
          rw [unescape_plain h.1 h.2.1]
          rfl
        · exact newline_append (by decide) (newline_append (newline_append (by decide) h.2.2) (by decide))
      · rw [if_neg hs] at h
        rw [if_neg hs, if_neg (fun e => hs ((isStringType_iff ht).1 e))]
        have hw := raw_chars h
        refine ⟨["default:"ₛ, c.defaultValue], ?_, ?_, ?_, ?_⟩
        · rw [join_cons_cons]; rfl
        · intro x hx
          rcases List.mem_cons.1 hx with rfl | hx
          · exact ⟨good_literal _ (by decide), by decide⟩
          · rw [List.mem_singleton.1 hx]
            exact ⟨good_chars hw.2, h0⟩
        · unfold readDbmlSetting
          dsimp only
          rw [if_neg (by decide), if_pos rfl]
          have hq : ∀ q, isQuote q = true → unwrap q q c.defaultValue = none := by
            intro q hq
            apply unwrap_none
            cases hd : c.defaultValue with
            | nil => simp
            | cons x r =>
              intro e
              cases e
              rw [(hw.2 q (by rw [hd]; simp)).2.1] at hq; cases hq
          unfold readDbmlValue
          rw [hq _ rfl, hq _ rfl]
          dsimp only
          rw [if_pos]
          · rfl
          · rcases h with h | h
            · rw [h]; rfl
            · have : ∀ s ∈ ["true"ₛ, "false"ₛ, "null"ₛ],
                (isNumber s || s == "true"ₛ || s == "false"ₛ || s == "null"ₛ) = true := by decide
              exact this _ h
        · exact newline_append (by decide) (newline_of_word hw.2)

theorem newline_ident {s : Str} (h : Ident s) : '\n' ∉ s := ident_not (by decide) h

theorem ref_text {defined : List Str} {c : Column} (h : ∀ r, c.ref = some r → Ident r.table ∧ Ident r.column) :
    List.Forall₂ SettingText (Dbml.refParam defined c) (dbmlRefSetting defined c) := by
  unfold Dbml.refParam dbmlRefSetting
  cases hr : c.ref with
  | none => exact .nil
  | some r =>
    obtain ⟨h1, h2⟩ := h r hr
    dsimp only
    by_cases hd : r.table ∈ defined
    · rw [if_pos hd, if_pos hd]
      obtain ⟨k1, k2, k3, k4⟩ := rel_ok r.relationship
      refine .cons ⟨["ref:"ₛ, dbmlRel r.relationship, r.table ++ "."ₛ ++ r.column], ?_, ?_, ?_, ?_⟩ .nil
      · rw [rel_eq, join_cons_cons, join_cons_cons]
        simp only [join, List.append_assoc]
        rfl
      · intro x hx
        simp only [List.mem_cons, List.not_mem_nil, or_false] at hx
        rcases hx with rfl | rfl | rfl
        · exact ⟨good_literal _ (by decide), by decide⟩
        · exact ⟨k2, k3⟩
        · exact ⟨good_dotted h1 h2, by simp⟩
      · show (if "ref:"ₛ = "ref:"ₛ ∧ isDbmlRel (dbmlRel r.relationship) = true then _ else _) = _
        rw [if_pos ⟨rfl, k1⟩, readDotted_of h1]
        rfl
      · rw [rel_eq]
        exact newline_append (newline_append (newline_append (newline_append (newline_append (by decide) k4)
          (by decide)) (newline_ident h1)) (by decide)) (newline_ident h2)
    · rw [if_neg hd, if_neg hd]; exact .nil

theorem ite_text {b : Bool} {p : Str} {s : DbmlSetting} (h : SettingText p s) :
    List.Forall₂ SettingText (if b then [p] else []) (if b then [s] else []) := by
  cases b
  · exact .nil
  · exact .cons h .nil

theorem forall₂_append {α β : Type} {R : α → β → Prop} {a c : List α} {b d : List β} (h1 : List.Forall₂ R a b)
    (h2 : List.Forall₂ R c d) : List.Forall₂ R (a ++ c) (b ++ d) := by
  induction h1 with
  | nil => exact h2
  | cons h _ ih => exact .cons h ih

theorem params_text {defined : List Str} {c : Column} (h : PlainDbmlColumn c) :
    List.Forall₂ SettingText (Dbml.params defined c) (dbmlSettings defined c) := by
  unfold Dbml.params dbmlSettings
  refine forall₂_append (forall₂_append (forall₂_append (forall₂_append (forall₂_append
    (ite_text ?_) (ite_text ?_)) (ite_text ?_)) (default_text h.type h.default)) (ref_text h.ref)) ?_
  · refine ⟨["pk"ₛ], rfl, ?_, by decide, by decide⟩
    intro x hx; rw [List.mem_singleton.1 hx]; exact ⟨good_literal _ (by decide), by decide⟩
  · refine ⟨["unique"ₛ], rfl, ?_, by decide, by decide⟩
    intro x hx; rw [List.mem_singleton.1 hx]; exact ⟨good_literal _ (by decide), by decide⟩
  · refine ⟨["not"ₛ, "null"ₛ], rfl, ?_, by decide, by decide⟩
    intro x hx
    simp only [List.mem_cons, List.not_mem_nil, or_false] at hx
    rcases hx with rfl | rfl <;> exact ⟨good_literal _ (by decide), by decide⟩
  · by_cases h0 : c.description = []
    · rw [if_pos h0, if_pos h0]; exact .nil
    · rw [if_neg h0, if_neg h0]
      obtain ⟨d1, d2, d3⟩ := h.description
      refine .cons ⟨["note:"ₛ, "\""ₛ ++ c.description ++ "\""ₛ], ?_, ?_, ?_, ?_⟩ .nil
      · rw [join_cons_cons]; rfl
      · intro x hx
        simp only [List.mem_cons, List.not_mem_nil, or_false] at hx
        rcases hx with rfl | rfl
        · exact ⟨good_literal _ (by decide), by decide⟩
        · exact ⟨.quoted '"' c.description rfl rfl d1 (Or.inr d2), by simp⟩
      · unfold readDbmlSetting
        dsimp only
        rw [if_neg (by decide), if_neg (by decide), if_pos rfl,
          show unquote '"' ("\""ₛ ++ c.description ++ "\""ₛ) = some c.description from unquote_wrap d1 d2]
        rfl
      · exact newline_append (newline_append (by decide) d3) (by decide)

/-! ### Lines -/

theorem type_text {c : Column} (h : Ident c.type) :
    Good sqlSep (Dbml.columnType c) ∧ Dbml.columnType c ≠ [] ∧ '\n' ∉ Dbml.columnType c ∧ '[' ∉ Dbml.columnType c ∧
    readDbmlType (Dbml.columnType c) = some (c.type, c.size.toNat, if c.size = 0 then 0 else c.scale.toNat) := by
  have hp : '(' ∉ c.type := ident_not (by decide) h
  have hd : ∀ {x : Char} (n : Nat), isDigit x = false → x ∉ itoa n := fun n hx => not_mem_itoa hx n
  have hall : ∀ n, (itoa n).all isDigit = true := fun n => List.all_eq_true.2 (itoa_digits n)
  unfold Dbml.columnType
  by_cases h0 : c.size > 0
  · have h0' : c.size ≠ 0 := uint16_pos.1 h0
    rw [if_pos h0]
    by_cases h1 : c.scale > 0
    · rw [if_pos h1]
      have e : c.type ++ "("ₛ ++ itoa c.size.toNat ++ ","ₛ ++ itoa c.scale.toNat ++ ")"ₛ =
          c.type ++ '(' :: ((itoa c.size.toNat ++ ',' :: itoa c.scale.toNat) ++ [')']) := by simp
      rw [e]
      refine ⟨?_, by simp, ?_, ?_, ?_⟩
      · refine .append _ _ (good_ident h) (.paren _ rfl ?_)
        refine .append _ _ (Good.none (good_itoa _)) (.cons (.char _ rfl rfl (by decide) (by decide)) (Good.none (good_itoa _)))
      · refine newline_append (newline_ident h) ?_
        simp only [List.mem_cons, List.mem_append, List.not_mem_nil, or_false, not_or]
        exact ⟨by decide, ⟨hd _ rfl, by decide, hd _ rfl⟩, by decide⟩
      · simp only [List.mem_cons, List.mem_append, List.not_mem_nil, or_false, not_or]
        exact ⟨ident_not (by decide) h, by decide, ⟨hd _ rfl, by decide, hd _ rfl⟩, by decide⟩
      · unfold readDbmlType
        rw [splitN2_append_sep hp]
        show readDbmlArgs _ _ = _
        unfold readDbmlArgs
        rw [if_pos List.getLast?_concat, List.dropLast_concat, split_append_sep (hd _ rfl), split_no_sep (hd _ rfl)]
        dsimp only
        rw [hall, hall, digitsVal_itoa, digitsVal_itoa, if_neg h0']
        rfl
    · have h1' : c.scale = 0 := by
        by_contra e; exact h1 (uint16_pos.2 e)
      rw [if_neg h1]
      have e : c.type ++ "("ₛ ++ itoa c.size.toNat ++ ")"ₛ = c.type ++ '(' :: (itoa c.size.toNat ++ [')']) := by simp
      rw [e]
      refine ⟨?_, by simp, ?_, ?_, ?_⟩
      · exact .append _ _ (good_ident h) (.paren _ rfl (Good.none (good_itoa _)))
      · refine newline_append (newline_ident h) ?_
        simp only [List.mem_cons, List.mem_append, List.not_mem_nil, or_false, not_or]
        exact ⟨by decide, hd _ rfl, by decide⟩
      · simp only [List.mem_cons, List.mem_append, List.not_mem_nil, or_false, not_or]
        exact ⟨ident_not (by decide) h, by decide, hd _ rfl, by decide⟩
      · unfold readDbmlType
        rw [splitN2_append_sep hp]
        show readDbmlArgs _ _ = _
        unfold readDbmlArgs
        rw [if_pos List.getLast?_concat, List.dropLast_concat, split_no_sep (hd _ rfl)]
        dsimp only
        rw [hall, digitsVal_itoa, if_neg h0', h1']
        rfl
  · have h0' : c.size = 0 := by
      by_contra e; exact h0 (uint16_pos.2 e)
    rw [if_neg h0]
    refine ⟨good_ident h, h.1, newline_ident h, ident_not (by decide) h, ?_⟩
    unfold readDbmlType
    rw [splitN2_no_sep hp, h0']
    rfl

/-- The column as read. -/
def dbmlColumn (defined : List Str) (c : Column) : DbmlColumn :=
  ⟨c.name, c.type, c.size.toNat, if c.size = 0 then 0 else c.scale.toNat, dbmlSettings defined c⟩

theorem tokens_head {n t : Str} (hn : Good sqlSep n ∧ n ≠ []) (ht : Good sqlSep t ∧ t ≠ []) :
    tokens ("  "ₛ ++ n ++ " "ₛ ++ t) = [n, t] ∧ tokens ("  "ₛ ++ n ++ " "ₛ ++ t ++ " "ₛ) = [n, t] := by
  have e1 : "  "ₛ ++ n ++ " "ₛ ++ t = ' ' :: ' ' :: (n ++ ' ' :: t) := by simp
  have e2 : "  "ₛ ++ n ++ " "ₛ ++ t ++ " "ₛ = ' ' :: ' ' :: (n ++ ' ' :: (t ++ ' ' :: [])) := by simp
  rw [e2, e1, tokens_blank rfl, tokens_blank rfl, tokens_blank rfl, tokens_blank rfl,
    tokens_cons (Good.blank hn.1) hn.2 rfl, tokens_cons (Good.blank hn.1) hn.2 rfl,
    tokens_single (Good.blank ht.1) ht.2, tokens_cons (Good.blank ht.1) ht.2 rfl, tokens_nil]
  exact ⟨rfl, rfl⟩

theorem good_setting {p : Str} {s : DbmlSetting} (h : SettingText p s) : Good (· == ',') p := by
  obtain ⟨toks, rfl, h2, _⟩ := h
  exact good_join (.char ' ' rfl rfl (by decide) (by decide)) fun x hx => Good.comma (Good.defs (h2 x hx).1)

theorem read_setting {p : Str} {s : DbmlSetting} (h : SettingText p s) :
    readDbmlSetting (tokens p) = some s ∧ readDbmlSetting (tokens (" "ₛ ++ p)) = some s := by
  obtain ⟨toks, rfl, h2, h3, _⟩ := h
  have : tokens (join " "ₛ toks) = toks := tokens_join fun x hx => ⟨Good.blank (h2 x hx).1, (h2 x hx).2⟩
  refine ⟨by rw [this, h3], ?_⟩
  rw [show " "ₛ ++ join " "ₛ toks = ' ' :: join " "ₛ toks from rfl, tokens_blank rfl, this, h3]

theorem mapM_settings {ps : List Str} {ss : List DbmlSetting} (h : List.Forall₂ SettingText ps ss) (hne : ps ≠ []) :
    (parts (· == ',') (join ", "ₛ ps)).mapM (fun p => readDbmlSetting (tokens p)) = some ss := by
  cases h with
  | nil => exact absurd rfl hne
  | cons h1 h2 =>
    rename_i p s ps ss
    have hg : ∀ x ∈ p :: ps, Good (· == ',') x := by
      intro x hx
      obtain ⟨y, hy⟩ := forall₂_left (.cons h1 h2 : List.Forall₂ SettingText (p :: ps) (s :: ss)) x hx
      exact good_setting hy
    rw [show ", "ₛ = ',' :: [' '] from rfl,
      parts_join (sep := (· == ',')) (c := ',') rfl (m := [' ']) (.char ' ' rfl rfl (by decide) (by decide)) hg,
      List.mapM_cons, (read_setting h1).1]
    have : (ps.map ([' '] ++ ·)).mapM (fun p => readDbmlSetting (tokens p)) = some ss := by
      clear hg h1 hne
      induction h2 with
      | nil => rfl
      | cons h _ ih =>
        rw [List.map_cons, List.mapM_cons, show [' '] = " "ₛ from rfl, (read_setting h).2,
          show " "ₛ = [' '] from rfl, ih]
        rfl
    rw [this]
    rfl

theorem newline_join {sep : Str} (hs : '\n' ∉ sep) {l : List Str} (h : ∀ x ∈ l, '\n' ∉ x) : '\n' ∉ join sep l := by
  induction l with
  | nil => simp [join]
  | cons x l ih =>
    cases l with
    | nil => exact h x (by simp)
    | cons y r =>
      rw [join_cons_cons]
      exact newline_append (newline_append (h x (by simp)) hs) (ih fun z hz => h z (by simp [hz]))

/-- The line of a column is read as the column. -/
theorem column_read {defined : List Str} {c : Column} (h : PlainDbmlColumn c) :
    '\n' ∉ Dbml.columnLine defined c ∧ tokens (Dbml.columnLine defined c) ≠ ["}"ₛ] ∧
    readDbmlColumn (Dbml.columnLine defined c) = some (dbmlColumn defined c) := by
  have hp := params_text (defined := defined) h
  obtain ⟨t1, t2, t3, t4, t5⟩ := type_text (c := c) (ident_colType h.type)
  have hname := h.name
  have hgn := good_ident hname
  have hh : '[' ∉ "  "ₛ ++ c.name ++ " "ₛ ++ Dbml.columnType c := by
    simp only [List.mem_append, not_or]
    exact ⟨⟨⟨by decide, ident_not (by decide) hname⟩, by decide⟩, t4⟩
  have hnl : '\n' ∉ "  "ₛ ++ c.name ++ " "ₛ ++ Dbml.columnType c :=
    newline_append (newline_append (newline_append (by decide) (newline_ident hname)) (by decide)) t3
  obtain ⟨k1, k2⟩ := tokens_head ⟨hgn, hname.1⟩ ⟨t1, t2⟩
  unfold Dbml.columnLine
  by_cases h0 : Dbml.params defined c = []
  · rw [if_pos h0]
    refine ⟨hnl, ?_, ?_⟩
    · rw [k1]; intro e; exact absurd (congrArg List.length e) (by simp)
    · unfold readDbmlColumn
      rw [splitN2_no_sep hh]
      show readDbmlHead _ _ = _
      unfold readDbmlHead
      rw [k1]
      dsimp only
      rw [t5]
      have : dbmlSettings defined c = [] := by
        rw [h0] at hp; exact List.forall₂_nil_left_iff.1 hp
      unfold dbmlColumn
      rw [this]
      rfl
  · rw [if_neg h0]
    have e : "  "ₛ ++ c.name ++ " "ₛ ++ Dbml.columnType c ++ " ["ₛ ++ join ", "ₛ (Dbml.params defined c) ++ "]"ₛ =
        ("  "ₛ ++ c.name ++ " "ₛ ++ Dbml.columnType c ++ " "ₛ) ++ '[' :: (join ", "ₛ (Dbml.params defined c) ++ [']']) := by
      simp only [List.append_assoc]; rfl
    have hps : ∀ x ∈ Dbml.params defined c, '\n' ∉ x := by
      intro x hx
      obtain ⟨y, _, _, _, _, h⟩ := forall₂_left hp x hx
      exact h
    refine ⟨?_, ?_, ?_⟩
    · exact newline_append (newline_append (newline_append hnl (by decide)) (newline_join (by decide) hps)) (by decide)
    · intro hb
      have e2 : "  "ₛ ++ c.name ++ " "ₛ ++ Dbml.columnType c ++ " ["ₛ ++ join ", "ₛ (Dbml.params defined c) ++ "]"ₛ =
          ' ' :: ' ' :: (c.name ++ ' ' :: (Dbml.columnType c ++ " ["ₛ ++ join ", "ₛ (Dbml.params defined c) ++ "]"ₛ)) := by
        simp only [List.append_assoc]; rfl
      rw [e2, tokens_blank rfl, tokens_blank rfl, tokens_cons (Good.blank hgn) hname.1 rfl] at hb
      have := congrArg List.head? hb
      simp only [List.head?_cons, Option.some.injEq] at this
      rw [this] at hname
      exact absurd hname (by decide)
    · rw [e]
      unfold readDbmlColumn
      rw [splitN2_append_sep (by
        rw [List.mem_append, not_or]; exact ⟨hh, by decide⟩)]
      show (readDbmlSettings _).bind (readDbmlHead _) = _
      unfold readDbmlSettings
      rw [if_pos List.getLast?_concat, List.dropLast_concat, mapM_settings hp h0, Option.bind_some]
      unfold readDbmlHead
      rw [k2]
      dsimp only
      rw [t5]
      rfl

/-! ### Documents -/

theorem readDbmlLines_columns {defined : List Str} (n : Str) (rest : List Str) :
    ∀ (cs : List Column) (acc : List DbmlColumn), (∀ c ∈ cs, PlainDbmlColumn c) →
      readDbmlLines (some (n, acc)) (cs.map (Dbml.columnLine defined) ++ rest) =
        readDbmlLines (some (n, acc ++ cs.map (dbmlColumn defined))) rest := by
  intro cs
  induction cs with
  | nil => intro acc _; simp
  | cons c cs ih =>
    intro acc h
    obtain ⟨_, h1, h2⟩ := column_read (defined := defined) (h c (by simp))
    rw [List.map_cons, List.cons_append, readDbmlLines, if_neg h1, h2]
    dsimp only
    rw [ih _ fun c hc => h c (by simp [hc])]
    simp

/-- The tables as read. -/
def dbmlTables (defined : List Str) : List Table → List DbmlTable
  | [] => []
  | t :: ts => ⟨t.name, t.columns.map (dbmlColumn defined)⟩ :: dbmlTables (t.name :: defined) ts

/-- The relation of a column that is written at the end. -/
def laterRef (defined : List Str) (n : Str) (c : Column) : Option DbmlRef :=
  match c.ref with
  | none => none
  | some r => if r.table ∈ defined then none else some ⟨n, c.name, dbmlRel r.relationship, r.table, r.column⟩

/-- The relations at the end as read. -/
def dbmlDeferred (defined : List Str) : List Table → List DbmlRef
  | [] => []
  | t :: ts => t.columns.filterMap (laterRef defined t.name) ++ dbmlDeferred (t.name :: defined) ts

theorem tokens_table {n : Str} (h : Ident n) : tokens ("Table "ₛ ++ n ++ " {"ₛ) = ["Table"ₛ, n, "{"ₛ] := by
  have e : "Table "ₛ ++ n ++ " {"ₛ = "Table"ₛ ++ ' ' :: (n ++ ' ' :: "{"ₛ) := by
    simp only [List.append_assoc]; rfl
  rw [e, tokens_cons (Good.blank (good_literal _ (by decide))) (by decide) rfl,
    tokens_cons (Good.blank (good_ident h)) h.1 rfl, tokens_single (Good.blank (good_literal _ (by decide))) (by decide)]

theorem readDbmlLines_tables (rest : List Str) (d : DbmlDoc) (hd : readDbmlLines none rest = some d) :
    ∀ (ts : List Table) (defined : List Str), (∀ t ∈ ts, PlainDbmlTable t) →
      readDbmlLines none ((Dbml.tablesLoop defined ts).1 ++ rest) = some ⟨dbmlTables defined ts ++ d.tables, d.refs⟩ := by
  intro ts
  induction ts with
  | nil => intro defined _; exact hd
  | cons t ts ih =>
    intro defined h
    obtain ⟨h1, h2⟩ := h t (by simp)
    have hh : readDbmlTop ("Table "ₛ ++ t.name ++ " {"ₛ) = some (.table t.name) := by
      unfold readDbmlTop
      rw [tokens_table h1]
      dsimp only
      rw [if_pos ⟨rfl, rfl⟩]
    rw [Dbml.tablesLoop]
    dsimp only
    rw [List.cons_append, readDbmlLines, hh]
    dsimp only
    rw [List.append_assoc, readDbmlLines_columns _ _ _ _ h2, List.cons_append, readDbmlLines, if_pos (by decide),
      List.cons_append, readDbmlLines, show readDbmlTop [] = some .blank from rfl]
    dsimp only
    rw [ih _ fun t ht => h t (by simp [ht])]
    rfl

/-- The lines of the relations at the end. -/
theorem readDbmlLines_refs : ∀ (ls : List Str) (rs : List DbmlRef),
    List.Forall₂ (fun l r => readDbmlTop l = some (.ref r)) ls rs → readDbmlLines none ls = some ⟨[], rs⟩ := by
  intro ls rs h
  induction h with
  | nil => rfl
  | cons h _ ih => rw [readDbmlLines, h]; dsimp only; rw [ih]; rfl

theorem deferred_text {defined : List Str} {n : Str} (hn : Ident n) : ∀ (cs : List Column), (∀ c ∈ cs, PlainDbmlColumn c) →
    List.Forall₂ (fun l r => readDbmlTop l = some (.ref r) ∧ '\n' ∉ l) (cs.flatMap (Dbml.deferredRef defined n))
      (cs.filterMap (laterRef defined n)) := by
  intro cs
  induction cs with
  | nil => intro _; exact .nil
  | cons c cs ih =>
    intro h
    have hih := ih fun c hc => h c (by simp [hc])
    have hc := h c (by simp)
    rw [List.flatMap_cons]
    cases hr : c.ref with
    | none =>
      have e : Dbml.deferredRef defined n c = [] := by unfold Dbml.deferredRef; rw [hr]
      rw [e, List.filterMap_cons_none (by unfold laterRef; rw [hr])]
      exact hih
    | some r =>
      obtain ⟨r1, r2⟩ := hc.ref r hr
      by_cases hm : r.table ∈ defined
      · have e : Dbml.deferredRef defined n c = [] := by unfold Dbml.deferredRef; rw [hr]; dsimp only; rw [if_pos hm]
        rw [e, List.filterMap_cons_none (by unfold laterRef; rw [hr]; dsimp only; rw [if_pos hm])]
        exact hih
      · have e : Dbml.deferredRef defined n c = ["Ref: "ₛ ++ n ++ "."ₛ ++ c.name ++ " "ₛ ++ Dbml.relationshipType r ++ " "ₛ ++
            r.table ++ "."ₛ ++ r.column] := by unfold Dbml.deferredRef; rw [hr]; dsimp only; rw [if_neg hm]
        rw [e, List.filterMap_cons_some (b := ⟨n, c.name, dbmlRel r.relationship, r.table, r.column⟩)
          (by unfold laterRef; rw [hr]; dsimp only; rw [if_neg hm])]
        refine .cons ?_ hih
        obtain ⟨k1, k2, k3, k4⟩ := rel_ok r.relationship
        rw [rel_eq]
        constructor
        · have e : "Ref: "ₛ ++ n ++ "."ₛ ++ c.name ++ " "ₛ ++ dbmlRel r.relationship ++ " "ₛ ++ r.table ++ "."ₛ ++ r.column =
              "Ref:"ₛ ++ ' ' :: ((n ++ "."ₛ ++ c.name) ++ ' ' :: (dbmlRel r.relationship ++ ' ' ::
                (r.table ++ "."ₛ ++ r.column))) := by
            simp only [List.append_assoc]; rfl
          unfold readDbmlTop
          rw [e, tokens_cons (Good.blank (good_literal _ (by decide))) (by decide) rfl,
            tokens_cons (Good.blank (good_dotted hn hc.name)) (by simp) rfl,
            tokens_cons (Good.blank k2) k3 rfl,
            tokens_single (Good.blank (good_dotted r1 r2)) (by simp)]
          dsimp only
          rw [if_pos ⟨rfl, k1⟩, readDotted_of hn, readDotted_of r1]
        · exact newline_append (newline_append (newline_append (newline_append (newline_append (newline_append
            (newline_append (newline_append (newline_append (by decide) (newline_ident hn)) (by decide))
              (newline_ident hc.name)) (by decide)) k4) (by decide)) (newline_ident r1)) (by decide)) (newline_ident r2)

theorem deferred_lines : ∀ (ts : List Table) (defined : List Str), (∀ t ∈ ts, PlainDbmlTable t) →
    List.Forall₂ (fun l r => readDbmlTop l = some (.ref r) ∧ '\n' ∉ l) (Dbml.tablesLoop defined ts).2
      (dbmlDeferred defined ts) := by
  intro ts
  induction ts with
  | nil => intro _ _; exact .nil
  | cons t ts ih =>
    intro defined h
    exact forall₂_append (deferred_text (h t (by simp)).1 _ (h t (by simp)).2) (ih _ fun t ht => h t (by simp [ht]))

theorem tables_newline : ∀ (ts : List Table) (defined : List Str), (∀ t ∈ ts, PlainDbmlTable t) →
    ∀ l ∈ (Dbml.tablesLoop defined ts).1, '\n' ∉ l := by
  intro ts
  induction ts with
  | nil => intro _ _ l hl; cases hl
  | cons t ts ih =>
    intro defined h l hl
    obtain ⟨h1, h2⟩ := h t (by simp)
    rw [Dbml.tablesLoop] at hl
    dsimp only at hl
    rcases List.mem_cons.1 hl with rfl | hl
    · exact newline_append (newline_append (by decide) (newline_ident h1)) (by decide)
    · rcases List.mem_append.1 hl with hl | hl
      · obtain ⟨c, hc, rfl⟩ := List.mem_map.1 hl
        exact (column_read (h2 c hc)).1
      · rcases List.mem_cons.1 hl with rfl | hl
        · decide
        · rcases List.mem_cons.1 hl with rfl | hl
          · decide
          · exact ih _ (fun t ht => h t (by simp [ht])) l hl

theorem join_join (sep : Str) (l m : List Str) :
    join sep (l ++ [join sep m]) = join sep (l ++ if m = [] then [[]] else m) := by
  induction l with
  | nil =>
    by_cases h : m = []
    · subst h; rfl
    · rw [if_neg h]; rfl
  | cons x l ih =>
    have h1 : l ++ [join sep m] ≠ [] := by simp
    have h2 : (l ++ if m = [] then [[]] else m) ≠ [] := by
      by_cases h : m = []
      · rw [if_pos h]; simp
      · rw [if_neg h]; simp [h]
    rw [List.cons_append, List.cons_append, join_cons _ _ h1, join_cons _ _ h2, ih]

/-- What is exported is read as the tables and the deferred relations. -/
theorem readDbml_export (filter : Option (Table → Bool)) (s : Schema) (h : ∀ t ∈ s.tables, PlainDbmlTable t) :
    readDbml (Dbml.exportText filter s) = some ⟨dbmlTables [] s.tables, dbmlDeferred [] s.tables⟩ := by
  have hd := deferred_lines s.tables [] h
  have ht := tables_newline s.tables [] h
  unfold readDbml Dbml.exportText
  dsimp only
  rw [join_join, show "\n"ₛ = ['\n'] from rfl, split_join]
  · by_cases hm : (Dbml.tablesLoop [] s.tables).2 = []
    · rw [if_pos hm]
      have e : dbmlDeferred [] s.tables = [] := by rw [hm] at hd; exact List.forall₂_nil_left_iff.1 hd
      rw [readDbmlLines_tables [[]] ⟨[], []⟩ rfl _ _ h, e, List.append_nil]
    · rw [if_neg hm, readDbmlLines_tables _ ⟨[], dbmlDeferred [] s.tables⟩
        (readDbmlLines_refs _ _ (hd.imp fun _ _ h => h.1)) _ _ h, List.append_nil]
  · split <;> simp_all
  · intro l hl
    rcases List.mem_append.1 hl with hl | hl
    · exact ht l hl
    · split at hl
      · rw [List.mem_singleton.1 hl]; simp
      · obtain ⟨y, hy⟩ := forall₂_left hd l hl
        exact hy.2

end Octo
