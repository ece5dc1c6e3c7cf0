import Verif.Lemmas.Str
import Verif.Spec.Sql

/-! Facts about the SQL reader. -/

namespace Octo.Spec

/-- Texts in which quotes and parentheses are balanced and `sep` does not occur at the top level. -/
inductive Good : (Char → Bool) → Str → Prop
  | nil {sep : Char → Bool} : Good sep []
  | char {sep : Char → Bool} (c : Char) (h : sep c = false) (hq : isQuote c = false) (ho : c ≠ '(') (hc : c ≠ ')') :
      Good sep [c]
  | quoted {sep : Char → Bool} (q : Char) (s : Str) (hq : isQuote q = true) (hs : sep q = false) (h : q ∉ s)
      (hb : q = '`' ∨ '\\' ∉ s) : Good sep ([q] ++ s ++ [q])
  | paren {sep : Char → Bool} (s : Str) (hs : sep '(' = false) (h : Good (fun _ => false) s) :
      Good sep (['('] ++ s ++ [')'])
  | append {sep : Char → Bool} (s t : Str) (hs : Good sep s) (ht : Good sep t) : Good sep (s ++ t)

theorem splitTop_quoted (sep : Char → Bool) (q : Char) (s : Str) (h : q ∉ s) (hb : q = '`' ∨ '\\' ∉ s)
    (d : Nat) (cur rest : Str) :
    splitTop sep (.quoted q) d cur (s ++ [q] ++ rest) = splitTop sep .plain d (cur ++ s ++ [q]) rest := by
  induction s generalizing cur with
  | nil => simp [splitTop]
  | cons c s ih =>
    have hcq : c ≠ q := fun e => h (by simp [e])
    have hesc : (c == '\\' && q != '`') = false := by
      rcases hb with rfl | hb
      · simp
      · have : c ≠ '\\' := fun e => hb (by simp [e])
        simp [this]
    have hih := ih (fun hm => h (by simp [hm])) (hb.imp id (fun hb hm => hb (by simp [hm]))) (cur ++ [c])
    simp only [List.cons_append, splitTop, hcq, hesc, beq_iff_eq, if_false, Bool.false_eq_true]
    rw [hih]
    simp

theorem Good.splitTop {sep : Char → Bool} {s : Str} (h : Good sep s) (sep' : Char → Bool) (d : Nat)
    (hd : d = 0 → ∀ c, sep' c = true → sep c = true) (cur rest : Str) :
    splitTop sep' .plain d cur (s ++ rest) = splitTop sep' .plain d (cur ++ s) rest := by
  have key : ∀ {sep : Char → Bool} {d : Nat}, (d = 0 → ∀ c, sep' c = true → sep c = true) → ∀ c, sep c = false →
      (d == 0 && sep' c) = false := by
    intro sep d hd c hc
    cases d with
    | zero =>
      cases hs : sep' c with
      | true => rw [hd rfl c hs] at hc; cases hc
      | false => rfl
    | succ d => simp
  induction h generalizing d cur rest with
  | nil => simp
  | char c h hq ho hc =>
    simp only [List.cons_append, List.nil_append, Spec.splitTop, key hd c h, hq, ho, hc, beq_iff_eq, if_false,
      Bool.false_eq_true]
  | quoted q s hq hs h hb =>
    have ho : q ≠ '(' := by rintro rfl; revert hq; decide
    have hc : q ≠ ')' := by rintro rfl; revert hq; decide
    simp only [List.cons_append, List.nil_append, Spec.splitTop, key hd q hs, hq, ho, hc, beq_iff_eq, if_false,
      Bool.false_eq_true, if_true]
    rw [splitTop_quoted _ _ _ h hb]
    simp
  | paren s hs h ih =>
    have e1 : isQuote '(' = false := by decide
    have e2 : isQuote ')' = false := by decide
    simp only [List.cons_append, List.nil_append, Spec.splitTop, key hd '(' hs, e1, beq_self_eq_true, if_true,
      Bool.false_eq_true, if_false]
    rw [List.append_assoc, ih (d + 1) (by omega)]
    simp only [List.cons_append, List.nil_append, Spec.splitTop, e2, beq_iff_eq, if_false,
      Bool.false_eq_true]
    simp
  | append s t _ _ ihs iht => rw [List.append_assoc, ihs d hd, iht d hd, List.append_assoc]

theorem Good.mono {sep sep' : Char → Bool} {s : Str} (h : Good sep s) (hs : ∀ c, sep' c = true → sep c = true) :
    Good sep' s := by
  have key : ∀ {sep : Char → Bool}, (∀ c, sep' c = true → sep c = true) → ∀ c, sep c = false → sep' c = false := by
    intro sep hs c hc
    cases h' : sep' c
    · rfl
    · rw [hs c h'] at hc; cases hc
  induction h generalizing sep' with
  | nil => exact .nil
  | char c h hq ho hc => exact .char c (key hs c h) hq ho hc
  | quoted q s hq hs' h hb => exact .quoted q s hq (key hs q hs') h hb
  | paren s hs' h _ => exact .paren s (key hs _ hs') h
  | append s t _ _ ihs iht => exact .append s t (ihs hs key) (iht hs key)

theorem Good.cons {sep : Char → Bool} {c : Char} {s : Str} (hc : Good sep [c]) (hs : Good sep s) : Good sep (c :: s) :=
  .append [c] s hc hs

theorem good_chars {sep : Char → Bool} {s : Str}
    (h : ∀ c ∈ s, sep c = false ∧ isQuote c = false ∧ c ≠ '(' ∧ c ≠ ')') : Good sep s := by
  induction s with
  | nil => exact .nil
  | cons c s ih =>
    obtain ⟨h1, h2, h3, h4⟩ := h c (by simp)
    exact .cons (.char c h1 h2 h3 h4) (ih fun d hd => h d (by simp [hd]))

theorem good_join {sep : Char → Bool} {m : Str} (hm : Good sep m) {l : List Str} (h : ∀ s ∈ l, Good sep s) :
    Good sep (join m l) := by
  induction l with
  | nil => exact .nil
  | cons x l ih =>
    cases l with
    | nil => exact h x (by simp)
    | cons y r =>
      rw [join_cons_cons]
      exact .append _ _ (.append _ _ (h x (by simp)) hm) (ih fun s hs => h s (by simp [hs]))

/-- Top-level split of a text starting with a good part. -/
theorem parts_cons {sep : Char → Bool} {s : Str} (h : Good sep s) {c : Char} (hc : sep c = true) (rest : Str) :
    parts sep (s ++ c :: rest) = s :: parts sep rest := by
  rw [parts, h.splitTop sep 0 (fun _ _ h => h)]
  simp only [splitTop, hc, beq_self_eq_true, Bool.and_self, if_true, List.nil_append]
  rfl

theorem parts_single {sep : Char → Bool} {s : Str} (h : Good sep s) : parts sep s = [s] := by
  have := h.splitTop sep 0 (fun _ _ h => h) [] []
  rw [List.append_nil] at this
  rw [parts, this]
  rfl

theorem parts_blank {sep : Char → Bool} {c : Char} (hc : sep c = true) (rest : Str) :
    parts sep (c :: rest) = [] :: parts sep rest := by
  have := parts_cons (sep := sep) (s := []) .nil hc rest
  simpa using this

theorem tokens_cons {s : Str} (h : Good isBlank s) (hne : s ≠ []) {c : Char} (hc : isBlank c = true) (rest : Str) :
    tokens (s ++ c :: rest) = s :: tokens rest := by
  rw [tokens, parts_cons h hc, List.filter_cons_of_pos (by simpa using hne)]
  rfl

theorem tokens_single {s : Str} (h : Good isBlank s) (hne : s ≠ []) : tokens s = [s] := by
  rw [tokens, parts_single h, List.filter_cons_of_pos (by simpa using hne)]
  rfl

theorem tokens_blank {c : Char} (hc : isBlank c = true) (rest : Str) : tokens (c :: rest) = tokens rest := by
  rw [tokens, parts_blank hc, List.filter_cons_of_neg (by simp)]
  rfl

theorem tokens_nil : tokens [] = [] := rfl

/-- Trailing blanks do not matter. -/
theorem tokens_end {s : Str} (h : Good isBlank s) {c : Char} (hc : isBlank c = true) :
    tokens (s ++ [c]) = if s = [] then [] else [s] := by
  split
  · rename_i e; subst e; rw [List.nil_append, tokens_blank hc, tokens_nil]
  · rename_i e; rw [tokens_cons h e hc, tokens_nil]

/-- Tokens of words joined by single spaces. -/
theorem tokens_join {l : List Str} (h : ∀ s ∈ l, Good isBlank s ∧ s ≠ []) : tokens (join " "ₛ l) = l := by
  induction l with
  | nil => rfl
  | cons x l ih =>
    obtain ⟨h1, h2⟩ := h x (by simp)
    cases l with
    | nil => exact tokens_single h1 h2
    | cons y r =>
      rw [join_cons_cons, List.append_assoc]
      have : " "ₛ ++ join " "ₛ (y :: r) = ' ' :: join " "ₛ (y :: r) := rfl
      rw [this, tokens_cons h1 h2 rfl, ih fun s hs => h s (by simp [hs])]

/-- The same followed by a blank. -/
theorem tokens_join_end {l : List Str} (h : ∀ s ∈ l, Good isBlank s ∧ s ≠ []) {c : Char} (hc : isBlank c = true) :
    tokens (join " "ₛ l ++ [c]) = l := by
  induction l with
  | nil => rw [join, List.nil_append, tokens_blank hc, tokens_nil]
  | cons x l ih =>
    obtain ⟨h1, h2⟩ := h x (by simp)
    cases l with
    | nil => rw [join, tokens_cons h1 h2 hc, tokens_nil]
    | cons y r =>
      rw [join_cons_cons, List.append_assoc, List.append_assoc]
      have : " "ₛ ++ (join " "ₛ (y :: r) ++ [c]) = ' ' :: (join " "ₛ (y :: r) ++ [c]) := rfl
      rw [this, tokens_cons h1 h2 rfl, ih fun s hs => h s (by simp [hs])]

theorem unwrap_wrap (o c : Char) (s : Str) : unwrap o c ([o] ++ s ++ [c]) = some s := by
  simp [unwrap]

theorem unwrap_none {o c : Char} {s : Str} (h : s.head? ≠ some o) : unwrap o c s = none := by
  cases s with
  | nil => rfl
  | cons x r =>
    have : x ≠ o := by simpa using h
    simp [unwrap, this]

/-- Parts of a text joined by a separator, each part with leading blanks. -/
theorem parts_join {sep : Char → Bool} {c : Char} (hc : sep c = true) {m : Str} (hm : Good sep m)
    {x : Str} {l : List Str} (h : ∀ s ∈ x :: l, Good sep s) :
    parts sep (join (c :: m) (x :: l)) = x :: l.map (m ++ ·) := by
  have key : ∀ (l : List Str) (p x : Str), Good sep p → (∀ s ∈ x :: l, Good sep s) →
      parts sep (p ++ join (c :: m) (x :: l)) = (p ++ x) :: l.map (m ++ ·) := by
    intro l
    induction l with
    | nil => intro p x hp h; rw [join, parts_single (.append _ _ hp (h x (by simp)))]; rfl
    | cons y r ih =>
      intro p x hp h
      rw [join_cons_cons, ← List.append_assoc, ← List.append_assoc, List.append_assoc (p ++ x),
        List.cons_append, parts_cons (.append _ _ hp (h x (by simp))) hc,
        ih m y hm (fun s hs => h s (by simp [hs]))]
      rfl
  exact key l [] x .nil h

end Octo.Spec
