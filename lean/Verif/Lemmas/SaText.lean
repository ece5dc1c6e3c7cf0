import Verif.Lemmas.JpaRun
import Verif.Spec.Sqlalchemy

/-! Lemmas about the reader of Python files. -/

namespace Octo.Sqlalchemy
open Spec Protobuf Jpa

/-! ### Names -/

theorem mem_split {sep c : Char} {s : Str} (hc : c ∈ s) (hne : c ≠ sep) : ∃ p ∈ split sep s, c ∈ p := by
  by_contra h
  have h' : ∀ p ∈ split sep s, c ∉ p := fun p hp hm => h ⟨p, hp, hm⟩
  have key : ∀ l : List Str, (∀ p ∈ l, c ∉ p) → c ∉ join [sep] l := by
    intro l
    induction l with
    | nil => intro _ hm; cases hm
    | cons x l ih =>
      intro hl
      cases l with
      | nil => exact hl x (by simp)
      | cons y l =>
        rw [join_cons_cons]
        intro hm
        rcases List.mem_append.1 hm with hm | hm
        · rcases List.mem_append.1 hm with hm | hm
          · exact hl x (by simp) hm
          · exact hne (List.mem_singleton.1 hm)
        · exact ih (fun p hp => hl p (List.mem_cons_of_mem _ hp)) hm
  have := key _ h'
  rw [join_split] at this
  exact this hc

theorem dotted_name {s : Str} (h : PyName s) : PyDotted s := by
  unfold PyDotted
  rw [split_no_sep (ident_not (by decide) h.1)]
  intro p hp
  rw [List.mem_singleton.1 hp]; exact h

theorem dotted_not {s : Str} (h : PyDotted s) {c : Char} (hc : isIdent c = false) (hd : c ≠ '.') : c ∉ s := by
  intro hm
  obtain ⟨p, hp, hm⟩ := mem_split hm hd
  exact ident_not hc (h p hp).1 hm

theorem not_atom {s : Str} {c : Char} (hm : c ∈ s) (hc : isIdent c = false) (hd : c ≠ '.') (hq : s.head? ≠ some '\'') : ¬ PyAtom s := by
  rintro (h | h | h | h)
  · have := (digits_of h).2 c hm
    unfold isIdent at hc
    rw [this] at hc
    simp at hc
  · unfold unquote at h
    rw [unwrap_none hq] at h
    cases h
  · have : ∀ x ∈ pyConstants, Ident x := by decide
    exact ident_not hc (this s h) hm
  · exact dotted_not h hc hd hm

/-! ### Arguments -/

theorem readPyArg_good {α : Type} (arg : Str → Option α) {a : Str} (h : Good sqlSep a) :
    readPyArg arg a = if a = [] then none else readPyArgText arg a := by
  unfold readPyArg oneToken
  split
  · rename_i t ht
    by_cases e : a = []
    · subst e; cases ht
    · rw [tokens_single (Good.blank h) e] at ht
      cases ht
      rw [if_neg e]
  · rename_i hne
    by_cases e : a = []
    · rw [if_pos e]
    · exact absurd (tokens_single (Good.blank h) e) (hne _)

theorem readPyArg_blank {α : Type} (arg : Str → Option α) (a : Str) : readPyArg arg (" "ₛ ++ a) = readPyArg arg a := by
  unfold readPyArg oneToken
  rw [show " "ₛ ++ a = ' ' :: a from rfl, tokens_blank rfl]

/-- The arguments without the one after the last comma. -/
def trimArgs (l : List Str) : List Str := if l.getLastD [] = [] then l.dropLast else l

theorem getLastD_map_blank (l : List Str) (x : Str) :
    tokens ((x :: l.map (" "ₛ ++ ·)).getLastD []) = tokens ((x :: l).getLastD []) := by
  induction l generalizing x with
  | nil => rfl
  | cons y l ih =>
    have e : ∀ (a b : Str) (m : List Str), (a :: b :: m).getLastD [] = (b :: m).getLastD [] := fun a b m => by simp [List.getLastD]
    rw [List.map_cons, e, e]
    cases l with
    | nil => exact tokens_blank rfl y
    | cons z l =>
      have := ih (" "ₛ ++ y)
      rw [this, e, e]

theorem pyArgTexts_join {α : Type} (arg : Str → Option α) {l : List Str} (h : ∀ a ∈ l, Good sqlSep a) :
    (pyArgTexts (join ", "ₛ l)).mapM (readPyArg arg) = (trimArgs l).mapM (readPyArg arg) := by
  cases l with
  | nil => rfl
  | cons x l =>
    have e := parts_join (sep := (· == ',')) (c := ',') (by rfl) (m := " "ₛ) (good_chars (by decide)) (x := x) (l := l)
      (fun s hs => Good.comma (Good.defs (h s hs)))
    unfold pyArgTexts
    rw [show ", "ₛ = ',' :: " "ₛ from rfl, e]
    dsimp only
    rw [getLastD_map_blank]
    have hl : Good sqlSep ((x :: l).getLastD []) := by
      have : (x :: l).getLastD [] ∈ x :: l := by
        rw [show (x :: l).getLastD [] = (x :: l).getLast (by simp) by rw [List.getLastD_eq_getLast?, List.getLast?_eq_getLast_of_ne_nil (by simp)]; rfl]
        exact List.getLast_mem _
      exact h _ this
    have ht : tokens ((x :: l).getLastD []) = [] ↔ (x :: l).getLastD [] = [] := by
      constructor
      · intro ht
        by_contra hne
        rw [tokens_single (Good.blank hl) hne] at ht
        cases ht
      · intro e; rw [e]; rfl
    have key : ∀ m : List Str, (m.map (" "ₛ ++ ·)).mapM (readPyArg arg) = m.mapM (readPyArg arg) := by
      intro m
      rw [List.mapM_map]
      exact congrArg (fun f => List.mapM f m) (funext fun a => readPyArg_blank arg a)
    unfold trimArgs
    by_cases hn : (x :: l).getLastD [] = []
    · rw [if_pos (ht.2 hn), if_pos hn]
      cases l with
      | nil => rfl
      | cons y l =>
        rw [List.map_cons, List.dropLast_cons_cons, List.dropLast_cons_cons, List.mapM_cons, List.mapM_cons, ← List.map_cons (f := (" "ₛ ++ ·)),
          List.map_dropLast.symm, key]
    · rw [if_neg (fun e => hn (ht.1 e)), if_neg hn, List.mapM_cons, List.mapM_cons, key]

theorem readPyArgs_join {α : Type} (arg : Str → Option α) {l : List Str} (h : ∀ a ∈ l, Good sqlSep a) :
    readPyArgs arg (join ", "ₛ l) = ((trimArgs l).mapM (readPyArg arg)).bind fun as => if PyOrder as then some as else none := by
  unfold readPyArgs
  rw [pyArgTexts_join arg h]

/-- A named argument as it is written. -/
theorem readPyArgText_named {α : Type} (arg : Str → Option α) {k : Str} (v : Str) (hk : PyName k) :
    readPyArgText arg (k ++ "="ₛ ++ v) = (arg v).map fun v => (some k, v) := by
  unfold readPyArgText
  rw [List.append_assoc, show "="ₛ ++ v = '=' :: v from rfl, splitN2_append_sep (ident_not (by decide) hk.1)]
  exact if_pos hk

theorem splitN2_append {sep : Char} {x : Str} (h : sep ∉ x) (r : Str) : (splitN2 sep (x ++ r)).1 = x ++ (splitN2 sep r).1 := by
  cases hr : splitN2 sep r with
  | mk a b =>
    cases b with
    | none =>
      have hn : sep ∉ r := splitN2_snd_none.1 (by rw [hr])
      rw [splitN2_no_sep hn] at hr
      rw [splitN2_no_sep (p := x ++ r) (by rw [List.mem_append]; tauto)]
      cases hr; rfl
    | some b =>
      obtain ⟨e, hn⟩ := splitN2_some hr
      rw [e, ← List.append_assoc, splitN2_append_sep (by rw [List.mem_append]; tauto)]

/-- A positional argument: no name stands before an equality sign. -/
theorem readPyArgText_positional {α : Type} (arg : Str → Option α) {x r : Str} {c : Char} (h : '=' ∉ x) (hm : c ∈ x) (hc : isIdent c = false) :
    readPyArgText arg (x ++ r) = (arg (x ++ r)).map fun v => (none, v) := by
  have h1 := splitN2_append h r
  unfold readPyArgText
  split
  · rename_i k v he
    rw [he] at h1
    rw [if_neg]
    intro hk
    refine ident_not hc hk.1 ?_
    rw [show k = _ from h1]
    exact List.mem_append_left _ hm
  · rfl

theorem readPyArgText_plain {α : Type} (arg : Str → Option α) {s : Str} (h : '=' ∉ s) :
    readPyArgText arg s = (arg s).map fun v => (none, v) := by
  unfold readPyArgText
  rw [splitN2_no_sep h]

/-! ### Expressions -/

theorem readPyNode_call {α : Type} (arg : Str → Option α) {f : Str} (as : Str) (hf : PyDotted f) :
    readPyNode arg (f ++ "("ₛ ++ as ++ ")"ₛ) = (readPyArgs arg as).map (.call f) := by
  have hne : f ≠ [] := by
    rintro rfl
    exact absurd (hf [] (by decide)).1.1 (by simp)
  have e : f ++ "("ₛ ++ as ++ ")"ₛ = f ++ '(' :: (as ++ ")"ₛ) := by simp
  unfold readPyNode
  rw [e, if_neg, splitN2_append_sep (dotted_not hf (by decide) (by decide))]
  · dsimp only
    rw [if_pos hf, ktBefore_append, Option.bind_some]
  · refine not_atom (c := '(') (by simp) (by decide) (by decide) ?_
    cases f with
    | nil => exact absurd rfl hne
    | cons a f =>
      intro h
      rw [List.cons_append, List.head?_cons] at h
      cases h
      exact dotted_not hf (c := '\'') (by decide) (by decide) (by simp)

theorem readPyNode_atom {α : Type} (arg : Str → Option α) {s : Str} (h : PyAtom s) : readPyNode arg s = some (.atom s) := if_pos h

/-- A text in quotes. -/
def pyQuoted (s : Str) : Str := "'"ₛ ++ s ++ "'"ₛ

theorem unquote_pyQuoted {s : Str} (h : PlainQuoted '\'' s) : unquote '\'' (pyQuoted s) = some s := unquote_wrap h.1 h.2.1

theorem atom_pyQuoted {s : Str} (h : PlainQuoted '\'' s) : PyAtom (pyQuoted s) := by
  right; left
  rw [unquote_pyQuoted h]; rfl

theorem lineWord_pyQuoted {s : Str} (h : PlainQuoted '\'' s) : LineWord (pyQuoted s) := by
  refine ⟨.quoted '\'' s rfl rfl h.1 (Or.inr h.2.1), by simp [pyQuoted], ?_⟩
  exact newline_append (newline_append (by decide) h.2.2) (by decide)

theorem positional_pyQuoted {α : Type} (arg : Str → Option α) (s : Str) :
    readPyArgText arg (pyQuoted s) = (arg (pyQuoted s)).map fun v => (none, v) := by
  unfold pyQuoted
  rw [List.append_assoc]
  exact readPyArgText_positional arg (c := '\'') (by decide) (by decide) (by decide)

theorem atom_itoa (n : Nat) : PyAtom (itoa n) := by
  left
  unfold isDigits
  rw [Bool.and_eq_true]
  refine ⟨?_, List.all_eq_true.2 (itoa_digits n)⟩
  cases h : itoa n with
  | nil => exact absurd h (itoa_ne_nil n)
  | cons a l => rfl

end Octo.Sqlalchemy
