import Verif.Basic.Str
import Mathlib.Tactic.Linarith

/-! Helper lemmas about the string functions of `Verif.Basic.Str`. -/

namespace Octo

/-! ### lower -/

theorem toNat_toLower (c : Char) :
    c.toLower.toNat = if 65 ≤ c.toNat ∧ c.toNat ≤ 90 then c.toNat + 32 else c.toNat := by
  have hA : ('A'.val : UInt32).toNat = 65 := rfl
  have hZ : ('Z'.val : UInt32).toNat = 90 := rfl
  have hd : ('a'.val - 'A'.val : UInt32).toNat = 32 := rfl
  simp only [Char.toLower, Char.toNat, ge_iff_le, UInt32.le_iff_toNat_le, hA, hZ]
  split_ifs with h
  · show (c.val + ('a'.val - 'A'.val)).toNat = _
    rw [UInt32.toNat_add, hd]
    have : c.val.toNat + 32 < 2 ^ 32 := by omega
    omega
  · rfl

theorem toLower_toLower (c : Char) : c.toLower.toLower = c.toLower := by
  apply Char.ext
  apply UInt32.toNat_inj.mp
  show c.toLower.toLower.toNat = c.toLower.toNat
  rw [toNat_toLower c.toLower, toNat_toLower c]
  split_ifs <;> omega

theorem lower_lower (s : Str) : lower (lower s) = lower s := by
  simp [lower, toLower_toLower]

/-! ### prefix -/

theorem hasPrefix_iff (s p : Str) : hasPrefix s p = true ↔ ∃ t, s = p ++ t := by
  induction p generalizing s with
  | nil => simp [hasPrefix]
  | cons b p ih =>
    cases s with
    | nil => simp [hasPrefix]
    | cons a s =>
      simp only [hasPrefix, Bool.and_eq_true, beq_iff_eq, ih]
      constructor
      · rintro ⟨rfl, t, rfl⟩; exact ⟨t, rfl⟩
      · rintro ⟨t, h⟩
        simp only [List.cons_append, List.cons.injEq] at h
        exact ⟨h.1, t, h.2⟩

theorem hasPrefix_append (p t : Str) : hasPrefix (p ++ t) p = true :=
  (hasPrefix_iff _ _).2 ⟨t, rfl⟩

theorem hasSuffix_iff (s p : Str) : hasSuffix s p = true ↔ ∃ t, s = t ++ p := by
  rw [hasSuffix, hasPrefix_iff]
  constructor
  · rintro ⟨t, h⟩
    refine ⟨t.reverse, ?_⟩
    have := congrArg List.reverse h
    simpa using this
  · rintro ⟨t, rfl⟩; exact ⟨t.reverse, by simp⟩

theorem containsSub_iff (s p : Str) : containsSub s p = true ↔ ∃ a b, s = a ++ p ++ b := by
  induction s with
  | nil =>
    simp only [containsSub, List.isEmpty_iff]
    constructor
    · rintro rfl; exact ⟨[], [], rfl⟩
    · rintro ⟨a, b, h⟩
      have := congrArg List.length h
      simp at this
      exact List.eq_nil_of_length_eq_zero (by omega)
  | cons c s ih =>
    simp only [containsSub, Bool.or_eq_true, hasPrefix_iff, ih]
    constructor
    · rintro (⟨t, h⟩ | ⟨a, b, h⟩)
      · exact ⟨[], t, by simpa using h⟩
      · exact ⟨c :: a, b, by simp [h]⟩
    · rintro ⟨a, b, h⟩
      cases a with
      | nil => left; exact ⟨b, by simpa using h⟩
      | cons x a =>
        right
        simp only [List.cons_append, List.cons.injEq] at h
        exact ⟨a, b, h.2⟩

/-! ### split and join -/

theorem split_ne_nil (sep : Char) (s : Str) : split sep s ≠ [] := by
  cases s with
  | nil => simp [split]
  | cons c s =>
    simp only [split]
    split_ifs
    · simp
    · cases split sep s <;> simp

theorem split_cons_ne {sep c : Char} (h : c ≠ sep) (s : Str) :
    split sep (c :: s) = (c :: (split sep s).headD []) :: (split sep s).tail := by
  simp only [split, if_neg h]
  cases hs : split sep s with
  | nil => exact absurd hs (split_ne_nil sep s)
  | cons x t => simp

theorem split_no_sep {sep : Char} {p : Str} (h : sep ∉ p) : split sep p = [p] := by
  induction p with
  | nil => rfl
  | cons c p ih =>
    simp only [List.mem_cons, not_or] at h
    rw [split_cons_ne (Ne.symm h.1), ih h.2]; rfl

theorem split_append_sep {sep : Char} {p : Str} (h : sep ∉ p) (s : Str) :
    split sep (p ++ sep :: s) = p :: split sep s := by
  induction p with
  | nil => simp [split]
  | cons c p ih =>
    simp only [List.mem_cons, not_or] at h
    rw [List.cons_append, split_cons_ne (Ne.symm h.1), ih h.2]; rfl

theorem join_cons_cons (sep x y : Str) (r : List Str) :
    join sep (x :: y :: r) = x ++ sep ++ join sep (y :: r) := rfl

theorem join_cons (sep x : Str) {r : List Str} (h : r ≠ []) :
    join sep (x :: r) = x ++ sep ++ join sep r := by
  cases r with
  | nil => exact absurd rfl h
  | cons y r => rfl

theorem join_split (sep : Char) (s : Str) : join [sep] (split sep s) = s := by
  induction s with
  | nil => rfl
  | cons c s ih =>
    by_cases h : c = sep
    · subst h
      have : split c (c :: s) = [] :: split c s := by simp [split]
      rw [this, join_cons _ _ (split_ne_nil _ _), ih]; simp
    · rw [split_cons_ne h]
      cases hs : split sep s with
      | nil => exact absurd hs (split_ne_nil _ _)
      | cons x t =>
        rw [hs] at ih
        cases t with
        | nil => simp only [join] at ih; simp [ih, join]
        | cons y t =>
          simp only [List.headD_cons, List.tail_cons, join_cons_cons] at ih ⊢
          simp [← ih]

theorem split_join {sep : Char} {l : List Str} (hne : l ≠ []) (h : ∀ p ∈ l, sep ∉ p) :
    split sep (join [sep] l) = l := by
  induction l with
  | nil => exact absurd rfl hne
  | cons x r ih =>
    cases r with
    | nil => exact split_no_sep (h x (by simp))
    | cons y r =>
      rw [join_cons_cons, List.append_assoc, List.singleton_append,
        split_append_sep (h x (by simp)), ih (by simp) (fun p hp => h p (List.mem_cons_of_mem _ hp))]

theorem not_mem_split {sep : Char} {s p : Str} (h : p ∈ split sep s) : sep ∉ p := by
  induction s generalizing p with
  | nil => simp [split] at h; subst h; simp
  | cons c s ih =>
    by_cases hc : c = sep
    · subst hc
      simp only [split, if_true, List.mem_cons] at h
      rcases h with rfl | h
      · simp
      · exact ih h
    · rw [split_cons_ne hc] at h
      cases hs : split sep s with
      | nil => exact absurd hs (split_ne_nil _ _)
      | cons x t =>
        rw [hs] at h ih
        simp only [List.headD_cons, List.tail_cons, List.mem_cons] at h
        rcases h with rfl | h
        · simp only [List.mem_cons, not_or]
          exact ⟨fun e => hc e.symm, ih (by simp)⟩
        · exact ih (List.mem_cons_of_mem _ h)

theorem splitN2_no_sep {sep : Char} {p : Str} (h : sep ∉ p) : splitN2 sep p = (p, none) := by
  induction p with
  | nil => rfl
  | cons c p ih =>
    simp only [List.mem_cons, not_or] at h
    simp [splitN2, Ne.symm h.1, ih h.2]

theorem splitN2_append_sep {sep : Char} {p : Str} (h : sep ∉ p) (s : Str) :
    splitN2 sep (p ++ sep :: s) = (p, some s) := by
  induction p with
  | nil => simp [splitN2]
  | cons c p ih =>
    simp only [List.mem_cons, not_or] at h
    simp [splitN2, Ne.symm h.1, ih h.2]

theorem splitN2_snd_none {sep : Char} {s : Str} : (splitN2 sep s).2 = none ↔ sep ∉ s := by
  induction s with
  | nil => simp [splitN2]
  | cons c s ih =>
    by_cases h : c = sep
    · simp [splitN2, h]
    · simp [splitN2, h, ih, Ne.symm h]

theorem splitN2_some {sep : Char} {s a b : Str} (h : splitN2 sep s = (a, some b)) :
    s = a ++ sep :: b ∧ sep ∉ a := by
  induction s generalizing a with
  | nil => simp [splitN2] at h
  | cons c s ih =>
    by_cases hc : c = sep
    · simp only [splitN2, hc, if_true, Prod.mk.injEq, Option.some.injEq] at h
      obtain ⟨rfl, rfl⟩ := h
      simp [hc]
    · simp only [splitN2, hc, if_false, Prod.mk.injEq] at h
      obtain ⟨rfl, hb⟩ := h
      have := ih (a := (splitN2 sep s).1) (by rw [← hb])
      refine ⟨?_, ?_⟩
      · rw [List.cons_append, ← this.1]
      · simp only [List.mem_cons, not_or]; exact ⟨Ne.symm hc, this.2⟩

theorem join_eq_nil {sep : Str} {l : List Str} (h : l ≠ []) (hx : ∀ x ∈ l, x ≠ []) :
    join sep l ≠ [] := by
  cases l with
  | nil => exact absurd rfl h
  | cons x r =>
    cases r with
    | nil => exact hx x (by simp)
    | cons y r =>
      rw [join_cons_cons]
      have := hx x (by simp)
      simp [this]

/-- Two joins with a separator that none of the parts contains agree only if the parts agree. -/
theorem join_inj {sep : Char} {l m : List Str} (hl : l ≠ []) (hm : m ≠ [])
    (h1 : ∀ p ∈ l, sep ∉ p) (h2 : ∀ p ∈ m, sep ∉ p) (h : join [sep] l = join [sep] m) : l = m := by
  rw [← split_join hl h1, h, split_join hm h2]

/-! ### digits -/

theorem toNat_digitChar (n : Nat) : (digitChar n).toNat = 48 + n % 10 := by
  have : ∀ k, k < 10 → (Char.ofNat (48 + k)).toNat = 48 + k := by decide
  exact this (n % 10) (Nat.mod_lt _ (by norm_num))

theorem isDigit_digitChar (n : Nat) : isDigit (digitChar n) = true := by
  simp only [isDigit, toNat_digitChar, Bool.and_eq_true, decide_eq_true_eq]
  omega

theorem itoaAux_digits (f n : Nat) : ∀ c ∈ itoaAux f n, isDigit c = true := by
  induction f generalizing n with
  | zero => simp [itoaAux]
  | succ f ih =>
    intro c hc
    simp only [itoaAux] at hc
    split_ifs at hc with h
    · simp at hc; subst hc; exact isDigit_digitChar _
    · simp only [List.mem_append, List.mem_singleton] at hc
      rcases hc with hc | rfl
      · exact ih _ c hc
      · exact isDigit_digitChar _

theorem itoa_digits (n : Nat) : ∀ c ∈ itoa n, isDigit c = true := itoaAux_digits _ _

theorem itoa_ne_nil (n : Nat) : itoa n ≠ [] := by
  simp only [itoa, itoaAux]
  split_ifs <;> simp

theorem digitsVal_append_singleton (s : Str) (c : Char) :
    digitsVal (s ++ [c]) = digitsVal s * 10 + (c.toNat - 48) := by
  simp [digitsVal]

theorem digitsVal_itoaAux (f n : Nat) (h : n < f) : digitsVal (itoaAux f n) = n := by
  induction f generalizing n with
  | zero => omega
  | succ f ih =>
    simp only [itoaAux]
    split_ifs with h10
    · simp only [digitsVal, List.foldl_cons, List.foldl_nil, toNat_digitChar]
      omega
    · rw [digitsVal_append_singleton, ih _ (by omega), toNat_digitChar]
      omega

theorem digitsVal_itoa (n : Nat) : digitsVal (itoa n) = n := digitsVal_itoaAux _ _ (by omega)

theorem itoa_inj {m n : Nat} (h : itoa m = itoa n) : m = n := by
  rw [← digitsVal_itoa m, h, digitsVal_itoa]

theorem not_mem_itoa {c : Char} (h : isDigit c = false) (n : Nat) : c ∉ itoa n := by
  intro hc
  rw [itoa_digits n c hc] at h
  exact absurd h (by simp)

/-! ### order and sorting -/

theorem strLe_refl (a : Str) : strLe a a = true := by
  induction a with
  | nil => rfl
  | cons c a ih => simp [strLe, ih]

theorem strLe_total (a b : Str) : strLe a b = true ∨ strLe b a = true := by
  induction a generalizing b with
  | nil => simp [strLe]
  | cons c a ih =>
    cases b with
    | nil => simp [strLe]
    | cons d b =>
      simp only [strLe]
      rcases lt_trichotomy c.toNat d.toNat with h | h | h
      · simp [h]
      · simp only [h, lt_irrefl, if_false, if_true]; exact ih b
      · simp [h]

theorem strLe_trans {a b c : Str} (h1 : strLe a b = true) (h2 : strLe b c = true) :
    strLe a c = true := by
  induction a generalizing b c with
  | nil => simp [strLe]
  | cons x a ih =>
    cases b with
    | nil => simp [strLe] at h1
    | cons y b =>
      cases c with
      | nil => simp [strLe] at h2
      | cons z c =>
        simp only [strLe] at h1 h2 ⊢
        split_ifs at h1 h2 ⊢ <;> first | rfl | omega | exact ih h1 h2

theorem strLe_antisymm {a b : Str} (h1 : strLe a b = true) (h2 : strLe b a = true) : a = b := by
  induction a generalizing b with
  | nil => cases b with
    | nil => rfl
    | cons y b => simp [strLe] at h2
  | cons x a ih =>
    cases b with
    | nil => simp [strLe] at h1
    | cons y b =>
      simp only [strLe] at h1 h2
      have hn : x.toNat = y.toNat := by
        split_ifs at h1 h2 <;> omega
      have hxy : x = y := by
        apply Char.ext; apply UInt32.toNat_inj.mp; exact hn
      simp only [hn, lt_irrefl, if_false, if_true] at h1 h2
      rw [hxy, ih h1 h2]

theorem strLt_irrefl (a : Str) : strLt a a = false := by simp [strLt, strLe_refl]

theorem strLt_iff (a b : Str) : strLt a b = true ↔ strLe a b = true ∧ a ≠ b := by
  simp only [strLt, Bool.not_eq_true']
  constructor
  · intro h
    refine ⟨(strLe_total a b).resolve_right (by simp [h]), ?_⟩
    rintro rfl; rw [strLe_refl] at h; exact absurd h (by simp)
  · rintro ⟨h1, h2⟩
    cases h : strLe b a with
    | false => rfl
    | true => exact absurd (strLe_antisymm h1 h) h2

instance : Std.Total (fun a b : Str => strLe a b = true) := ⟨strLe_total⟩
instance : IsTrans Str (fun a b : Str => strLe a b = true) := ⟨fun _ _ _ => strLe_trans⟩

theorem sortStrings_perm (l : List Str) : (sortStrings l).Perm l := List.perm_insertionSort _ _

theorem sortStrings_sorted (l : List Str) :
    (sortStrings l).Pairwise (fun a b => strLe a b = true) := List.pairwise_insertionSort _ _

theorem mem_sortStrings {l : List Str} {a : Str} : a ∈ sortStrings l ↔ a ∈ l :=
  (sortStrings_perm l).mem_iff

theorem sortStrings_nodup {l : List Str} (h : l.Nodup) : (sortStrings l).Nodup :=
  (sortStrings_perm l).nodup_iff.2 h

theorem sortStrings_strict {l : List Str} (h : l.Nodup) :
    (sortStrings l).Pairwise (fun a b => strLt a b = true) := by
  have h1 := sortStrings_sorted l
  have h2 : (sortStrings l).Pairwise (· ≠ ·) := sortStrings_nodup h
  exact (h1.and h2).imp (fun h => (strLt_iff _ _).2 h)

theorem sorted_perm_unique {l m : List Str} (hl : l.Pairwise (fun a b => strLe a b = true))
    (hm : m.Pairwise (fun a b => strLe a b = true)) (h : l.Perm m) : l = m :=
  h.eq_of_pairwise (fun _ _ _ _ => strLe_antisymm) hl hm

theorem sortStrings_congr {l m : List Str} (h : l.Perm m) : sortStrings l = sortStrings m :=
  sorted_perm_unique (sortStrings_sorted l) (sortStrings_sorted m)
    ((sortStrings_perm l).trans (h.trans (sortStrings_perm m).symm))

/-! ### trimming -/

theorem dropWhile_eq_self {p : Char → Bool} {s : Str} (h : ∀ c t, s = c :: t → p c = false) :
    s.dropWhile p = s := by
  cases s with
  | nil => rfl
  | cons c t => simp [List.dropWhile, h c t rfl]

/-- Text that neither starts nor ends with white space. -/
def Trimmed (s : Str) : Prop :=
  (∀ c t, s = c :: t → isSpace c = false) ∧ (∀ c t, s = t ++ [c] → isSpace c = false)

theorem trimSpace_of_trimmed {s : Str} (h : Trimmed s) : trimSpace s = s := by
  unfold trimSpace
  rw [dropWhile_eq_self h.1, dropWhile_eq_self, List.reverse_reverse]
  intro c t ht
  apply h.2 c t.reverse
  have := congrArg List.reverse ht
  simpa using this

theorem trimmed_of_no_space {s : Str} (h : ∀ c ∈ s, isSpace c = false) : Trimmed s :=
  ⟨fun c t e => h c (by simp [e]), fun c t e => h c (by simp [e])⟩

theorem dropWhile_head {p : Char → Bool} {s : Str} :
    ∀ c t, s.dropWhile p = c :: t → p c = false := by
  induction s with
  | nil => simp
  | cons x s ih =>
    intro c t h
    simp only [List.dropWhile] at h
    cases hx : p x with
    | true => rw [hx] at h; exact ih c t h
    | false => rw [hx] at h; simp at h; rw [← h.1]; exact hx

theorem trimSpace_trimmed (s : Str) : Trimmed (trimSpace s) := by
  constructor
  · intro c t h
    unfold trimSpace at h
    -- the first character of the doubly trimmed text is the first of the left-trimmed text
    have h1 : ∃ r, s.dropWhile isSpace =
        ((s.dropWhile isSpace).reverse.dropWhile isSpace).reverse ++ r := by
      obtain ⟨r, hr⟩ := List.dropWhile_suffix (l := (s.dropWhile isSpace).reverse) isSpace
      refine ⟨r.reverse, ?_⟩
      have := congrArg List.reverse hr
      simpa using this.symm
    obtain ⟨r, hr⟩ := h1
    rw [h] at hr
    exact dropWhile_head c (t ++ r) (by simpa using hr)
  · intro c t h
    unfold trimSpace at h
    have := congrArg List.reverse h
    simp only [List.reverse_reverse, List.reverse_append, List.reverse_singleton,
      List.singleton_append] at this
    exact dropWhile_head c _ this

theorem trimSpace_trimSpace (s : Str) : trimSpace (trimSpace s) = trimSpace s :=
  trimSpace_of_trimmed (trimSpace_trimmed s)

end Octo
