import Verif.Lemmas.Util
import Verif.Spec.TypeText

/-! When the pattern for types matches. -/

namespace Octo
open Spec

theorem isReSpaceComma_eq (c : Char) : isReSpaceComma c = isNumberGap c := by
  unfold isReSpaceComma isNumberGap
  rw [Bool.eq_iff_iff]
  simp only [Bool.or_eq_true, decide_eq_true_eq, List.mem_cons, List.not_mem_nil, or_false]
  tauto

theorem digit_not_gap {c : Char} (h : isNumberGap c = true) : isDigit c = false := by
  unfold isNumberGap at h
  simp only [List.mem_cons, List.not_mem_nil, or_false, decide_eq_true_eq] at h
  rcases h with h | h | h | h | h | h <;> (subst h; decide)

/-- A match, taken apart. -/
theorem typeMatchAt_some {s : Str} {n d1 d2 : Str} (h : typeMatchAt s = some (n, d1, d2)) :
    n ≠ [] ∧ (∀ c ∈ n, isAlpha c = true) ∧ d1 ≠ [] ∧ (∀ c ∈ d1, isDigit c = true) ∧ (∀ c ∈ d2, isDigit c = true) ∧
    ∃ gap q, (∀ c ∈ gap, isNumberGap c = true) ∧ s = n ++ '(' :: (d1 ++ gap ++ d2 ++ ')' :: q) := by
  unfold typeMatchAt at h
  dsimp only at h
  split at h
  · rename_i r hr
    split at h
    · rename_i q hq
      split at h
      · cases h
      · rename_i hne
        have hne' : ¬(s.takeWhile isAlpha = [] ∨ r.takeWhile isDigit = []) := by
          simpa [List.isEmpty_iff] using hne
        obtain ⟨hn1, hn2⟩ := not_or.1 hne'
        have e1 := congrArg (fun x : Str × Str × Str => x.1) (Option.some.inj h)
        have e2 := congrArg (fun x : Str × Str × Str => x.2.1) (Option.some.inj h)
        have e3 := congrArg (fun x : Str × Str × Str => x.2.2) (Option.some.inj h)
        dsimp only at e1 e2 e3
        subst e1; subst e2; subst e3
        refine ⟨hn1, fun c hc => List.mem_takeWhile_imp hc, hn2, fun c hc => List.mem_takeWhile_imp hc,
          fun c hc => List.mem_takeWhile_imp hc, (r.dropWhile isDigit).takeWhile isReSpaceComma, q,
          fun c hc => (isReSpaceComma_eq c) ▸ List.mem_takeWhile_imp hc, ?_⟩
        conv_lhs => rw [← List.takeWhile_append_dropWhile (p := isAlpha) (l := s), hr,
          ← List.takeWhile_append_dropWhile (p := isDigit) (l := r),
          ← List.takeWhile_append_dropWhile (p := isReSpaceComma) (l := r.dropWhile isDigit),
          ← List.takeWhile_append_dropWhile (p := isDigit) (l := (r.dropWhile isDigit).dropWhile isReSpaceComma), hq]
        simp
    · cases h
  · cases h

theorem typeMatch_some {s : Str} {n d1 d2 : Str} (h : typeMatch s = some (n, d1, d2)) :
    ∃ p t, s = p ++ t ∧ typeMatchAt t = some (n, d1, d2) := by
  induction s with
  | nil => cases h
  | cons c s ih =>
    rw [typeMatch] at h
    cases hm : typeMatchAt (c :: s) with
    | some m => rw [hm] at h; exact ⟨[], c :: s, rfl, hm.trans h⟩
    | none =>
      rw [hm] at h
      obtain ⟨p, t, e, ht⟩ := ih h
      exact ⟨c :: p, t, by rw [e]; rfl, ht⟩

theorem typeMatch_letters {s n d1 d2 : Str} (h : typeMatch s = some (n, d1, d2)) :
    n ≠ [] ∧ (∀ x ∈ n, isAlpha x = true) ∧ n.length < s.length := by
  obtain ⟨p, t, e, ht⟩ := typeMatch_some h
  obtain ⟨a1, a2, _, _, _, gap, q, _, a3⟩ := typeMatchAt_some ht
  refine ⟨a1, a2, ?_⟩
  rw [e, a3]
  simp only [List.length_append, List.length_cons]
  omega

theorem typeMatch_none_append {p t : Str} (h : typeMatch (p ++ t) = none) : typeMatch t = none := by
  induction p with
  | nil => exact h
  | cons c p ih =>
    rw [List.cons_append, typeMatch] at h
    cases hm : typeMatchAt (c :: (p ++ t)) with
    | some m => rw [hm] at h; cases h
    | none => rw [hm] at h; exact ih h

theorem takeWhile_all_append {p : Char → Bool} {a b : Str} (ha : ∀ c ∈ a, p c = true) (hb : ∀ c t, b = c :: t → p c = false) :
    (a ++ b).takeWhile p = a ∧ (a ++ b).dropWhile p = b := by
  induction a with
  | nil =>
    cases b with
    | nil => exact ⟨rfl, rfl⟩
    | cons c t =>
      have := hb c t rfl
      simp [this]
  | cons x a ih =>
    obtain ⟨h1, h2⟩ := ih fun c hc => ha c (List.mem_cons_of_mem _ hc)
    have := ha x List.mem_cons_self
    simp [this, h1, h2]

/-- The pattern for types matches somewhere iff there is a size in the text. -/
theorem typeMatch_none_iff (s : Str) : typeMatch s = none ↔ ¬SizedText s := by
  constructor
  · rintro h ⟨p, x, d1, gap, d2, q, e, hx, hd, h1, hg, h2⟩
    rw [e] at h
    have h := typeMatch_none_append h
    have hm : typeMatchAt (x :: '(' :: (d1 ++ gap ++ d2 ++ ')' :: q)) ≠ none := by
      obtain ⟨t1, t2⟩ := takeWhile_all_append (p := isAlpha) (a := [x]) (b := '(' :: (d1 ++ gap ++ d2 ++ ')' :: q))
        (by simpa using hx) (by intro c t e; cases e; decide)
      rw [List.singleton_append] at t1 t2
      have key : ∃ d g e', gap ++ d2 ++ ')' :: q = d ++ (g ++ (e' ++ ')' :: q)) ∧ (∀ c ∈ d, isDigit c = true) ∧
          (∀ c ∈ g, isReSpaceComma c = true) ∧ (∀ c ∈ e', isDigit c = true) ∧ (g = [] → e' = []) := by
        by_cases hgap : gap = []
        · exact ⟨d2, [], [], by simp [hgap], h2, by simp, by simp, fun _ => rfl⟩
        · exact ⟨[], gap, d2, by simp, by simp, fun c hc => (isReSpaceComma_eq c).trans (hg c hc), h2, fun e => absurd e hgap⟩
      obtain ⟨d, g, e', ek, k1, k2, k3, k4⟩ := key
      have el : d1 ++ gap ++ d2 ++ ')' :: q = (d1 ++ d) ++ (g ++ (e' ++ ')' :: q)) := by
        rw [List.append_assoc, List.append_assoc, ← List.append_assoc gap, ek]; simp
      obtain ⟨a1, a2⟩ := takeWhile_all_append (p := isDigit) (a := d1 ++ d) (b := g ++ (e' ++ ')' :: q))
        (by intro c hc; rcases List.mem_append.1 hc with hc | hc; exacts [h1 c hc, k1 c hc])
        (by
          intro c t e
          cases g with
          | nil => rw [k4 rfl] at e; cases e; decide
          | cons y g => cases e; exact digit_not_gap ((isReSpaceComma_eq _) ▸ k2 _ List.mem_cons_self))
      obtain ⟨b1, b2⟩ := takeWhile_all_append (p := isReSpaceComma) (a := g) (b := e' ++ ')' :: q) k2
        (by
          intro c t e
          cases e' with
          | nil => cases e; decide
          | cons y e' =>
            cases e
            rw [isReSpaceComma_eq, Bool.eq_false_iff]
            intro hc
            have := digit_not_gap hc
            rw [k3 _ List.mem_cons_self] at this
            cases this)
      obtain ⟨c1, c2⟩ := takeWhile_all_append (p := isDigit) (a := e') (b := ')' :: q) k3 (by intro c t e; cases e; decide)
      unfold typeMatchAt
      dsimp only
      rw [t1, t2]
      simp only [el, a1, a2, b2, c1, c2]
      have : (([x] : Str).isEmpty || (d1 ++ d).isEmpty) = false := by
        cases d1 with
        | nil => exact absurd rfl hd
        | cons y d1 => rfl
      rw [this]
      simp
    rw [typeMatch] at h
    cases hc : typeMatchAt (x :: '(' :: (d1 ++ gap ++ d2 ++ ')' :: q)) with
    | none => exact hm hc
    | some m => rw [hc] at h; cases h
  · intro h
    cases hm : typeMatch s with
    | none => rfl
    | some m =>
      obtain ⟨n, d1, d2⟩ := m
      obtain ⟨p, t, e, ht⟩ := typeMatch_some hm
      obtain ⟨a1, a2, a3, a4, a5, gap, q, a6, a7⟩ := typeMatchAt_some ht
      exfalso
      apply h
      refine ⟨p ++ n.dropLast, n.getLast a1, d1, gap, d2, q, ?_, a2 _ (List.getLast_mem a1), a3, a4, a6, a5⟩
      conv_lhs => rw [e, a7, ← List.dropLast_append_getLast a1]
      simp

theorem not_sizedText_of_no_paren {s : Str} (h : '(' ∉ s) : ¬SizedText s :=
  (typeMatch_none_iff s).1 (typeMatch_none_of_no_paren s h)

instance (s : Str) : Decidable (SizedText s) :=
  decidable_of_iff (typeMatch s ≠ none) (by rw [ne_eq, typeMatch_none_iff, not_not])

end Octo
