import Verif.Lemmas.Str
import Verif.Model.Strcase
import Verif.Spec.Protobuf

/-! Lemmas about the case conversions of the library. -/

namespace Octo
open Spec

theorem isCap_iff (c : Char) : Strcase.isCap c = true ↔ 65 ≤ c.toNat ∧ c.toNat ≤ 90 := by
  unfold Strcase.isCap
  rw [Bool.and_eq_true, decide_eq_true_iff, decide_eq_true_iff]
  exact Iff.rfl

theorem isLow_iff (c : Char) : Strcase.isLow c = true ↔ 97 ≤ c.toNat ∧ c.toNat ≤ 122 := by
  unfold Strcase.isLow
  rw [Bool.and_eq_true, decide_eq_true_iff, decide_eq_true_iff]
  exact Iff.rfl

theorem isAlpha_iff (c : Char) : isAlpha c = true ↔ Strcase.isCap c = true ∨ Strcase.isLow c = true := by
  rw [isCap_iff, isLow_iff]
  simp [isAlpha]

theorem toNat_upper (c : Char) : c.toUpper.toNat = if 97 ≤ c.toNat ∧ c.toNat ≤ 122 then c.toNat - 32 else c.toNat := by
  have ha : ('a'.val : UInt32).toNat = 97 := rfl
  have hz : ('z'.val : UInt32).toNat = 122 := rfl
  have hd : ('A'.val - 'a'.val : UInt32).toNat = 4294967264 := rfl
  simp only [Char.toUpper, Char.toNat, UInt32.le_iff_toNat_le, ha, hz]
  split_ifs with h
  · show (c.val + ('A'.val - 'a'.val)).toNat = _
    rw [UInt32.toNat_add, hd]
    omega
  · rfl

theorem camelLoop_alnum : ∀ (s : Str) (f b : Bool), (Strcase.camelLoop f b s).all isAlnum = true := by
  intro s
  induction s with
  | nil => intro f b; rfl
  | cons c r ih =>
    intro f b
    rw [Strcase.camelLoop]
    split
    · rename_i h
      rw [List.all_cons, ih, Bool.and_true]
      have hc : Strcase.isCap c = true ∨ Strcase.isLow c = true := by simpa using h
      have hv : ∀ d : Char, (Strcase.isCap d = true ∨ Strcase.isLow d = true) → isAlnum d = true := by
        intro d hd; simp [isAlnum, (isAlpha_iff d).2 hd]
      apply hv
      split
      · split
        · rename_i hl
          left
          have := (isLow_iff c).1 hl
          rw [isCap_iff, toNat_upper, if_pos this]
          omega
        · exact hc
      · split
        · split
          · rename_i hl
            right
            rw [isLow_iff, toNat_toLower]
            have := (isCap_iff c).1 hl
            split <;> omega
          · exact hc
        · exact hc
    · split
      · rename_i h1 hd
        have hn : Strcase.isCap c = false ∧ Strcase.isLow c = false := by simpa using h1
        rw [List.all_cons, ih, Bool.and_true, hn.1, hn.2]
        have : (if b = true then if false = true then c.toUpper else c else if f = true then if false = true then c.toLower else c else c) = c := by
          split
          · rfl
          · split <;> rfl
        rw [this]
        simp [isAlnum, hd]
      · exact ih _ _

theorem camelLoop_ne_nil : ∀ (s : Str) (f b : Bool), s.any isAlnum = true → Strcase.camelLoop f b s ≠ [] := by
  intro s
  induction s with
  | nil => intro f b h; cases h
  | cons c r ih =>
    intro f b h
    rw [Strcase.camelLoop]
    split
    · exact List.cons_ne_nil _ _
    · split
      · exact List.cons_ne_nil _ _
      · rename_i h1 h2
        apply ih
        rw [List.any_cons] at h
        have hc : isAlnum c = false := by
          have hn : Strcase.isCap c = false ∧ Strcase.isLow c = false := by simpa using h1
          have : isAlpha c = false := by
            rw [← Bool.not_eq_true, isAlpha_iff, hn.1, hn.2]; simp
          simp [isAlnum, this, h2]
        rwa [hc, Bool.false_or] at h

theorem mem_dropWhile {p : Char → Bool} {c : Char} (hc : p c = false) {s : Str} (h : c ∈ s) : c ∈ s.dropWhile p := by
  induction s with
  | nil => exact h
  | cons d s ih =>
    rw [List.dropWhile_cons]
    split
    · rename_i hd
      rcases List.mem_cons.1 h with rfl | h
      · rw [hc] at hd; cases hd
      · exact ih h
    · exact h

theorem mem_trimSpace {c : Char} (hc : isSpace c = false) {s : Str} (h : c ∈ s) : c ∈ trimSpace s := by
  unfold trimSpace
  rw [List.mem_reverse]
  exact mem_dropWhile hc (List.mem_reverse.2 (mem_dropWhile hc h))

theorem isAlnum_not_space {c : Char} (h : isAlnum c = true) : isSpace c = false := by
  have hr : (65 ≤ c.toNat ∧ c.toNat ≤ 90) ∨ (97 ≤ c.toNat ∧ c.toNat ≤ 122) ∨ (48 ≤ c.toNat ∧ c.toNat ≤ 57) := by
    simp only [isAlnum, isAlpha, isDigit, Bool.or_eq_true, Bool.and_eq_true, decide_eq_true_iff] at h
    omega
  unfold isSpace
  simp only [List.mem_cons, List.not_mem_nil, or_false, decide_eq_false_iff_not]
  omega

theorem trimSpace_alnum {s : Str} (h : HasAlnum s) : HasAlnum (trimSpace s) := by
  obtain ⟨c, hc, ha⟩ := List.any_eq_true.1 h
  exact List.any_eq_true.2 ⟨c, mem_trimSpace (isAlnum_not_space ha) hc, ha⟩

theorem camelInitCase_alnum {s : Str} (h : HasAlnum s) (b : Bool) : Alnum (Strcase.camelInitCase s b) := by
  unfold Strcase.camelInitCase
  dsimp only
  refine ⟨camelLoop_ne_nil _ _ _ ?_, camelLoop_alnum _ _ _⟩
  split
  · decide
  · exact trimSpace_alnum h

/-- The conversions of the library yield letters and digits. -/
theorem strcase_clean : CleanCase strcase := fun _ h => ⟨camelInitCase_alnum h true, camelInitCase_alnum h false⟩

theorem isAlnum_cases {c : Char} : isAlnum c = true ↔ (Strcase.isCap c = true ∨ Strcase.isLow c = true) ∨ isDigit c = true := by
  unfold isAlnum
  rw [Bool.or_eq_true, isAlpha_iff]

theorem isAlpha_upper {c : Char} (h : Strcase.isLow c = true) : isAlpha c.toUpper = true := by
  rw [isAlpha_iff]
  left
  have := (isLow_iff c).1 h
  rw [isCap_iff, toNat_upper, if_pos this]
  omega

theorem isAlpha_lower {c : Char} (h : Strcase.isCap c = true) : isAlpha c.toLower = true := by
  rw [isAlpha_iff]
  right
  have := (isCap_iff c).1 h
  rw [isLow_iff, toNat_toLower]
  split <;> omega

theorem camelLoop_head : ∀ (s : Str) (f b : Bool), (Strcase.camelLoop f b s).head?.map isAlpha = (s.find? isAlnum).map isAlpha := by
  intro s
  induction s with
  | nil => intro f b; rfl
  | cons c r ih =>
    intro f b
    rw [Strcase.camelLoop]
    split
    · rename_i h
      have hc : Strcase.isCap c = true ∨ Strcase.isLow c = true := by simpa using h
      rw [List.find?_cons_of_pos (isAlnum_cases.2 (.inl hc)), List.head?_cons, Option.map_some, Option.map_some,
        (isAlpha_iff c).2 hc]
      split
      · split
        · rename_i hl; rw [isAlpha_upper hl]
        · rw [(isAlpha_iff c).2 hc]
      · split
        · split
          · rename_i hl; rw [isAlpha_lower hl]
          · rw [(isAlpha_iff c).2 hc]
        · rw [(isAlpha_iff c).2 hc]
    · rename_i h1
      have hn : Strcase.isCap c = false ∧ Strcase.isLow c = false := by simpa using h1
      split
      · rename_i hd
        rw [List.find?_cons_of_pos (isAlnum_cases.2 (.inr hd)), List.head?_cons, hn.1, hn.2]
        have : (if b = true then if false = true then c.toUpper else c else if f = true then if false = true then c.toLower else c else c) = c := by
          split
          · rfl
          · split <;> rfl
        rw [this]
      · rename_i hd
        rw [List.find?_cons_of_neg, ih]
        rw [isAlnum_cases, hn.1, hn.2]
        simp [hd]

theorem find_dropWhile {p q : Char → Bool} (h : ∀ c, q c = true → p c = false) (s : Str) : (s.dropWhile q).find? p = s.find? p := by
  induction s with
  | nil => rfl
  | cons c s ih =>
    rw [List.dropWhile_cons]
    split
    · rename_i hq
      rw [ih, List.find?_cons_of_neg (by rw [h c hq]; simp)]
    · rfl

theorem find_trimSpace {p : Char → Bool} (h : ∀ c, isSpace c = true → p c = false) (s : Str) : (trimSpace s).find? p = s.find? p := by
  rw [← find_dropWhile h s]
  unfold trimSpace
  generalize s.dropWhile isSpace = t
  have e := congrArg List.reverse (List.takeWhile_append_dropWhile (p := isSpace) (l := t.reverse))
  rw [List.reverse_append, List.reverse_reverse] at e
  conv_rhs => rw [← e]
  rw [List.find?_append]
  have : (List.takeWhile isSpace t.reverse).reverse.find? p = none := by
    rw [List.find?_eq_none]
    intro c hc
    rw [h c (List.all_eq_true.1 List.all_takeWhile c (List.mem_reverse.1 hc))]
    simp
  rw [this, Option.or_none]

theorem camelInitCase_head (s : Str) (b : Bool) :
    (Strcase.camelInitCase s b).head?.map isAlpha = (s.find? isAlnum).map isAlpha := by
  unfold Strcase.camelInitCase
  dsimp only
  rw [camelLoop_head]
  have h : ∀ c, isSpace c = true → isAlnum c = false := by
    intro c hc
    by_contra h
    rw [isAlnum_not_space (by simpa using h)] at hc
    cases hc
  split
  · rename_i e
    rw [← find_trimSpace h s, e]
    rfl
  · rw [find_trimSpace h]

/-- A name in camel case is a protobuf identifier if and only if its first letter or digit is a letter. -/
theorem camelInitCase_ident {s : Str} (b : Bool) : ProtoIdent (Strcase.camelInitCase s b) ↔ StartsWithLetter s := by
  have h1 := camelInitCase_head s b
  have hany : ∀ (o : Option Char), o.any isAlpha = true ↔ o.map isAlpha = some true := by
    intro o; cases o <;> simp
  unfold ProtoIdent StartsWithLetter
  rw [hany, hany, h1]
  refine ⟨fun h => h.1, fun h => ⟨h, ?_⟩⟩
  have : (Strcase.camelInitCase s b).all isAlnum = true := camelLoop_alnum _ _ _
  rw [List.all_eq_true] at this ⊢
  intro c hc
  rw [this c hc]; rfl

end Octo
