import Verif.Lemmas.Diff

/-! Helper lemmas about the rename search (shared by `format/diff` and `format/liquibase`). -/

namespace Octo

section
variable {α : Type} (get : Str → Option α) (m : α → α → Bool)

theorem findRenames_cons (a : α) (as : List α) (rem : StringSet) :
    findRenames get m (a :: as) rem =
      match rem.slice.find? (renameTest get m a) with
      | some n => ((a, get n) :: (findRenames get m as (rem.remove n)).1,
          (findRenames get m as (rem.remove n)).2)
      | none => ((a, none) :: (findRenames get m as rem).1, (findRenames get m as rem).2) := by
  rw [findRenames]
  cases rem.slice.find? (renameTest get m a) <;> rfl

/-- What the search finds for one element. -/
theorem find_slice_spec (a : α) (rem : StringSet) (n : Str)
    (h : rem.slice.find? (renameTest get m a) = some n) :
    n ∈ rem.keys ∧ ∃ r, get n = some r ∧ m a r = true := by
  have h1 := List.mem_of_find?_eq_some h
  have h2 := List.find?_some h
  refine ⟨?_, ?_⟩
  · simpa [StringSet.slice, StringSet.sliceOrd, mem_sortStrings] using h1
  · cases hg : get n with
    | none => simp [renameTest, hg] at h2
    | some r => exact ⟨r, rfl, by simpa [renameTest, hg] using h2⟩

theorem find_slice_none (a : α) (rem : StringSet)
    (h : rem.slice.find? (renameTest get m a) = none) :
    ∀ n ∈ rem.keys, ∀ r, get n = some r → m a r = false := by
  intro n hn r hg
  have := List.find?_eq_none.1 h n (by simpa [StringSet.slice, StringSet.sliceOrd, mem_sortStrings] using hn)
  simpa [renameTest, hg] using this

/-- Every added element is listed, in order. -/
theorem findRenames_fst (as : List α) (rem : StringSet) :
    (findRenames get m as rem).1.map Prod.fst = as := by
  induction as generalizing rem with
  | nil => rfl
  | cons a as ih =>
    rw [findRenames_cons]
    split <;> simp [ih]

theorem findRenames_rest_subset (as : List α) (rem : StringSet) :
    ∀ n ∈ (findRenames get m as rem).2.keys, n ∈ rem.keys := by
  induction as generalizing rem with
  | nil => intro n h; exact h
  | cons a as ih =>
    intro n h
    rw [findRenames_cons] at h
    split at h
    · have := ih _ n h
      simp only [StringSet.remove, List.mem_filter] at this
      exact this.1
    · exact ih _ n h

theorem findRenames_nodup (as : List α) (rem : StringSet) (h : rem.keys.Nodup) :
    (findRenames get m as rem).2.keys.Nodup := by
  induction as generalizing rem with
  | nil => exact h
  | cons a as ih =>
    rw [findRenames_cons]
    split
    · exact ih _ (h.filter _)
    · exact ih _ h

/-- A found pair matches. -/
theorem findRenames_match (as : List α) (rem : StringSet) :
    ∀ p ∈ renamedPairs (findRenames get m as rem).1,
      p.1 ∈ as ∧ m p.1 p.2 = true ∧ ∃ n ∈ rem.keys, get n = some p.2 := by
  induction as generalizing rem with
  | nil => simp [findRenames, renamedPairs]
  | cons a as ih =>
    intro p hp
    rw [findRenames_cons] at hp
    split at hp
    · rename_i n hn
      obtain ⟨h1, r, h2, h3⟩ := find_slice_spec get m a rem n hn
      simp only [renamedPairs, List.filterMap_cons, h2, Option.map_some] at hp
      rcases List.mem_cons.1 hp with rfl | hp
      · exact ⟨by simp, h3, n, h1, h2⟩
      · obtain ⟨e1, e2, n', e3, e4⟩ := ih _ p hp
        exact ⟨by simp [e1], e2, n', (List.mem_filter.1 e3).1, e4⟩
    · simp only [renamedPairs, List.filterMap_cons, Option.map_none] at hp
      obtain ⟨e1, e2, e3⟩ := ih _ p hp
      exact ⟨by simp [e1], e2, e3⟩

/-- The sources of the found pairs and the remaining names partition the removed names. -/
theorem findRenames_partition (name : α → Str) (hname : ∀ n r, get n = some r → name r = n)
    (as : List α) (rem : StringSet) (h : rem.keys.Nodup) :
    ((renamedPairs (findRenames get m as rem).1).map (fun p => name p.2) ++
      (findRenames get m as rem).2.keys).Perm rem.keys := by
  induction as generalizing rem with
  | nil => simp [findRenames, renamedPairs]
  | cons a as ih =>
    rw [findRenames_cons]
    split
    · rename_i n hn
      obtain ⟨h1, r, h2, h3⟩ := find_slice_spec get m a rem n hn
      simp only [renamedPairs, List.filterMap_cons, h2, Option.map_some, List.map_cons, hname n r h2,
        List.cons_append]
      have h4 := ih (rem.remove n) (h.filter _)
      refine (List.Perm.cons n h4).trans ?_
      simp only [StringSet.remove]
      have h5 : rem.keys.filter (fun x => decide (x ≠ n)) = rem.keys.erase n := by
        rw [h.erase_eq_filter]
        apply List.filter_congr; intro x _
        by_cases hx : x = n <;> simp [hx]
      rw [h5]
      exact (List.perm_cons_erase h1).symm
    · simp only [renamedPairs, List.filterMap_cons, Option.map_none]
      exact ih rem h

/-- Added elements are split into rename targets and the others. -/
theorem findRenames_split (as : List α) (rem : StringSet) :
    ((renamedPairs (findRenames get m as rem).1).map Prod.fst ++
      notRenamed (findRenames get m as rem).1).Perm as := by
  conv_rhs => rw [← findRenames_fst get m as rem]
  generalize (findRenames get m as rem).1 = l
  induction l with
  | nil => simp [renamedPairs, notRenamed]
  | cons p l ih =>
    obtain ⟨a, o⟩ := p
    cases o with
    | some r =>
      simp only [renamedPairs, notRenamed, List.filterMap_cons, Option.map_some, Option.isSome_some,
        if_true, List.map_cons, List.cons_append] at ih ⊢
      exact ih.cons a
    | none =>
      simp only [renamedPairs, notRenamed, List.filterMap_cons, Option.map_none, Option.isSome_none,
        Bool.false_eq_true, if_false, List.map_cons] at ih ⊢
      exact List.perm_middle.trans (ih.cons a)

/-- An element that is not a rename target matches none of the names that remain removed. -/
theorem findRenames_maximal (as : List α) (rem : StringSet) :
    ∀ a ∈ notRenamed (findRenames get m as rem).1,
      ∀ n ∈ (findRenames get m as rem).2.keys, ∀ r, get n = some r → m a r = false := by
  induction as generalizing rem with
  | nil => simp [findRenames, notRenamed]
  | cons a as ih =>
    intro x hx n hn r hr
    rw [findRenames_cons] at hx hn
    split at hx
    · rename_i k hk
      obtain ⟨h1, r', h2, h3⟩ := find_slice_spec get m a rem k hk
      rw [hk] at hn
      simp only [notRenamed, List.filterMap_cons, h2, Option.isSome_some, if_true] at hx
      exact ih _ x hx n hn r hr
    · rename_i hk
      rw [hk] at hn
      simp only [notRenamed, List.filterMap_cons, Option.isSome_none, Bool.false_eq_true, if_false] at hx
      rcases List.mem_cons.1 hx with rfl | hx
      · exact find_slice_none get m x rem hk n (findRenames_rest_subset get m as rem n hn) r hr
      · exact ih _ x hx n hn r hr

/-- If matching is equality of some key and for every key there are at least as many removed as
added elements, every added element becomes a rename target. -/
theorem findRenames_all {κ : Type} [DecidableEq κ] (key : α → κ) (hm : ∀ a b, m a b = true ↔ key a = key b)
    (as : List α) (rem : StringSet) (hn : rem.keys.Nodup)
    (hc : ∀ k, (as.map key).count k ≤ ((rem.keys.filterMap get).map key).count k) :
    notRenamed (findRenames get m as rem).1 = [] := by
  induction as generalizing rem with
  | nil => simp [findRenames, notRenamed]
  | cons a as ih =>
    rw [findRenames_cons]
    split
    · rename_i n hf
      obtain ⟨h1, r, h2, h3⟩ := find_slice_spec get m a rem n hf
      simp only [notRenamed, List.filterMap_cons, h2, Option.isSome_some, if_true]
      apply ih _ (hn.filter _)
      intro k
      have hp : rem.keys.Perm (n :: (rem.remove n).keys) := by
        have h5 : (rem.remove n).keys = rem.keys.erase n := by
          rw [hn.erase_eq_filter, StringSet.remove]
          apply List.filter_congr; intro x _
          by_cases hx : x = n <;> simp [hx]
        rw [h5]; exact List.perm_cons_erase h1
      have hk := hc k
      have hcount : ((rem.keys.filterMap get).map key).count k
          = (((n :: (rem.remove n).keys).filterMap get).map key).count k :=
        List.Perm.count_eq ((hp.filterMap get).map key) k
      rw [hcount, List.filterMap_cons, h2] at hk
      simp only [List.map_cons, List.count_cons, (hm a r).1 h3] at hk
      exact Nat.le_of_add_le_add_right hk
    · rename_i hf
      exfalso
      have h1 := hc (key a)
      have h2 : 0 < ((rem.keys.filterMap get).map key).count (key a) := by
        have : 0 < ((a :: as).map key).count (key a) := List.count_pos_iff.2 (by simp)
        omega
      obtain ⟨r, hr, hk⟩ := List.mem_map.1 (List.count_pos_iff.1 h2)
      obtain ⟨n, hn', hg⟩ := List.mem_filterMap.1 hr
      have := find_slice_none get m a rem hf n hn' r hg
      rw [(hm a r).2 hk.symm] at this
      cases this

/-- When a key occurs among the removed elements at most as often as among the added ones, all removed
elements with that key are used up. -/
theorem findRenames_used {κ : Type} [DecidableEq κ] (key : α → κ) (hm : ∀ a b, m a b = true ↔ key a = key b) (k : κ)
    (as : List α) (rem : StringSet) (hn : rem.keys.Nodup)
    (hc : ((rem.keys.filterMap get).map key).count k ≤ (as.map key).count k) :
    ∀ n ∈ (findRenames get m as rem).2.keys, ∀ r, get n = some r → key r ≠ k := by
  induction as generalizing rem with
  | nil =>
    intro n hn' r hr e
    have : 0 < ((rem.keys.filterMap get).map key).count k :=
      List.count_pos_iff.2 (List.mem_map.2 ⟨r, List.mem_filterMap.2 ⟨n, hn', hr⟩, e⟩)
    simp at hc
    omega
  | cons a as ih =>
    rw [findRenames_cons]
    split
    · rename_i n hf
      obtain ⟨h1, r, h2, h3⟩ := find_slice_spec get m a rem n hf
      apply ih _ (hn.filter _)
      have hp : rem.keys.Perm (n :: (rem.remove n).keys) := by
        have h5 : (rem.remove n).keys = rem.keys.erase n := by
          rw [hn.erase_eq_filter, StringSet.remove]
          apply List.filter_congr; intro x _
          by_cases hx : x = n <;> simp [hx]
        rw [h5]; exact List.perm_cons_erase h1
      have hcount : ((rem.keys.filterMap get).map key).count k
          = (((n :: (rem.remove n).keys).filterMap get).map key).count k :=
        List.Perm.count_eq ((hp.filterMap get).map key) k
      rw [hcount, List.filterMap_cons, h2] at hc
      simp only [List.map_cons, List.count_cons, (hm a r).1 h3] at hc
      exact Nat.le_of_add_le_add_right hc
    · rename_i hf
      apply ih _ hn
      by_cases hk : key a = k
      · have : ((rem.keys.filterMap get).map key).count k = 0 := by
          rw [List.count_eq_zero]
          intro hmem
          obtain ⟨r, hr, e⟩ := List.mem_map.1 hmem
          obtain ⟨n, hn', hg⟩ := List.mem_filterMap.1 hr
          have := find_slice_none get m a rem hf n hn' r hg
          rw [(hm a r).2 (hk.trans e.symm)] at this
          cases this
        omega
      · rw [List.map_cons, List.count_cons_of_ne hk] at hc
        exact hc

end

end Octo
