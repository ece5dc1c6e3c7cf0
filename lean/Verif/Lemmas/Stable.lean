import Verif.Lemmas.Octopus

/-! Stable sorting of tables. -/

namespace Octo
open Spec

/-- The tables of a group with a name, in order. -/
def sameKey (g n : Str) (l : List Table) : List Table := l.filter fun t => decide (t.group = g ∧ t.name = n)

/-- A sort that keeps the order of tables of the same group and name, as `sort.Stable`, and `sort.Sort` on few tables, do. -/
def StableSort (sorter : List Table → List Table) : Prop := SortSpec sorter ∧ ∀ l g n, sameKey g n (sorter l) = sameKey g n l

theorem sameKey_cons_pos {g n : Str} {t : Table} (h : t.group = g ∧ t.name = n) (l : List Table) :
    sameKey g n (t :: l) = t :: sameKey g n l := by
  unfold sameKey; rw [List.filter_cons_of_pos (by exact decide_eq_true h)]

theorem sameKey_cons_neg {g n : Str} {t : Table} (h : ¬(t.group = g ∧ t.name = n)) (l : List Table) :
    sameKey g n (t :: l) = sameKey g n l := by
  unfold sameKey; rw [List.filter_cons_of_neg (by exact fun e => h (of_decide_eq_true e))]

theorem mem_sameKey {g n : Str} {t : Table} {l : List Table} : t ∈ sameKey g n l ↔ t ∈ l ∧ t.group = g ∧ t.name = n := by
  unfold sameKey; rw [List.mem_filter]; simp only [decide_eq_true_eq]

/-- Sorted lists that agree in every group and name are equal. -/
theorem sorted_eq_of_sameKey {l m : List Table} (hl : l.Pairwise (fun a b => tableLess b a = false))
    (hm : m.Pairwise (fun a b => tableLess b a = false)) (h : ∀ g n, sameKey g n l = sameKey g n m) : l = m := by
  induction l generalizing m with
  | nil =>
    cases m with
    | nil => rfl
    | cons b m =>
      have := h b.group b.name
      rw [sameKey_cons_pos ⟨rfl, rfl⟩] at this
      cases this
  | cons a l ih =>
    cases m with
    | nil =>
      have := h a.group a.name
      rw [sameKey_cons_pos ⟨rfl, rfl⟩] at this
      cases this
    | cons b m =>
      have hirr : ∀ t : Table, tableLess t t = false := fun t => by
        by_contra hc
        rw [Bool.not_eq_false, tableLess_iff] at hc
        rcases hc with hc | ⟨-, hc⟩ <;> rw [strLt_irrefl] at hc <;> cases hc
      have ha : a ∈ b :: m := (mem_sameKey.mp (show a ∈ sameKey a.group a.name (b :: m) by
        rw [← h]; exact mem_sameKey.mpr ⟨List.mem_cons_self .., rfl, rfl⟩)).1
      have hb : b ∈ a :: l := (mem_sameKey.mp (show b ∈ sameKey b.group b.name (a :: l) by
        rw [h]; exact mem_sameKey.mpr ⟨List.mem_cons_self .., rfl, rfl⟩)).1
      have hab : tableLess b a = false := by
        rcases List.mem_cons.mp hb with e | e
        · rw [e]; exact hirr a
        · exact (List.pairwise_cons.mp hl).1 b e
      have hba : tableLess a b = false := by
        rcases List.mem_cons.mp ha with e | e
        · rw [e]; exact hirr b
        · exact (List.pairwise_cons.mp hm).1 a e
      have hk : a.group = b.group ∧ a.name = b.name := notLess_antisymm hab hba
      have e := h a.group a.name
      rw [sameKey_cons_pos ⟨rfl, rfl⟩, sameKey_cons_pos ⟨hk.1.symm, hk.2.symm⟩] at e
      injection e with e1 e2
      subst e1
      congr 1
      refine ih (List.pairwise_cons.mp hl).2 (List.pairwise_cons.mp hm).2 fun g n => ?_
      have e := h g n
      by_cases hgn : a.group = g ∧ a.name = n
      · rw [sameKey_cons_pos hgn, sameKey_cons_pos hgn] at e
        injection e
      · rwa [sameKey_cons_neg hgn, sameKey_cons_neg hgn] at e

/-- Insertion sort is stable. -/
theorem tableSort_stable : StableSort tableSort := by
  refine ⟨tableSort_spec, fun l g n => ?_⟩
  unfold tableSort
  induction l with
  | nil => rfl
  | cons a l ih =>
    have key : ∀ m : List Table, sameKey g n (m.orderedInsert (fun a b => tableLess b a = false) a) = sameKey g n (a :: m) := by
      intro m
      induction m with
      | nil => rfl
      | cons b m ihm =>
        unfold List.orderedInsert
        split
        · rfl
        · rename_i hlt
          by_cases hb : b.group = g ∧ b.name = n
          · have ha : ¬(a.group = g ∧ a.name = n) := fun ha => hlt (by
              have : tableLess b a = tableLess b b := tableLess_congr ⟨rfl, rfl⟩ ⟨ha.1.trans hb.1.symm, ha.2.trans hb.2.symm⟩
              rw [this]
              by_contra hc
              rw [Bool.not_eq_false, tableLess_iff] at hc
              rcases hc with hc | ⟨-, hc⟩ <;> rw [strLt_irrefl] at hc <;> cases hc)
            rw [sameKey_cons_pos hb, ihm, sameKey_cons_neg ha, sameKey_cons_neg ha, sameKey_cons_pos hb]
          · rw [sameKey_cons_neg hb, ihm]
            by_cases ha : a.group = g ∧ a.name = n
            · rw [sameKey_cons_pos ha, sameKey_cons_pos ha, sameKey_cons_neg hb]
            · rw [sameKey_cons_neg ha, sameKey_cons_neg ha, sameKey_cons_neg hb]
    show sameKey g n (List.orderedInsert _ a (List.insertionSort _ l)) = _
    rw [key]
    by_cases ha : a.group = g ∧ a.name = n
    · rw [sameKey_cons_pos ha, sameKey_cons_pos ha, ih]
    · rw [sameKey_cons_neg ha, sameKey_cons_neg ha, ih]

/-- What a stable sort yields is determined by the order within groups and names. -/
theorem stable_unique {sorter sorter' : List Table → List Table} (hs : StableSort sorter) (hs' : StableSort sorter') {l m : List Table}
    (h : ∀ g n, sameKey g n l = sameKey g n m) : sorter l = sorter' m :=
  sorted_eq_of_sameKey (hs.1 l).2 (hs'.1 m).2 fun g n => by rw [hs.2, hs'.2, h]

/-- A sorted list stays as it is. -/
theorem stable_fix {sorter : List Table → List Table} (hs : StableSort sorter) {l : List Table}
    (h : l.Pairwise (fun a b => tableLess b a = false)) : sorter l = l :=
  sorted_eq_of_sameKey (hs.1 l).2 h fun g n => hs.2 l g n

end Octo
