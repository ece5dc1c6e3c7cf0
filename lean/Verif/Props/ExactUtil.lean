import Verif.Props.Util

/-! An exact condition for C12. -/

namespace Octo
open Spec

namespace MultiMap
variable {κ ν : Type} [DecidableEq κ] [DecidableEq ν]

theorem removeLoop_length (v : ν) (n i : Nat) (arr : List ν) (b : Bool) :
    (removeLoop v n i arr b).1.length = arr.length := by
  induction n generalizing i arr b with
  | zero => rfl
  | succ n ih =>
    rw [removeLoop]
    by_cases hi : arr[i]? = some v
    · rw [if_pos hi, ih]
      have hlt : i < arr.length := (List.getElem?_eq_some_iff.1 hi).1
      have hne : arr ≠ [] := fun e => by rw [e] at hlt; exact absurd hlt (Nat.not_lt_zero _)
      rw [List.getLast?_eq_some_getLast hne]
      simp only [List.length_append, List.length_take, List.length_drop, Option.toList_some, List.length_cons, List.length_nil]
      omega
    · rw [if_neg hi]
      exact ih _ _ _

/-- However often a value occurs, at most one element fewer is left. -/
theorem removeFrom_length (v : ν) (l : List ν) : l.length - 1 ≤ (removeFrom v l).length := by
  unfold removeFrom
  have h := removeLoop_length v l.length 0 l false
  generalize removeLoop v l.length 0 l false = r at h ⊢
  obtain ⟨arr, b⟩ := r
  dsimp only at h
  cases b with
  | true => dsimp only; rw [List.length_take, h]; omega
  | false => dsimp only; omega

theorem length_filter_ne (v : ν) (l : List ν) : (l.filter fun x => x ≠ v).length + l.count v = l.length := by
  induction l with
  | nil => rfl
  | cons a l ih =>
    by_cases e : a = v
    · rw [List.filter_cons_of_neg (by simpa using e), e, List.count_cons_self, List.length_cons]; omega
    · rw [List.filter_cons_of_pos (by simpa using e), List.count_cons_of_ne e, List.length_cons, List.length_cons]; omega

theorem view_removeValue_length (m : MultiMap κ ν) (k : κ) (v : ν) : (m.view k).length - 1 ≤ ((m.removeValue k v).view k).length := by
  unfold removeValue
  cases hg : m.get k with
  | none =>
    dsimp only
    omega
  | some vs =>
    have hv : m.view k = vs := by unfold view; rw [hg]; rfl
    have h1 := removeFrom_length v vs
    dsimp only
    rw [hv]
    by_cases he : removeFrom v vs = []
    · rw [he] at h1
      exact Nat.le_trans h1 (Nat.zero_le _)
    · rw [if_neg he]
      have : (⟨setKey m.store k (removeFrom v vs)⟩ : MultiMap κ ν).view k = removeFrom v vs := by
        unfold view get
        simp only [lookup_setKey, if_true, Option.getD_some]
      rw [this]
      exact h1

end MultiMap

section
variable {κ ν : Type} [DecidableEq κ] [DecidableEq ν]

/-- C12, for one removal, exactly: removing a value leaves the other values of the key, in order, and nothing else, if and only if
the value occurs at most once under the key. -/
theorem C12_removal_exact (m : MultiMap κ ν) (k : κ) (v : ν) :
    (m.removeValue k v).view = (MMOp.removeValue k v).sem m.view ↔ (m.view k).count v ≤ 1 := by
  refine ⟨fun h => ?_, MultiMap.view_removeValue m k v⟩
  have h1 := MultiMap.view_removeValue_length m k v
  have h2 := congrArg List.length (congrFun h k)
  have h3 := MultiMap.length_filter_ne v (m.view k)
  simp only [MMOp.sem, if_true] at h2
  have h4 : (m.view k).count v ≤ (m.view k).length := List.count_le_length
  omega

theorem noDup_aux (ops : List (MMOp κ ν)) (m : MultiMap κ ν)
    (h : ∀ pre, pre <+: ops → (pre.foldl MultiMap.run m).view = pre.foldl (fun f o => o.sem f) m.view) : NoDupRemoval ops m.view := by
  induction ops generalizing m with
  | nil => trivial
  | cons o ops ih =>
    have h1 : (m.run o).view = o.sem m.view := h [o] ⟨ops, rfl⟩
    refine ⟨?_, ?_⟩
    · rintro k v rfl
      exact (C12_removal_exact m k v).1 h1
    · rw [← h1]
      refine ih _ fun pre hpre => ?_
      have := h (o :: pre) (List.cons_prefix_cons.2 ⟨rfl, hpre⟩)
      rw [List.foldl_cons, List.foldl_cons, ← h1] at this
      exact this

/-- C12, exactly: after every step of a history the multimap holds what it should if and only if values are only removed while they
occur at most once under their key. -/
theorem C12_exact (ops : List (MMOp κ ν)) :
    (∀ pre, pre <+: ops → (pre.foldl MultiMap.run (MultiMap.empty : MultiMap κ ν)).view = mmSemAll pre) ↔
      NoDupRemoval ops fun _ => [] := by
  have he : (MultiMap.empty : MultiMap κ ν).view = fun _ => [] := by
    funext k; simp [MultiMap.view, MultiMap.get, MultiMap.empty]
  constructor
  · intro h
    rw [← he]
    refine noDup_aux ops _ fun pre hpre => ?_
    rw [he]
    exact h pre hpre
  · intro h pre hpre
    refine C12_history_partial pre ?_
    clear he
    obtain ⟨rest, rfl⟩ := hpre
    generalize (fun _ => [] : κ → List ν) = f at h
    induction pre generalizing f with
    | nil => trivial
    | cons o pre ih => exact ⟨h.1, ih _ h.2⟩

end

example : ¬NoDupRemoval (κ := Nat) (ν := Nat) [.put 1 5, .put 1 5, .removeValue 1 5] (fun _ => []) := by
  simp [NoDupRemoval, MMOp.sem]

example : NoDupRemoval (κ := Nat) (ν := Nat) [.put 1 5, .put 1 6, .put 2 5, .removeValue 1 5] (fun _ => []) := by
  simp [NoDupRemoval, MMOp.sem]

end Octo
