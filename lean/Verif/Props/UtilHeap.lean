import Verif.Spec.UtilHeap
import Verif.Props.ExactUtil

/-! C138: slices that a multimap hands out. -/

namespace Octo
open Spec

set_option linter.unusedSectionVars false

variable {κ ν : Type} [DecidableEq κ] [DecidableEq ν] [Inhabited ν]

namespace HeapMap

/-- Slices of the map lie in arrays that exist, and no two keys share one. -/
structure Sound (m : HeapMap κ ν) : Prop where
  old : ∀ k s, m.store k = some s → s.addr < m.next
  fits : ∀ k s, m.store k = some s → s.len ≤ (m.mem s.addr).length
  apart : ∀ k k' s s', m.store k = some s → m.store k' = some s' → s.addr = s'.addr → k = k'

theorem removeLoop_spec (v : ν) (n fuel i : Nat) (arr : List ν) (b : Bool) (hn : n ≤ arr.length) (hi : i + fuel = n) :
    (removeLoop v n fuel i arr b).1.take n = (MultiMap.removeLoop v fuel i (arr.take n) b).1 ∧
    (removeLoop v n fuel i arr b).1.drop n = arr.drop n ∧
    (removeLoop v n fuel i arr b).2 = (MultiMap.removeLoop v fuel i (arr.take n) b).2 := by
  induction fuel generalizing i arr b with
  | zero => exact ⟨rfl, rfl, rfl⟩
  | succ fuel ih =>
    have hlt : i < n := by omega
    have hget : (arr.take n)[i]? = arr[i]? := List.getElem?_take_of_lt hlt
    rw [removeLoop, MultiMap.removeLoop, hget]
    by_cases h : arr[i]? = some v
    · rw [if_pos h, if_pos h]
      have hlen : (arr.take i ++ (arr.take n).drop (i + 1)).length = n - 1 := by
        rw [List.length_append, List.length_take, List.length_drop, List.length_take]; omega
      have hlast : (arr.drop (n - 1)).take 1 = (arr.take n).getLast?.toList := by
        have hl : (arr.take n).length = n := by rw [List.length_take]; omega
        rw [List.getLast?_eq_getElem?, hl, List.getElem?_take_of_lt (by omega), List.getElem?_eq_getElem (by omega : n - 1 < arr.length),
          List.drop_eq_getElem_cons (by omega : n - 1 < arr.length)]
        rfl
      have htake : (arr.take i ++ (arr.take n).drop (i + 1) ++ arr.drop (n - 1)).take n =
          (arr.take n).take i ++ (arr.take n).drop (i + 1) ++ (arr.take n).getLast?.toList := by
        rw [List.take_append, List.take_of_length_le (by omega), hlen, show n - (n - 1) = 1 by omega, hlast,
          List.take_take, Nat.min_eq_left (by omega)]
      have hdrop : (arr.take i ++ (arr.take n).drop (i + 1) ++ arr.drop (n - 1)).drop n = arr.drop n := by
        rw [List.drop_append, List.drop_of_length_le (by omega), hlen, List.nil_append, List.drop_drop]
        congr 1; omega
      have := ih (i + 1) (arr.take i ++ (arr.take n).drop (i + 1) ++ arr.drop (n - 1)) true
        (by rw [List.length_append, hlen, List.length_drop]; omega) (by omega)
      rw [htake, hdrop] at this
      exact this
    · rw [if_neg h, if_neg h]
      exact ih (i + 1) arr b hn (by omega)

theorem removeLoop_length (v : ν) (n fuel i : Nat) (arr : List ν) (b : Bool) (hn : n ≤ arr.length) (hi : i + fuel = n) :
    (removeLoop v n fuel i arr b).1.length = arr.length := by
  induction fuel generalizing i arr b with
  | zero => rfl
  | succ fuel ih =>
    rw [removeLoop]
    by_cases h : arr[i]? = some v
    · have hlen : (arr.take i ++ (arr.take n).drop (i + 1) ++ arr.drop (n - 1)).length = arr.length := by
        rw [List.length_append, List.length_append, List.length_take, List.length_drop, List.length_take, List.length_drop]; omega
      rw [if_pos h, ih _ _ _ (by omega) (by omega), hlen]
    · rw [if_neg h]; exact ih _ _ _ hn (by omega)

theorem sound_empty : (empty : HeapMap κ ν).Sound :=
  ⟨fun _ _ h => (by cases h), fun _ _ h => (by cases h), fun _ _ _ _ h => (by cases h)⟩

/-- What is written to the array of a key, and the new slice of the key. -/
theorem sound_update {m : HeapMap κ ν} (hm : m.Sound) {k : κ} {s : Slice} (hs : m.store k = some s) (arr : List ν)
    (ha : (m.mem s.addr).length ≤ arr.length) (len : Nat) (hl : len ≤ arr.length) : ((m.poke s.addr arr).assign k ⟨s.addr, len⟩).Sound := by
  refine ⟨fun k' s' h => ?_, fun k' s' h => ?_, fun k1 k2 s1 s2 h1 h2 e => ?_⟩
  · change (if k' = k then some (⟨s.addr, len⟩ : Slice) else m.store k') = some s' at h
    split at h
    · cases h; exact hm.old k s hs
    · exact hm.old _ _ h
  · change (if k' = k then some (⟨s.addr, len⟩ : Slice) else m.store k') = some s' at h
    change s'.len ≤ (if s'.addr = s.addr then arr else m.mem s'.addr).length
    split at h
    · cases h; rw [if_pos rfl]; exact hl
    · split
      · rename_i e; exact Nat.le_trans (hm.fits _ _ h) (by rw [e]; exact ha)
      · exact hm.fits _ _ h
  · change (if k1 = k then some (⟨s.addr, len⟩ : Slice) else m.store k1) = some s1 at h1
    change (if k2 = k then some (⟨s.addr, len⟩ : Slice) else m.store k2) = some s2 at h2
    split at h1 <;> split at h2
    · rename_i e1 e2; rw [e1, e2]
    · rename_i e1 _; cases h1; rw [e1]; exact hm.apart _ _ _ _ hs h2 e
    · rename_i _ e2; cases h2; rw [e2]; exact hm.apart _ _ _ _ h1 hs e
    · exact hm.apart _ _ _ _ h1 h2 e

theorem sound_alloc {m : HeapMap κ ν} (hm : m.Sound) (k : κ) (arr : List ν) (len : Nat) (hl : len ≤ arr.length) :
    ((m.alloc arr).assign k ⟨m.next, len⟩).Sound := by
  refine ⟨fun k' s' h => ?_, fun k' s' h => ?_, fun k1 k2 s1 s2 h1 h2 e => ?_⟩
  · change (if k' = k then some (⟨m.next, len⟩ : Slice) else m.store k') = some s' at h
    change s'.addr < m.next + 1
    split at h
    · cases h; exact Nat.lt_succ_self _
    · exact Nat.lt_succ_of_lt (hm.old _ _ h)
  · change (if k' = k then some (⟨m.next, len⟩ : Slice) else m.store k') = some s' at h
    change s'.len ≤ (if s'.addr = m.next then arr else m.mem s'.addr).length
    split at h
    · cases h; rw [if_pos rfl]; exact hl
    · rw [if_neg (Nat.ne_of_lt (hm.old _ _ h))]; exact hm.fits _ _ h
  · change (if k1 = k then some (⟨m.next, len⟩ : Slice) else m.store k1) = some s1 at h1
    change (if k2 = k then some (⟨m.next, len⟩ : Slice) else m.store k2) = some s2 at h2
    split at h1 <;> split at h2
    · rename_i e1 e2; rw [e1, e2]
    · cases h1; exact absurd e.symm (Nat.ne_of_lt (hm.old _ _ h2))
    · cases h2; exact absurd e (Nat.ne_of_lt (hm.old _ _ h1))
    · exact hm.apart _ _ _ _ h1 h2 e

theorem sound_removeKey {m : HeapMap κ ν} (hm : m.Sound) (k : κ) : (m.removeKey k).Sound := by
  have key : ∀ k' s', (m.removeKey k).store k' = some s' → m.store k' = some s' := by
    intro k' s' h
    change (if k' = k then none else m.store k') = some s' at h
    split at h
    · cases h
    · exact h
  exact ⟨fun k' s' h => hm.old _ _ (key _ _ h), fun k' s' h => hm.fits _ _ (key _ _ h),
    fun k1 k2 s1 s2 h1 h2 e => hm.apart _ _ _ _ (key _ _ h1) (key _ _ h2) e⟩

theorem sound_step {m : HeapMap κ ν} (hm : m.Sound) (o : HeapOp κ ν) : (o.heap m).Sound := by
  cases o with
  | put spare k v =>
    show (m.put spare k v).Sound
    unfold put
    split
    · exact sound_alloc hm _ _ _ (by rw [List.length_cons]; omega)
    · rename_i s hs
      split
      · rename_i h
        exact sound_update hm hs _ (by rw [List.length_set]) _ (by rw [List.length_set]; omega)
      · exact sound_alloc hm _ _ _ (by
          have := hm.fits _ _ hs
          rw [List.length_append, read, List.length_take, List.length_cons]; omega)
  | removeKey k => exact sound_removeKey hm k
  | removeValue k v =>
    show (m.removeValue k v).Sound
    unfold removeValue
    split
    · exact hm
    · rename_i s hs
      have hf := hm.fits _ _ hs
      have hl := removeLoop_length v s.len s.len 0 (m.mem s.addr) false hf (by omega)
      have hu : ∀ len ≤ s.len, ((m.poke s.addr (removeLoop v s.len s.len 0 (m.mem s.addr) false).1).assign k ⟨s.addr, len⟩).Sound :=
        fun len h => sound_update hm hs _ (by rw [hl]) _ (by rw [hl]; omega)
      have hk : ((m.poke s.addr (removeLoop v s.len s.len 0 (m.mem s.addr) false).1).removeKey k).Sound := by
        have e : (m.poke s.addr (removeLoop v s.len s.len 0 (m.mem s.addr) false).1).removeKey k =
            ((m.poke s.addr (removeLoop v s.len s.len 0 (m.mem s.addr) false).1).assign k ⟨s.addr, 0⟩).removeKey k := by
          unfold removeKey assign
          congr 1
          funext k'
          dsimp only
          split
          · rfl
          · rfl
        rw [e]
        exact sound_removeKey (hu 0 (Nat.zero_le _)) k
      dsimp only
      have hle : (if (removeLoop v s.len s.len 0 (m.mem s.addr) false).2 = true then s.len - 1 else s.len) ≤ s.len := by split <;> omega
      generalize (if (removeLoop v s.len s.len 0 (m.mem s.addr) false).2 = true then s.len - 1 else s.len) = len at hle
      by_cases h0 : len = 0
      · rw [if_pos h0]; exact hk
      · rw [if_neg h0]; exact hu _ hle
  | clear => exact ⟨fun _ _ h => (by cases h), fun _ _ h => (by cases h), fun _ _ _ _ h => (by cases h)⟩

/-- The map shows the lists of the table. -/
def Shows (m : HeapMap κ ν) (p : MultiMap κ ν) : Prop := ∀ k, (m.get k).map m.read = p.get k

theorem read_poke_ne {m : HeapMap κ ν} {a : Nat} {arr : List ν} {s : Slice} (h : s.addr ≠ a) : (m.poke a arr).read s = m.read s := by
  show (if s.addr = a then arr else m.mem s.addr).take s.len = _
  rw [if_neg h]; rfl

theorem read_poke {m : HeapMap κ ν} {a : Nat} {arr : List ν} {len : Nat} : (m.poke a arr).read ⟨a, len⟩ = arr.take len := by
  show (if a = a then arr else m.mem a).take len = _
  rw [if_pos rfl]

theorem shows_update {m : HeapMap κ ν} {p p' : MultiMap κ ν} (hm : m.Sound) (h : m.Shows p) {k : κ} {s : Slice} (hs : m.store k = some s)
    (arr : List ν) (len : Nat) (hp : ∀ k', p'.get k' = if k' = k then some (arr.take len) else p.get k') :
    ((m.poke s.addr arr).assign k ⟨s.addr, len⟩).Shows p' := by
  intro k'
  rw [hp]
  show (if k' = k then some (⟨s.addr, len⟩ : Slice) else m.store k').map (m.poke s.addr arr).read = _
  by_cases e : k' = k
  · rw [if_pos e, if_pos e, Option.map_some, read_poke]
  · rw [if_neg e, if_neg e, ← h k']
    show (m.store k').map _ = (m.store k').map _
    cases hs' : m.store k' with
    | none => rfl
    | some s' => rw [Option.map_some, Option.map_some, read_poke_ne fun e' => e (hm.apart _ _ _ _ hs' hs e')]

theorem shows_alloc {m : HeapMap κ ν} {p p' : MultiMap κ ν} (hm : m.Sound) (h : m.Shows p) (k : κ) (arr : List ν) (len : Nat)
    (hp : ∀ k', p'.get k' = if k' = k then some (arr.take len) else p.get k') : ((m.alloc arr).assign k ⟨m.next, len⟩).Shows p' := by
  intro k'
  rw [hp]
  show (if k' = k then some (⟨m.next, len⟩ : Slice) else m.store k').map (m.poke m.next arr).read = _
  by_cases e : k' = k
  · rw [if_pos e, if_pos e, Option.map_some, read_poke]
  · rw [if_neg e, if_neg e, ← h k']
    show (m.store k').map _ = (m.store k').map _
    cases hs' : m.store k' with
    | none => rfl
    | some s' => rw [Option.map_some, Option.map_some, read_poke_ne (Nat.ne_of_lt (hm.old _ _ hs'))]

theorem get_removeKey (p : MultiMap κ ν) (k k' : κ) : (p.removeKey k).get k' = if k' = k then none else p.get k' := by
  show (p.store.filter fun q => q.1 ≠ k).lookup k' = _
  rw [MultiMap.lookup_filter_ne]
  rfl

theorem get_setKey (p : MultiMap κ ν) (k k' : κ) (vs : List ν) :
    MultiMap.get ⟨MultiMap.setKey p.store k vs⟩ k' = if k' = k then some vs else p.get k' :=
  MultiMap.lookup_setKey _ _ _ _

theorem shows_removeKey {m : HeapMap κ ν} {p : MultiMap κ ν} (h : m.Shows p) (k : κ) : (m.removeKey k).Shows (p.removeKey k) := by
  intro k'
  rw [get_removeKey]
  show (if k' = k then none else m.store k').map m.read = _
  split
  · rfl
  · exact h k'

theorem shows_step {m : HeapMap κ ν} {p : MultiMap κ ν} (hm : m.Sound) (h : m.Shows p) (o : HeapOp κ ν) : (o.heap m).Shows (o.plain p) := by
  cases o with
  | put spare k v =>
    show (m.put spare k v).Shows (p.put k v)
    have hp := h k
    have hput : ∀ k', (p.put k v).get k' = if k' = k then some ((p.get k).getD [] ++ [v]) else p.get k' := fun k' => get_setKey ..
    unfold put
    split
    · rename_i hs
      have hs : m.get k = none := hs
      rw [hs] at hp
      refine shows_alloc hm h _ _ _ fun k' => ?_
      rw [hput, ← hp]; rfl
    · rename_i s hs
      have hs' : m.get k = some s := hs
      rw [hs', Option.map_some] at hp
      have hf := hm.fits _ _ hs
      split
      · rename_i hlt
        refine shows_update hm h hs _ _ fun k' => ?_
        rw [hput, ← hp, Option.getD_some, List.take_succ_eq_append_getElem (by rw [List.length_set]; exact hlt), List.getElem_set_self,
          List.take_set_of_le (Nat.le_refl _)]
        rfl
      · refine shows_alloc hm h _ _ _ fun k' => ?_
        have hlen : (m.read s).length = s.len := by rw [read, List.length_take]; omega
        rw [hput, ← hp, Option.getD_some, List.take_append, hlen, List.take_of_length_le (by omega), show s.len + 1 - s.len = 1 by omega]
        rfl
  | removeKey k => exact shows_removeKey h k
  | removeValue k v =>
    show (m.removeValue k v).Shows (p.removeValue k v)
    have hp := h k
    unfold removeValue MultiMap.removeValue
    split
    · rename_i hs
      have hs : m.get k = none := hs
      rw [hs] at hp
      rw [← hp]
      exact h
    · rename_i s hs
      have hs' : m.get k = some s := hs
      rw [hs', Option.map_some] at hp
      rw [← hp]
      have hf := hm.fits _ _ hs
      obtain ⟨h1, h2, h3⟩ := removeLoop_spec v s.len s.len 0 (m.mem s.addr) false hf (by omega)
      have hlen : (m.read s).length = s.len := by rw [read, List.length_take]; omega
      have hl2 := MultiMap.removeLoop_length v s.len 0 (m.read s) false
      have hfrom : MultiMap.removeFrom v (m.read s) = (removeLoop v s.len s.len 0 (m.mem s.addr) false).1.take
          (if (removeLoop v s.len s.len 0 (m.mem s.addr) false).2 = true then s.len - 1 else s.len) := by
        unfold MultiMap.removeFrom
        rw [hlen]
        rw [h3]
        have e : (m.mem s.addr).take s.len = m.read s := rfl
        rw [e] at h1 ⊢
        generalize MultiMap.removeLoop v s.len 0 (m.read s) false = r at h1 hl2
        obtain ⟨arr, b⟩ := r
        dsimp only at h1 ⊢
        cases b with
        | true => dsimp only; rw [if_pos rfl, ← h1, List.take_take, Nat.min_eq_left (by omega)]
        | false => dsimp only; rw [if_neg Bool.false_ne_true, h1]
      have hll : (removeLoop v s.len s.len 0 (m.mem s.addr) false).1.length = (m.mem s.addr).length :=
        removeLoop_length v s.len s.len 0 (m.mem s.addr) false hf (by omega)
      dsimp only
      rw [hfrom]
      have hu : ∀ len, ((m.poke s.addr (removeLoop v s.len s.len 0 (m.mem s.addr) false).1).assign k ⟨s.addr, len⟩).Shows
          ⟨MultiMap.setKey p.store k ((removeLoop v s.len s.len 0 (m.mem s.addr) false).1.take len)⟩ :=
        fun len => shows_update hm h hs _ _ fun k' => get_setKey ..
      have hle : (if (removeLoop v s.len s.len 0 (m.mem s.addr) false).2 = true then s.len - 1 else s.len) ≤ s.len := by split <;> omega
      clear hfrom
      generalize (if (removeLoop v s.len s.len 0 (m.mem s.addr) false).2 = true then s.len - 1 else s.len) = len at hle ⊢
      by_cases h0 : len = 0
      · rw [if_pos h0, if_pos (by rw [h0]; rfl)]
        intro k'
        rw [get_removeKey]
        have := hu 0 k'
        rw [get_setKey] at this
        change (if k' = k then some (⟨s.addr, 0⟩ : Slice) else m.store k').map _ = _ at this
        show (if k' = k then none else m.store k').map _ = _
        by_cases e : k' = k
        · rw [if_pos e, if_pos e]; rfl
        · rw [if_neg e, if_neg e] at this ⊢; exact this
      · have hne : (removeLoop v s.len s.len 0 (m.mem s.addr) false).1.take len ≠ [] := by
          intro e
          have := congrArg List.length e
          rw [List.length_take, hll, List.length_nil] at this
          omega
        rw [if_neg h0, if_neg hne]
        exact hu len
  | clear => intro k; rfl

/-- A slice that only the key `k` may share, and which is not longer than the slice of the key. -/
structure Held (m : HeapMap κ ν) (k : κ) (h : Slice) : Prop where
  old : h.addr < m.next
  only : ∀ k' s, m.store k' = some s → s.addr = h.addr → k' = k ∧ h.len ≤ s.len

theorem held_of_get {m : HeapMap κ ν} (hm : m.Sound) {k : κ} {s : Slice} (hs : m.get k = some s) : m.Held k s :=
  ⟨hm.old _ _ hs, fun k' s' h' e => by
    have hk := hm.apart _ _ _ _ h' hs e
    rw [hk] at h'
    rw [show m.store k = some s from hs] at h'
    cases h'
    exact ⟨hk, Nat.le_refl _⟩⟩

theorem held_alloc {m : HeapMap κ ν} {k : κ} {h : Slice} (hh : m.Held k h) (k' : κ) (arr : List ν) (len : Nat) :
    ((m.alloc arr).assign k' ⟨m.next, len⟩).Held k h ∧ ((m.alloc arr).assign k' ⟨m.next, len⟩).read h = m.read h := by
  refine ⟨⟨Nat.lt_succ_of_lt hh.old, fun k2 s2 h2 e => ?_⟩, read_poke_ne (Nat.ne_of_lt hh.old)⟩
  change (if k2 = k' then some (⟨m.next, len⟩ : Slice) else m.store k2) = some s2 at h2
  split at h2
  · cases h2; exact absurd e.symm (Nat.ne_of_lt hh.old)
  · exact hh.only _ _ h2 e

theorem held_step {m : HeapMap κ ν} {k : κ} {h : Slice} (hh : m.Held k h) (o : HeapOp κ ν)
    (ho : ∀ v, o ≠ .removeValue k v) : (o.heap m).Held k h ∧ (o.heap m).read h = m.read h := by
  cases o with
  | put spare k' v =>
    show (m.put spare k' v).Held k h ∧ (m.put spare k' v).read h = m.read h
    unfold put
    split
    · exact held_alloc hh _ _ _
    · rename_i s hs
      split
      · rename_i hlt
        constructor
        · refine ⟨hh.old, fun k2 s2 h2 e => ?_⟩
          change (if k2 = k' then some (⟨s.addr, s.len + 1⟩ : Slice) else m.store k2) = some s2 at h2
          split at h2
          · rename_i e2
            cases h2
            have := hh.only _ _ hs e
            exact ⟨e2.trans this.1, Nat.le_succ_of_le this.2⟩
          · exact hh.only _ _ h2 e
        · by_cases e : h.addr = s.addr
          · have := (hh.only _ _ hs e.symm).2
            show (if h.addr = s.addr then (m.mem s.addr).set s.len v else m.mem h.addr).take h.len = (m.mem h.addr).take h.len
            rw [if_pos e, e, List.take_set_of_le this]
          · exact read_poke_ne e
      · exact held_alloc hh _ _ _
  | removeKey k' =>
    refine ⟨⟨hh.old, fun k2 s2 h2 e => ?_⟩, rfl⟩
    change (if k2 = k' then none else m.store k2) = some s2 at h2
    split at h2
    · cases h2
    · exact hh.only _ _ h2 e
  | removeValue k' v =>
    show (m.removeValue k' v).Held k h ∧ (m.removeValue k' v).read h = m.read h
    unfold removeValue
    split
    · exact ⟨hh, rfl⟩
    · rename_i s hs
      have hne : h.addr ≠ s.addr := fun e => ho v (by rw [(hh.only _ _ hs e.symm).1])
      dsimp only
      generalize (removeLoop v s.len s.len 0 (m.mem s.addr) false).1 = arr
      generalize (if (removeLoop v s.len s.len 0 (m.mem s.addr) false).2 = true then s.len - 1 else s.len) = len
      split
      · refine ⟨⟨hh.old, fun k2 s2 h2 e => ?_⟩, read_poke_ne hne⟩
        change (if k2 = k' then none else m.store k2) = some s2 at h2
        split at h2
        · cases h2
        · exact hh.only _ _ h2 e
      · refine ⟨⟨hh.old, fun k2 s2 h2 e => ?_⟩, read_poke_ne hne⟩
        change (if k2 = k' then some (⟨s.addr, len⟩ : Slice) else m.store k2) = some s2 at h2
        split at h2
        · cases h2; exact absurd e.symm hne
        · exact hh.only _ _ h2 e
  | clear => exact ⟨⟨hh.old, fun _ _ h2 => (by cases h2)⟩, rfl⟩

end HeapMap

namespace MultiMap

/-- What the loop leaves in the array when nothing else follows the value. -/
theorem removeLoop_same (v : ν) (n i : Nat) (arr : List ν) (b : Bool) (h : ¬Followed v arr) : (removeLoop v n i arr b).1 = arr := by
  induction n generalizing i b with
  | zero => rfl
  | succ n ih =>
    rw [removeLoop]
    by_cases hi : arr[i]? = some v
    · obtain ⟨hlt, hv⟩ := List.getElem?_eq_some_iff.1 hi
      have e : arr.take i ++ arr.drop (i + 1) ++ arr.getLast?.toList = arr := by
        have hd : arr.drop i = v :: arr.drop (i + 1) := by rw [List.drop_eq_getElem_cons hlt, hv]
        have key : ∀ (l pre : List ν), arr = pre ++ v :: l → l ++ arr.getLast?.toList = v :: l := by
          intro l
          induction l with
          | nil => intro pre e; rw [e, List.getLast?_append]; rfl
          | cons w l ihl =>
            intro pre e
            have hw : w = v := by
              by_contra hw
              exact h ⟨pre, w, l, e, hw⟩
            rw [hw, List.cons_append, ihl (pre ++ [v]) (by rw [e, hw, List.append_assoc]; rfl)]
        rw [List.append_assoc, key (arr.drop (i + 1)) (arr.take i) (by rw [← hd, List.take_append_drop]), ← hd, List.take_append_drop]
      rw [if_pos hi, e]
      exact ih _ _
    · rw [if_neg hi]; exact ih _ _

theorem count_shift (v : ν) (arr : List ν) (j p : Nat) (hj : j ≤ p) (hv : arr[j]? = some v) (w : ν) (hw : arr[p + 1]? = some w) :
    ((arr.take j ++ arr.drop (j + 1) ++ arr.getLast?.toList).take (p + 1)).count v + 1 =
      (arr.take (p + 1)).count v + if w = v then 1 else 0 := by
  obtain ⟨hlt, hw'⟩ := List.getElem?_eq_some_iff.1 hw
  obtain ⟨hj', hv'⟩ := List.getElem?_eq_some_iff.1 hv
  have h1 : (arr.take j ++ arr.drop (j + 1) ++ arr.getLast?.toList).take (p + 1) = arr.take j ++ (arr.drop (j + 1)).take (p - j) ++ [w] := by
    have hl : (arr.take j).length = j := by rw [List.length_take]; omega
    rw [List.append_assoc, List.take_append, List.take_of_length_le (by omega), hl, show p + 1 - j = p - j + 1 by omega,
      List.take_append_of_le_length (by rw [List.length_drop]; omega),
      List.take_succ_eq_append_getElem (by rw [List.length_drop]; omega), List.append_assoc]
    congr 3
    rw [List.getElem_drop, ← hw']
    congr 1
    omega
  have h2 : arr.take (p + 1) = arr.take j ++ v :: (arr.drop (j + 1)).take (p - j) := by
    have e : arr.take (p + 1) = (arr.take j ++ arr.drop j).take (p + 1) := by rw [List.take_append_drop]
    have hl : (arr.take j).length = j := by rw [List.length_take]; omega
    rw [e, List.take_append, List.take_of_length_le (by omega), hl, show p + 1 - j = p - j + 1 by omega,
      List.drop_eq_getElem_cons hj', List.take_succ_cons, hv']
  rw [h1, h2, List.count_append, List.count_append, List.count_append, List.count_cons_self, List.count_singleton]
  simp only [beq_iff_eq]
  omega

theorem removeLoop_count_le (v : ν) (n i p : Nat) (arr : List ν) (b : Bool) (hp : p + 1 < arr.length) :
    ((removeLoop v n i arr b).1.take (p + 1)).count v ≤ (arr.take (p + 1)).count v := by
  induction n generalizing i arr b with
  | zero => exact Nat.le_refl _
  | succ n ih =>
    rw [removeLoop]
    by_cases hi : arr[i]? = some v
    · rw [if_pos hi]
      obtain ⟨hlt, hv⟩ := List.getElem?_eq_some_iff.1 hi
      have hlen : (arr.take i ++ arr.drop (i + 1) ++ arr.getLast?.toList).length = arr.length := by
        rw [List.getLast?_eq_some_getLast (List.ne_nil_of_length_pos (by omega : 0 < arr.length))]
        simp only [List.length_append, List.length_take, List.length_drop, Option.toList_some, List.length_cons, List.length_nil]
        omega
      refine Nat.le_trans (ih (i + 1) _ true (by omega)) ?_
      by_cases hip : i ≤ p
      · have := count_shift v arr i p hip hi _ (List.getElem?_eq_getElem hp)
        split at this <;> omega
      · rw [List.append_assoc, List.take_append_of_le_length (by rw [List.length_take]; omega), List.take_take, Nat.min_eq_left (by omega)]
    · rw [if_neg hi]; exact ih _ _ _ hp

theorem removeLoop_count_lt (v w : ν) (n i p : Nat) (arr : List ν) (b : Bool) (hn : i + n = arr.length) (hi : i ≤ p)
    (hv : arr[p]? = some v) (hw : arr[p + 1]? = some w) (hne : w ≠ v) :
    ((removeLoop v n i arr b).1.take (p + 1)).count v < (arr.take (p + 1)).count v := by
  have hp := (List.getElem?_eq_some_iff.1 hw).1
  induction n generalizing i b with
  | zero => omega
  | succ n ih =>
    rw [removeLoop]
    by_cases hi' : arr[i]? = some v
    · rw [if_pos hi']
      have hlt := (List.getElem?_eq_some_iff.1 hi').1
      have hlen : (arr.take i ++ arr.drop (i + 1) ++ arr.getLast?.toList).length = arr.length := by
        rw [List.getLast?_eq_some_getLast (List.ne_nil_of_length_pos (by omega : 0 < arr.length))]
        simp only [List.length_append, List.length_take, List.length_drop, Option.toList_some, List.length_cons, List.length_nil]
        omega
      have h1 := removeLoop_count_le v n (i + 1) p _ true (by omega : p + 1 < (arr.take i ++ arr.drop (i + 1) ++ arr.getLast?.toList).length)
      have h2 := count_shift v arr i p hi hi' w hw
      rw [if_neg hne] at h2
      omega
    · rw [if_neg hi']
      refine ih (i + 1) b (by omega) ?_
      rcases Nat.lt_or_eq_of_le hi with h | h
      · exact h
      · rw [h] at hi'; exact absurd hv hi'

theorem removeLoop_exact (v : ν) (l : List ν) : (removeLoop v l.length 0 l false).1 = l ↔ ¬Followed v l := by
  refine ⟨?_, removeLoop_same v _ _ _ _⟩
  rintro h ⟨pre, w, post, e, hne⟩
  have := removeLoop_count_lt v w l.length 0 pre.length l false (Nat.zero_add _) (Nat.zero_le _)
    (by rw [e]; simp) (by rw [e]; simp) hne
  rw [h] at this
  exact Nat.lt_irrefl _ this

end MultiMap

/-! ### C138 -/

theorem history_sound (ops : List (HeapOp κ ν)) : (ops.foldl HeapOp.heap (HeapMap.empty : HeapMap κ ν)).Sound := by
  suffices ∀ m : HeapMap κ ν, m.Sound → (ops.foldl HeapOp.heap m).Sound from this _ HeapMap.sound_empty
  induction ops with
  | nil => exact fun _ h => h
  | cons o ops ih => exact fun m h => ih _ (HeapMap.sound_step h o)

/-- C138: whatever room Go reserves for the arrays, what the slices of the map show is what the table of lists of C12 has. -/
theorem C138_refines (ops : List (HeapOp κ ν)) (k : κ) :
    let m := ops.foldl HeapOp.heap (HeapMap.empty : HeapMap κ ν)
    (m.get k).map m.read = (ops.foldl HeapOp.plain (MultiMap.empty : MultiMap κ ν)).get k := by
  suffices ∀ (m : HeapMap κ ν) (p : MultiMap κ ν), m.Sound → m.Shows p → (ops.foldl HeapOp.heap m).Shows (ops.foldl HeapOp.plain p) from
    this _ _ HeapMap.sound_empty (fun _ => rfl) k
  induction ops with
  | nil => exact fun _ _ _ h => h
  | cons o ops ih => exact fun m p hm h => ih _ _ (HeapMap.sound_step hm o) (HeapMap.shows_step hm h o)

/-- C138 (partial): a slice that was handed out keeps showing the same values as long as no value is removed from its key,
whatever else happens to the map.  Missing: removals, see `C138_violated`. -/
theorem C138_snapshot_partial (before after : List (HeapOp κ ν)) (k : κ) (s : Slice)
    (hs : (before.foldl HeapOp.heap (HeapMap.empty : HeapMap κ ν)).get k = some s) (ha : ∀ o ∈ after, ∀ v, o ≠ .removeValue k v) :
    ((before ++ after).foldl HeapOp.heap (HeapMap.empty : HeapMap κ ν)).read s =
      (before.foldl HeapOp.heap (HeapMap.empty : HeapMap κ ν)).read s := by
  rw [List.foldl_append]
  have hm := history_sound before
  have hh := HeapMap.held_of_get hm hs
  generalize before.foldl HeapOp.heap (HeapMap.empty : HeapMap κ ν) = m at hm hh
  clear hs
  induction after generalizing m with
  | nil => rfl
  | cons o after ih =>
    obtain ⟨h1, h2⟩ := HeapMap.held_step hh o (ha o (.head _))
    rw [List.foldl_cons, ih (fun o ho => ha o (.tail _ ho)) _ (HeapMap.sound_step hm o) h1, h2]

/-- C138, exactly, for a removal: a slice that was handed out just before shows the same values afterwards if and only if
nothing else follows the removed value. -/
theorem C138_removal_exact (before : List (HeapOp κ ν)) (k : κ) (v : ν) (s : Slice)
    (hs : (before.foldl HeapOp.heap (HeapMap.empty : HeapMap κ ν)).get k = some s) :
    ((before ++ [HeapOp.removeValue k v]).foldl HeapOp.heap (HeapMap.empty : HeapMap κ ν)).read s =
      (before.foldl HeapOp.heap (HeapMap.empty : HeapMap κ ν)).read s ↔
    ¬Followed v ((before.foldl HeapOp.heap (HeapMap.empty : HeapMap κ ν)).read s) := by
  rw [List.foldl_append, List.foldl_cons, List.foldl_nil]
  have hm := history_sound before
  generalize before.foldl HeapOp.heap (HeapMap.empty : HeapMap κ ν) = m at hm hs
  have hf := hm.fits _ _ hs
  have hlen : (m.read s).length = s.len := by rw [HeapMap.read, List.length_take]; omega
  have hr := (HeapMap.removeLoop_spec v s.len s.len 0 (m.mem s.addr) false hf (by omega)).1
  have e : (m.removeValue k v).read s = (MultiMap.removeLoop v (m.read s).length 0 (m.read s) false).1 := by
    rw [hlen]
    unfold HeapMap.removeValue
    rw [show m.store k = some s from hs]
    dsimp only
    generalize (if (HeapMap.removeLoop v s.len s.len 0 (m.mem s.addr) false).2 = true then s.len - 1 else s.len) = len
    by_cases h0 : len = 0
    · rw [if_pos h0]; exact Eq.trans HeapMap.read_poke hr
    · rw [if_neg h0]; exact Eq.trans HeapMap.read_poke hr
  show (m.removeValue k v).read s = _ ↔ _
  rw [e]
  exact MultiMap.removeLoop_exact v _

/-- C138 is violated: removing a value of a key changes every slice of the key that was handed out and in which something else
follows the value. -/
theorem C138_violated (before : List (HeapOp κ ν)) (k : κ) (v : ν) (s : Slice)
    (hs : (before.foldl HeapOp.heap (HeapMap.empty : HeapMap κ ν)).get k = some s)
    (hv : Followed v ((before.foldl HeapOp.heap (HeapMap.empty : HeapMap κ ν)).read s)) :
    ((before ++ [HeapOp.removeValue k v]).foldl HeapOp.heap (HeapMap.empty : HeapMap κ ν)).read s ≠
      (before.foldl HeapOp.heap (HeapMap.empty : HeapMap κ ν)).read s :=
  fun h => (C138_removal_exact before k v s hs).1 h hv

/-- C138: a slice with the values 1 and 2 shows 2 and 2 after the removal of 1; and after a later `Put` of 3, which finds room in
the same array, it shows 2 and 3. -/
example : let before : List (HeapOp Nat Nat) := [.put 3 0 1, .put 0 0 2]
    let m := before.foldl HeapOp.heap HeapMap.empty
    m.get 0 = some ⟨0, 2⟩ ∧ m.read ⟨0, 2⟩ = [1, 2] ∧ Followed 1 (m.read ⟨0, 2⟩) ∧
    ((before ++ [HeapOp.removeValue 0 1]).foldl HeapOp.heap HeapMap.empty).read ⟨0, 2⟩ = [2, 2] ∧
    ((before ++ [HeapOp.removeValue 0 1, .put 0 0 3]).foldl HeapOp.heap HeapMap.empty).read ⟨0, 2⟩ = [2, 3] :=
  ⟨by decide, by decide, ⟨[], 2, [], by decide, by decide⟩, by decide, by decide⟩

/-- C138: other operations after the slice was handed out. -/
example : ∀ o ∈ ([.put 0 0 3, .put 2 0 4, .removeValue 1 1, .removeKey 0, .clear, .put 0 0 7] : List (HeapOp Nat Nat)),
    ∀ v, o ≠ .removeValue 0 v := by
  intro o ho v e
  rw [e] at ho
  simp at ho

end Octo
