import Verif.Model.UtilHeap

/-! Histories of a multimap whose slices are visible from outside. -/

namespace Octo.Spec

/-- The calls that change a multimap.  `spare` is the room that Go reserves if this call has to move the values of the key. -/
inductive HeapOp (κ ν : Type) where
  | put (spare : Nat) (k : κ) (v : ν)
  | removeKey (k : κ)
  | removeValue (k : κ) (v : ν)
  | clear

variable {κ ν : Type} [DecidableEq κ] [DecidableEq ν] [Inhabited ν]

/-- One call, on the map with its arrays. -/
def HeapOp.heap (m : HeapMap κ ν) : HeapOp κ ν → HeapMap κ ν
  | .put spare k v => m.put spare k v
  | .removeKey k => m.removeKey k
  | .removeValue k v => m.removeValue k v
  | .clear => m.clear

/-- One call, on the map as a table of lists. -/
def HeapOp.plain (m : MultiMap κ ν) : HeapOp κ ν → MultiMap κ ν
  | .put _ k v => m.put k v
  | .removeKey k => m.removeKey k
  | .removeValue k v => m.removeValue k v
  | .clear => MultiMap.empty

/-- Something other than the value follows directly after the value. -/
def Followed (v : ν) (l : List ν) : Prop := ∃ pre w post, l = pre ++ v :: w :: post ∧ w ≠ v

end Octo.Spec
