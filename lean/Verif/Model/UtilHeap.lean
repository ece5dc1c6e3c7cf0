import Verif.Model.Util

/-! util/multimap.go once more, with the arrays that the slices of the map refer to.  `Get` hands out the slice of the map
itself, so whoever holds one shares its array with the map. -/

namespace Octo

/-- A slice: the address of its array and its length.  All slices of util/multimap.go start at the beginning of their array. -/
structure Slice where
  addr : Nat
  len : Nat
deriving DecidableEq

/-- `SMultiMap`, util/multimap.go 14-16, with its heap: the array at every address (as long as its capacity), and the next
free address. -/
structure HeapMap (κ ν : Type) where
  store : κ → Option Slice
  mem : Nat → List ν
  next : Nat

namespace HeapMap
variable {κ ν : Type} [DecidableEq κ] [DecidableEq ν] [Inhabited ν]

/-- What is seen through a slice. -/
def read (m : HeapMap κ ν) (s : Slice) : List ν := (m.mem s.addr).take s.len

/-- `NewMultiMap`, util/multimap.go 18-20. -/
def empty : HeapMap κ ν := ⟨fun _ => none, fun _ => [], 0⟩

/-- `Clear`, util/multimap.go 22-24: a new map; arrays stay where they are. -/
def clear (m : HeapMap κ ν) : HeapMap κ ν := { m with store := fun _ => none }

/-- `Get`, util/multimap.go 35-38. -/
def get (m : HeapMap κ ν) (k : κ) : Option Slice := m.store k

/-- `store[k] = s`. -/
def assign (m : HeapMap κ ν) (k : κ) (s : Slice) : HeapMap κ ν := { m with store := fun k' => if k' = k then some s else m.store k' }

/-- Writing to the array at an address. -/
def poke (m : HeapMap κ ν) (a : Nat) (arr : List ν) : HeapMap κ ν := { m with mem := fun a' => if a' = a then arr else m.mem a' }

/-- A new array. -/
def alloc (m : HeapMap κ ν) (arr : List ν) : HeapMap κ ν := { (m.poke m.next arr) with next := m.next + 1 }

/-- `Put`, util/multimap.go 50-52: `append` writes into the array when it has room, and otherwise copies to a new one with
some spare room, which is up to the implementation of Go. -/
def put (m : HeapMap κ ν) (spare : Nat) (k : κ) (v : ν) : HeapMap κ ν :=
  match m.store k with
  | none => (m.alloc (v :: List.replicate spare default)).assign k ⟨m.next, 1⟩
  | some s =>
    if s.len < (m.mem s.addr).length then (m.poke s.addr ((m.mem s.addr).set s.len v)).assign k ⟨s.addr, s.len + 1⟩
    else (m.alloc (m.read s ++ v :: List.replicate spare default)).assign k ⟨m.next, s.len + 1⟩

/-- `RemoveKey`, util/multimap.go 54-56. -/
def removeKey (m : HeapMap κ ν) (k : κ) : HeapMap κ ν := { m with store := fun k' => if k' = k then none else m.store k' }

/-- The loop of `RemoveValue`, util/multimap.go 61-65, on the array of `values`, which has length `n`.
`append(values[:i], values[i+1:]...)` always finds room, and moves the rest of `values` one place down. -/
def removeLoop (v : ν) (n : Nat) : Nat → Nat → List ν → Bool → List ν × Bool
  | 0, _, arr, found => (arr, found)
  | fuel + 1, i, arr, found =>
    if arr[i]? = some v then removeLoop v n fuel (i + 1) (arr.take i ++ (arr.take n).drop (i + 1) ++ arr.drop (n - 1)) true
    else removeLoop v n fuel (i + 1) arr found

/-- `RemoveValue`, util/multimap.go 58-70. -/
def removeValue (m : HeapMap κ ν) (k : κ) (v : ν) : HeapMap κ ν :=
  match m.store k with
  | none => m
  | some s =>
    let r := removeLoop v s.len s.len 0 (m.mem s.addr) false
    let len := if r.2 then s.len - 1 else s.len
    if len = 0 then (m.poke s.addr r.1).removeKey k else (m.poke s.addr r.1).assign k ⟨s.addr, len⟩

end HeapMap

end Octo
