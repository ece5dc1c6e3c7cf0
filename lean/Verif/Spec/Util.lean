import Verif.Basic.Str
import Mathlib.Data.Finset.Basic
import Mathlib.Data.Finset.Card
import Mathlib.Data.Finset.Dedup
import Mathlib.Data.Finset.SDiff

/-! Specification objects for package `util`: mathematical sets, per-key lists, call logs. -/

namespace Octo.Spec

/-- An operation on a set of strings. -/
inductive SetOp where
  | add (k : Str)
  | addAll (ks : List Str)
  | remove (k : Str)
  | removeAll (ks : List Str)
  | clear

/-- What the operation means on mathematical sets. -/
def SetOp.sem : SetOp → Finset Str → Finset Str
  | .add k, s => insert k s
  | .addAll ks, s => s ∪ ks.toFinset
  | .remove k, s => s.erase k
  | .removeAll ks, s => s \ ks.toFinset
  | .clear, _ => ∅

/-- Meaning of a history. -/
def semAll (ops : List SetOp) (s : Finset Str) : Finset Str := ops.foldl (fun s o => o.sem s) s

/-- An operation on a multimap. -/
inductive MMOp (κ ν : Type) where
  | put (k : κ) (v : ν)
  | removeKey (k : κ)
  | removeValue (k : κ) (v : ν)

/-- A multimap is a function from keys to the list of values in insertion order; removing a value
removes every occurrence. -/
def MMOp.sem {κ ν : Type} [DecidableEq κ] [DecidableEq ν] : MMOp κ ν → (κ → List ν) → (κ → List ν)
  | .put k v, f => fun k' => if k' = k then f k' ++ [v] else f k'
  | .removeKey k, f => fun k' => if k' = k then [] else f k'
  | .removeValue k v, f => fun k' => if k' = k then (f k').filter (fun x => x ≠ v) else f k'

def mmSemAll {κ ν : Type} [DecidableEq κ] [DecidableEq ν] (ops : List (MMOp κ ν)) : κ → List ν :=
  ops.foldl (fun f o => o.sem f) (fun _ => [])

/-- A history in which a value is only removed when it occurs at most once under its key. -/
def NoDupRemoval {κ ν : Type} [DecidableEq κ] [DecidableEq ν] : List (MMOp κ ν) → (κ → List ν) → Prop
  | [], _ => True
  | o :: ops, f =>
    (∀ k v, o = MMOp.removeValue k v → (f k).count v ≤ 1) ∧ NoDupRemoval ops (o.sem f)

/-- The keys of a list in the order of their first occurrence. -/
def firsts {κ : Type} [DecidableEq κ] : List κ → List κ
  | [] => []
  | k :: ks => k :: (firsts ks).filter (fun x => x ≠ k)

end Octo.Spec
