import Verif.Spec.Staruml
import Verif.Model.Json

/-! Specification of the documents that StarUML saves: which JSON value describes which element.  Independent of the decoder: no
order of the members is assumed, and members that are not named here may have any value. -/

namespace Octo.Spec
open Staruml

/-- The member with the key, ignoring case, has a value as described, or there is no such member and `absent` holds. -/
def Says (l : List (Str × Json)) (key : String) (value : Json → Prop) (absent : Prop) : Prop :=
  (∃ p ∈ l, lower p.1 = lower key.toList ∧ value p.2) ∨ ((∀ p ∈ l, lower p.1 ≠ lower key.toList) ∧ absent)

/-- No key is used twice. -/
def DistinctKeys (l : List (Str × Json)) : Prop := (l.map fun p => lower p.1).Nodup

/-- The member is a text; null is the same as the empty text. -/
def SaysStr (l : List (Str × Json)) (key : String) (s : Str) : Prop :=
  Says l key (fun v => v = .str s ∨ (v = .null ∧ s = [])) (s = [])

def SaysBool (l : List (Str × Json)) (key : String) (b : Bool) : Prop :=
  Says l key (fun v => v = .bool b ∨ (v = .null ∧ b = false)) (b = false)

/-- A reference to the element with an id, or null. -/
def IsRef (v : Json) (r : Option Str) : Prop :=
  (v = .null ∧ r = none) ∨ ∃ m id, v = .obj m ∧ DistinctKeys m ∧ SaysStr m "$ref" id ∧ r = some id

def SaysRef (l : List (Str × Json)) (key : String) (r : Option Str) : Prop := Says l key (fun v => IsRef v r) (r = none)

/-- The length of a column. -/
def IsLength : Json → Length → Prop
  | .null, x => x = .none
  | .str s, x => x = .str s
  | .num n, x => x = .num n
  | _, x => x = .other

/-- The members of an object that are not lists of elements. -/
structure SaysInfo (l : List (Str × Json)) (i : Info) : Prop where
  elemType : SaysStr l "_type" i.elemType
  id : SaysStr l "_id" i.id
  parent : SaysRef l "_parent" i.parent
  name : SaysStr l "name" i.name
  length : Says l "length" (fun v => IsLength v i.length) (i.length = .none)
  type : SaysStr l "type" i.type
  primaryKey : SaysBool l "primaryKey" i.primaryKey
  unique : SaysBool l "unique" i.unique
  nullable : SaysBool l "nullable" i.nullable
  documentation : SaysStr l "documentation" i.documentation
  referenceTo : SaysRef l "referenceTo" i.referenceTo
  others : ∀ key ∈ ["head", "end1", "end2", "reference"], ∃ r, SaysRef l key r

mutual
/-- The JSON value describes the element. -/
def ElementDoc (j : Json) : Element → Prop
  | .mk i owned columns => ∃ l os cs, j = .obj l ∧ DistinctKeys l ∧ SaysInfo l i ∧
      Says l "ownedElements" (fun v => v = .arr os ∨ (v = .null ∧ os = [])) (os = []) ∧ ElementDocs os owned ∧
      Says l "columns" (fun v => v = .arr cs ∨ (v = .null ∧ cs = [])) (cs = []) ∧ ElementDocs cs columns
/-- The JSON values describe the elements. -/
def ElementDocs (js : List Json) : List Element → Prop
  | [] => js = []
  | e :: es => ∃ j r, js = j :: r ∧ ElementDoc j e ∧ ElementDocs r es
end

/-- `j` is part of the document: the document itself, or an element of a list of elements of a part. -/
inductive ElementOf : Json → Json → Prop
  | self (j : Json) : ElementOf j j
  | sub {j x : Json} {l : List (Str × Json)} {p : Str × Json} {xs : List Json} : p ∈ l →
      (lower p.1 = lower "ownedElements"ₛ ∨ lower p.1 = lower "columns"ₛ) → p.2 = .arr xs → x ∈ xs → ElementOf j x →
      ElementOf j (.obj l)

/-- In no part of the document a key is used twice. -/
def AllDistinctKeys (root : Json) : Prop :=
  ∀ l, ElementOf (.obj l) root → DistinctKeys l ∧ ∀ p ∈ l, ∀ m, p.2 = .obj m → DistinctKeys m

/-- The value is null or of a kind. -/
def NullOr (kind : Json → Prop) (v : Json) : Prop := v = .null ∨ kind v

def IsText (v : Json) : Prop := ∃ s, v = .str s

def IsBool (v : Json) : Prop := ∃ b, v = .bool b

/-- A reference. -/
def RefLike (v : Json) : Prop := ∃ m, v = .obj m ∧ ∀ q ∈ m, lower q.1 = lower "$ref"ₛ → NullOr IsText q.2

def IsList (v : Json) : Prop := ∃ xs, v = .arr xs

/-- The kinds of values by key, as the importer expects them. -/
def kinds : List ((Json → Prop) × List String) :=
  [(IsText, ["_type", "_id", "name", "type", "documentation"]),
   (IsBool, ["primaryKey", "unique", "nullable"]),
   (RefLike, ["_parent", "head", "end1", "end2", "reference", "referenceTo"]),
   (IsList, ["ownedElements", "columns"])]

/-- The value is null or an object with members of the expected kinds. -/
def WellTyped (v : Json) : Prop :=
  NullOr (fun v => ∃ l, v = .obj l ∧
    ∀ p ∈ l, ∀ k ∈ kinds, ∀ key ∈ k.2, lower p.1 = lower key.toList → NullOr k.1 p.2) v

end Octo.Spec
