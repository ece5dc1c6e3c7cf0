import Verif.Model.Staruml
import Verif.Model.Json

/-! Model of the decoding of StarUML documents: `ImportJson`, format/staruml/importer.go 31-47, and the struct tags of
format/staruml/staruml.go.

Of `encoding/json`, which is not part of /repo, the following is modelled: the members of an object are decoded one after the other,
each into the field whose tag is the key, ignoring case; other members are skipped; null leaves a field as it is; a value of the wrong
type is an error, which is reported after the rest of the document has been decoded.  Simplified: a member that is given twice replaces
the first (the library merges the objects); all numbers are natural numbers; the library limits the depth of documents to 10000. -/

namespace Octo.Staruml

/-- The fields of `Element`, format/staruml/staruml.go 7-26, without `OwnedElements` and `Columns`. -/
inductive Key
  | elemType | id | parent | name | length | type | primaryKey | unique | nullable | documentation
  | head | end1 | end2 | reference | referenceTo
  deriving DecidableEq, Repr

def Key.all : List Key :=
  [.elemType, .id, .parent, .name, .length, .type, .primaryKey, .unique, .nullable, .documentation, .head, .end1, .end2, .reference,
   .referenceTo]

/-- The tags, format/staruml/staruml.go 8-22. -/
def Key.tag : Key → String
  | .elemType => "_type"
  | .id => "_id"
  | .parent => "_parent"
  | .name => "name"
  | .length => "length"
  | .type => "type"
  | .primaryKey => "primaryKey"
  | .unique => "unique"
  | .nullable => "nullable"
  | .documentation => "documentation"
  | .head => "head"
  | .end1 => "end1"
  | .end2 => "end2"
  | .reference => "reference"
  | .referenceTo => "referenceTo"

/-- The field that a member of an object belongs to. -/
def keyOf (k : Str) : Option Key := Key.all.find? fun κ => lower k == lower κ.tag.toList

/-- `Ref`, format/staruml/staruml.go 3-5, behind a pointer; the outer `none` is an error. -/
def toRef : Json → Option (Option Str)
  | .null => some none
  | .obj l => (Json.toStr (Json.field l "$ref")).map some
  | _ => none

/-- A value of type `interface{}`. -/
def toLength : Json → Length
  | .null => .none
  | .str s => .str s
  | .num n => .num n
  | _ => .other

/-- An element that is being decoded: the fields so far, whether a value had the wrong type, and whether an element is null. -/
structure Decoded where
  info : Info := {}
  owned : List Element := []
  columns : List Element := []
  error : Bool := false
  null : Bool := false

/-- Several elements. -/
structure DecodedList where
  elems : List Element := []
  error : Bool := false
  null : Bool := false

/-- Decodes a string. -/
def Decoded.str (d : Decoded) (v : Json) (set : Str → Info) : Decoded :=
  match v with
  | .null => d
  | .str s => { d with info := set s }
  | _ => { d with error := true }

/-- Decodes a boolean. -/
def Decoded.bool (d : Decoded) (v : Json) (set : Bool → Info) : Decoded :=
  match v with
  | .null => d
  | .bool b => { d with info := set b }
  | _ => { d with error := true }

/-- Decodes a reference. -/
def Decoded.ref (d : Decoded) (v : Json) (set : Option Str → Info) : Decoded :=
  match toRef v with
  | some r => { d with info := set r }
  | none => { d with error := true }

/-- Decodes a member into a field.  `Head`, `End1`, `End2` and `Reference` are not read later on. -/
def Decoded.set (d : Decoded) (v : Json) : Key → Decoded
  | .elemType => d.str v fun s => { d.info with elemType := s }
  | .id => d.str v fun s => { d.info with id := s }
  | .parent => d.ref v fun r => { d.info with parent := r }
  | .name => d.str v fun s => { d.info with name := s }
  | .length => { d with info := { d.info with length := toLength v } }
  | .type => d.str v fun s => { d.info with type := s }
  | .primaryKey => d.bool v fun b => { d.info with primaryKey := b }
  | .unique => d.bool v fun b => { d.info with unique := b }
  | .nullable => d.bool v fun b => { d.info with nullable := b }
  | .documentation => d.str v fun s => { d.info with documentation := s }
  | .head => d.ref v fun _ => d.info
  | .end1 => d.ref v fun _ => d.info
  | .end2 => d.ref v fun _ => d.info
  | .reference => d.ref v fun _ => d.info
  | .referenceTo => d.ref v fun r => { d.info with referenceTo := r }

/-- Decodes a member that is not a list of elements. -/
def Decoded.member (d : Decoded) (k : Str) (v : Json) : Decoded :=
  match keyOf k with
  | some κ => d.set v κ
  | none => d

def Decoded.setOwned (d : Decoded) (l : DecodedList) : Decoded :=
  { d with owned := l.elems, error := d.error || l.error, null := d.null || l.null }

def Decoded.setColumns (d : Decoded) (l : DecodedList) : Decoded :=
  { d with columns := l.elems, error := d.error || l.error, null := d.null || l.null }

/-- An element before others. -/
def Decoded.cons (d : Decoded) (l : DecodedList) : DecodedList :=
  ⟨.mk d.info d.owned d.columns :: l.elems, d.error || l.error, d.null || l.null⟩

mutual
/-- Decodes an element, behind a pointer: format/staruml/staruml.go 7-26. -/
def decode : Json → Decoded
  | .obj l => decodeMembers l {}
  | .null => { null := true }
  | _ => { error := true }
/-- The members of an object one after the other. -/
def decodeMembers : List (Str × Json) → Decoded → Decoded
  | [], d => d
  | p :: l, d =>
    decodeMembers l
      (if lower p.1 = lower "ownedElements"ₛ then d.setOwned (decodeList p.2)
       else if lower p.1 = lower "columns"ₛ then d.setColumns (decodeList p.2)
       else d.member p.1 p.2)
/-- `[]*Element`. -/
def decodeList : Json → DecodedList
  | .arr l => decodeAll l
  | .null => {}
  | _ => { error := true }
def decodeAll : List Json → DecodedList
  | [] => {}
  | j :: l => (decode j).cons (decodeAll l)
end

/-- `ImportJson`, format/staruml/importer.go 31-47; `none` is a document that is not JSON.  A document that is just null leaves the root
empty; an element that is null crashes `walkElement`, format/staruml/importer.go 120-125. -/
def importJson : Option Json → Outcome
  | none => .error
  | some .null => toSchema (.mk {} [] [])
  | some j =>
    let d := decode j
    if d.error then .error
    else if d.null then .panic
    else toSchema (.mk d.info d.owned d.columns)

end Octo.Staruml
