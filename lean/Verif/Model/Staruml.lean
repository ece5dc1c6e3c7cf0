import Verif.Model.Util
import Verif.Model.Octopus
import Verif.Basic.GoMap

/-! Model of package `staruml`: format/staruml/staruml.go and importer.go.  The decoding of the JSON text into
elements is not modelled; documents with `null` in place of an element are left out. -/

namespace Octo.Staruml

/-- A value of type `interface{}` decoded from JSON; a number is a `float64`. -/
inductive Length
  | none
  | str (s : Str)
  | num (n : Nat)
  | other
  deriving DecidableEq, Repr

/-- The fields of `Element`, format/staruml/staruml.go 7-23, that are read; a `*Ref` is its `$ref`. -/
structure Info where
  elemType : Str := []
  id : Str := []
  parent : Option Str := none
  name : Str := []
  length : Length := .none
  type : Str := []
  primaryKey : Bool := false
  unique : Bool := false
  nullable : Bool := false
  documentation : Str := []
  referenceTo : Option Str := none
  deriving DecidableEq, Repr

/-- `Element`, format/staruml/staruml.go 7-26: the fields, `OwnedElements` and `Columns`. -/
inductive Element
  | mk (info : Info) (owned columns : List Element)

def Element.info : Element → Info
  | .mk i _ _ => i

def Element.owned : Element → List Element
  | .mk _ o _ => o

def Element.columns : Element → List Element
  | .mk _ _ c => c

/- `walkElement` and `walkElements`, format/staruml/importer.go 120-134: the elements in the order of the
assignments to `mapById`. -/
mutual
def walk : Element → List Element
  | .mk i o c => .mk i o c :: (walkAll o ++ walkAll c)
def walkAll : List Element → List Element
  | [] => []
  | e :: l => walk e ++ walkAll l
end

/-- `mapById` after `walkElement(root)`, format/staruml/importer.go 42-44. -/
def byId (root : Element) : List (Str × Element) := mapOf ((walk root).map fun e => (e.info.id, e))

/-- `findById`, format/staruml/importer.go 136-138. -/
def findById (root : Element) (id : Str) : Option Element := mapGet (byId root) id

/-- `findByType`, format/staruml/importer.go 108-118. -/
def findByType (elems : List Element) (typ : Str) : List Element := elems.filter fun e => e.info.elemType = typ

/-- `strconv.Atoi`; `none` is an error. -/
def atoi (s : Str) : Option Int :=
  let (neg, digits) : Bool × Str := match s with
    | '-' :: r => (true, r)
    | '+' :: r => (false, r)
    | r => (false, r)
  if digits = [] ∨ ¬digits.all isDigit then none
  else if neg then (if digitsVal digits ≤ 2 ^ 63 then some (-(digitsVal digits : Int)) else none)
  else if digitsVal digits < 2 ^ 63 then some (digitsVal digits) else none

/-- `ToInt`, util/string.go 11-24, on a value decoded from JSON: the case `int` cannot occur. -/
def toInt (v : Length) (dflt : Int) : Int :=
  match v with
  | .str s => (atoi s).getD dflt
  | _ => dflt

/-- The conversion `uint16(i)`. -/
def toUInt16 (i : Int) : UInt16 := UInt16.ofNat (i % 65536).toNat

/-- The reference of a column, format/staruml/importer.go 81-88; the outer `none` is a nil dereference. -/
def refOf (root : Element) (c : Element) : Option (Option Reference) :=
  match c.info.referenceTo with
  | none => some none
  | some r => match findById root r with
    | none => none
    | some target => match target.info.parent with
      | none => none
      | some p => match findById root p with
        | none => none
        | some table => some (some ⟨table.info.name, target.info.name, []⟩)

/-- The body of the inner loop of `toSchema`, format/staruml/importer.go 63-90; `none` is a panic. -/
def columnOf (root : Element) (c : Element) : Option Column :=
  let ty := parseType c.info.type
  let size := toUInt16 (toInt c.info.length 0)
  match refOf root c with
  | none => none
  | some ref => some
    { name := c.info.name, type := ty.1, size := if size = 0 then ty.2.1 else size, scale := ty.2.2
      notNull := !c.info.nullable, primaryKey := c.info.primaryKey, uniqueKey := c.info.unique
      description := trimSpace c.info.documentation, ref := ref }

/-- The body of the outer loop, format/staruml/importer.go 59-99. -/
def tableOf (root : Element) (e : Element) : Option Table :=
  match (findByType e.columns "ERDColumn"ₛ).mapM (columnOf root) with
  | none => none
  | some cs => some { name := e.info.name, columns := cs }

/-- The result of an import. -/
inductive Outcome
  | ok (s : Schema)
  | error
  | panic

/-- `toSchema`, format/staruml/importer.go 49-106. -/
def toSchema (root : Element) : Outcome :=
  match findByType root.owned "ERDDataModel"ₛ with
  | [] => .error
  | m :: _ => match (findByType m.owned "ERDEntity"ₛ).mapM (tableOf root) with
    | none => .panic
    | some ts => .ok { version := root.info.name, tables := ts }

end Octo.Staruml
