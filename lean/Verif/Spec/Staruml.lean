import Verif.Model.Staruml

/-! Specification of the import of StarUML documents. -/

namespace Octo.Spec
open Staruml

/-- `e` is part of the document with root `r`. -/
inductive PartOf : Element → Element → Prop
  | self (e : Element) : PartOf e e
  | owned {e x r : Element} : x ∈ r.owned → PartOf e x → PartOf e r
  | column {e x r : Element} : x ∈ r.columns → PartOf e x → PartOf e r

/-- No two parts of the document have the same id. -/
def DistinctIds (root : Element) : Prop :=
  ∀ a b, PartOf a root → PartOf b root → a.info.id = b.info.id → a = b

/-- `m` is the first data model of the document. -/
def FirstModel (root m : Element) : Prop :=
  ∃ pre post, root.owned = pre ++ m :: post ∧ m.info.elemType = "ERDDataModel"ₛ ∧
    ∀ x ∈ pre, x.info.elemType ≠ "ERDDataModel"ₛ

/-- The reference `r` of a column leads to a column `target` of the entity `table`. -/
def Leads (root : Element) (r : Str) (target table : Element) : Prop :=
  PartOf target root ∧ target.info.id = r ∧ PartOf table root ∧ target.info.parent = some table.info.id

/-- The length that a StarUML column states, if any. -/
def statedLength : Length → Option Nat
  | .num n => some n
  | .str s => if s ≠ [] ∧ s.all isDigit ∧ digitsVal s < 65536 then some (digitsVal s) else none
  | _ => none

/-- The column `d` describes the element `c`, without size and reference. -/
structure DescribesColumn (c : Element) (d : Column) : Prop where
  name : d.name = c.info.name
  flags : d.primaryKey = c.info.primaryKey ∧ d.uniqueKey = c.info.unique ∧ d.notNull = !c.info.nullable
  description : d.description = trimSpace c.info.documentation
  type : (d.type, d.scale) = ((parseType c.info.type).1, (parseType c.info.type).2.2)
  others : d.autoIncremental = false ∧ d.defaultValue = [] ∧ d.onUpdate = [] ∧ d.values = []

/-- The size of `d` is the length stated in a text, or else the size given with the type. -/
def SizeFromText (c : Element) (d : Column) : Prop :=
  (∀ s n, c.info.length = .str s → statedLength (.str s) = some n → n ≠ 0 → d.size = UInt16.ofNat n) ∧
  ((c.info.length = .none ∨ c.info.length = .str [] ∨ c.info.length = .str "0"ₛ) →
    d.size = (parseType c.info.type).2.1)

/-- The reference of `d` is where the reference of `c` leads. -/
def RefFollows (root c : Element) (d : Column) : Prop :=
  (c.info.referenceTo = none → d.ref = none) ∧
  ∀ r, c.info.referenceTo = some r → ∃ target table, Leads root r target table ∧
    d.ref = some ⟨table.info.name, target.info.name, []⟩

/-- The table `t` describes the entity `e`. -/
structure DescribesEntity (root e : Element) (t : Table) : Prop where
  name : t.name = e.info.name
  columns : List.Forall₂ (fun c d => DescribesColumn c d ∧ SizeFromText c d ∧ RefFollows root c d)
    (e.columns.filter fun c => c.info.elemType = "ERDColumn"ₛ) t.columns

end Octo.Spec
