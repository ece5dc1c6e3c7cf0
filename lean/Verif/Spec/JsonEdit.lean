import Verif.Spec.Json
import Mathlib.Logic.Relation

/-! Changes to the document of a schema that do not change the schema: the format as a list of members for each kind of object, written
after the struct tags of format/octopus/column.go 17-37 and format/octopus/table.go 11-27 and 102-107, and those of version 1,
format/ojson/column.go 9-26 and format/ojson/table.go 12-18 and 71-76. -/

namespace Octo.Spec

/-- The kinds of objects in a document, and in a document of version 1. -/
inductive DocKind
  | schema | table | column | index | reference
  | schema1 | table1 | column1 | reference1
  deriving DecidableEq, Repr

/-- The members that an object of a kind can have. -/
def docKeys : DocKind → List String
  | .schema => ["author", "name", "version", "tables"]
  | .table => ["name", "columns", "desc", "group", "className", "indices"]
  | .column => ["name", "type", "desc", "size", "scale", "notnull", "pk", "unique", "autoinc", "default", "onupdate", "values", "ref"]
  | .index => ["name", "columns"]
  | .reference => ["table", "column", "relationship"]
  | .schema1 => ["author", "name", "version", "tables"]
  | .table1 => ["name", "columns", "desc", "group", "className"]
  | .column1 => ["name", "type", "description", "size", "scale", "notnull", "pk", "unique", "autoinc", "default", "ref"]
  | .reference1 => ["table", "column"]

/-- The kind of the objects in a member. -/
def docChild : DocKind → String → Option DocKind
  | .schema, "tables" => some .table
  | .table, "columns" => some .column
  | .table, "indices" => some .index
  | .column, "ref" => some .reference
  | .schema1, "tables" => some .table1
  | .table1, "columns" => some .column1
  | .column1, "ref" => some .reference1
  | _, _ => none

/-- A key names a member, ignoring case. -/
def Names (k : Str) (key : String) : Prop := lower k = lower key.toList

/-- Two values of the same simple type. -/
inductive SameType : Json → Json → Prop
  | str {s t} : SameType (.str s) (.str t)
  | bool {b c} : SameType (.bool b) (.bool c)
  | num {n m} : n < 65536 → m < 65536 → SameType (.num n) (.num m)

/-- One change to the value of a member, or to the whole document: two neighbouring members change places, a member that the format
does not know is left out, a member that is null is left out, a key is written in another case, a simple member that is given again
later is left out, or the change happens further inside. -/
inductive Edit : DocKind → Json → Json → Prop
  | swap {K a b x y} : lower x.1 ≠ lower y.1 → Edit K (.obj (a ++ x :: y :: b)) (.obj (a ++ y :: x :: b))
  | unknown {K a b k v} : (∀ key ∈ docKeys K, ¬ Names k key) → Edit K (.obj (a ++ (k, v) :: b)) (.obj (a ++ b))
  | null {K a b k} : (∀ p ∈ a ++ b, lower p.1 ≠ lower k) → Edit K (.obj (a ++ (k, .null) :: b)) (.obj (a ++ b))
  | case {K a b k k' v} : lower k = lower k' → Edit K (.obj (a ++ (k, v) :: b)) (.obj (a ++ (k', v) :: b))
  | again {K a b c k k' v v'} : lower k = lower k' → SameType v v' →
      Edit K (.obj (a ++ (k, v) :: (b ++ (k', v') :: c))) (.obj (a ++ (b ++ (k', v') :: c)))
  | member {K K' a b k key v v'} : key ∈ docKeys K → Names k key → docChild K key = some K' → Edit K' v v' →
      Edit K (.obj (a ++ (k, v) :: b)) (.obj (a ++ (k, v') :: b))
  | element {K a b v v'} : Edit K v v' → Edit K (.arr (a ++ v :: b)) (.arr (a ++ v' :: b))

/-- Two documents that differ by changes, in either direction. -/
def SameDoc : Json → Json → Prop := Relation.EqvGen (Edit .schema)

/-- The same for documents of version 1. -/
def SameDoc1 : Json → Json → Prop := Relation.EqvGen (Edit .schema1)

end Octo.Spec
