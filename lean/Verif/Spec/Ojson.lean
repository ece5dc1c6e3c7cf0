import Verif.Model.Ojson

/-! Specification of the import of version 1 documents. -/

namespace Octo.Spec

/-- The type names of version 1 with the type they stand for, format/ojson/types.go 3-15 and the names
accepted for them. -/
def v1Types : List (Str × Str) :=
  [("string"ₛ, "string"ₛ), ("varchar"ₛ, "string"ₛ), ("char"ₛ, "string"ₛ), ("int"ₛ, "int"ₛ), ("integer"ₛ, "int"ₛ),
   ("smallint"ₛ, "int"ₛ), ("bigint"ₛ, "long"ₛ), ("long"ₛ, "long"ₛ), ("datetime"ₛ, "datetime"ₛ), ("bool"ₛ, "boolean"ₛ),
   ("boolean"ₛ, "boolean"ₛ), ("number"ₛ, "decimal"ₛ), ("double"ₛ, "decimal"ₛ), ("decimal"ₛ, "decimal"ₛ),
   ("float"ₛ, "float"ₛ), ("text"ₛ, "text"ₛ), ("date"ₛ, "date"ₛ), ("time"ₛ, "time"ₛ), ("blob"ₛ, "blob"ₛ)]

/-- The type of a version 1 column. -/
def v1Type (t : Str) : Str := (v1Types.lookup (lower t)).getD t

/-- The attributes of a column that an import keeps. -/
structure KeptColumn (c : Ojson.Column) (d : Column) : Prop where
  name : d.name = c.name
  type : d.type = v1Type c.type
  description : d.description = c.description
  size : d.size = c.size ∧ d.scale = c.scale
  flags : d.notNull = c.notNull ∧ d.primaryKey = c.primaryKey ∧ d.uniqueKey = c.uniqueKey
  autoInc : d.autoIncremental = true → c.autoIncremental = true
  autoIncInt : v1Type c.type = "int"ₛ ∨ v1Type c.type = "long"ₛ → d.autoIncremental = c.autoIncremental
  ref : d.ref.map (fun r => (r.table, r.column)) = c.ref.map (fun r => (r.table, r.column))

/-- The attributes of a table that an import keeps. -/
structure KeptTable (t : Ojson.Table) (u : Table) : Prop where
  name : u.name = t.name
  group : u.group = t.group
  description : u.description = t.description
  columns : List.Forall₂ KeptColumn t.columns u.columns

/-- `a` is listed before `b`: by group, then by name. -/
def V1Before (a b : Ojson.Table) : Prop :=
  strLt a.group b.group = true ∨ (a.group = b.group ∧ strLt a.name b.name = true)

/-- What is known of `sort.Sort` on the tables of a version 1 document. -/
def V1SortSpec (sorter : List Ojson.Table → List Ojson.Table) : Prop :=
  ∀ l, (sorter l).Perm l ∧ (sorter l).Pairwise fun a b => Ojson.less b a = false

/-- A column that makes the import panic: known type, no name. -/
def BadV1Column (c : Ojson.Column) : Prop := c.name = [] ∧ lower c.type ∈ v1Types.map Prod.fst

end Octo.Spec
