import Verif.Model.Octopus

/-!
Specification of the schema format, written from docs/octopus-format.md and docs/xlsx.md of /repo,
independently of the functions of the model (only the data types and `lower` are shared).
-/

namespace Octo.Spec

/-- The supported types, docs/xlsx.md section "Possible types". -/
def supportedTypes : List Str :=
  ["binary"ₛ, "bit"ₛ, "blob16"ₛ, "blob24"ₛ, "blob32"ₛ, "blob8"ₛ, "boolean"ₛ, "char"ₛ, "date"ₛ,
   "datetime"ₛ, "decimal"ₛ, "double"ₛ, "enum"ₛ, "float"ₛ, "geometry"ₛ, "int16"ₛ, "int24"ₛ,
   "int32"ₛ, "int64"ₛ, "int8"ₛ, "json"ₛ, "point"ₛ, "set"ₛ, "text16"ₛ, "text24"ₛ, "text32"ₛ,
   "text8"ₛ, "time"ₛ, "varbinary"ₛ, "varchar"ₛ, "year"ₛ]

/-- The alternative type names of docs/octopus-format.md section "DataTypes" with the supported
type of the documented width. -/
def aliases : List (Str × Str) :=
  [("string"ₛ, "varchar"ₛ),
   ("tinyint"ₛ, "int8"ₛ), ("smallint"ₛ, "int16"ₛ), ("mediumint"ₛ, "int24"ₛ),
   ("int"ₛ, "int32"ₛ), ("integer"ₛ, "int32"ₛ), ("bigint"ₛ, "int64"ₛ), ("long"ₛ, "int64"ₛ),
   ("numeric"ₛ, "decimal"ₛ), ("real"ₛ, "double"ₛ), ("timestamp"ₛ, "datetime"ₛ),
   ("tinyblob"ₛ, "blob8"ₛ), ("blob"ₛ, "blob16"ₛ), ("mediumblob"ₛ, "blob24"ₛ),
   ("longblob"ₛ, "blob32"ₛ),
   ("tinytext"ₛ, "text8"ₛ), ("text"ₛ, "text16"ₛ), ("mediumtext"ₛ, "text24"ₛ),
   ("longtext"ₛ, "text32"ₛ)]

/-- The integer types, the only ones that can be auto-incremented. -/
def integerTypes : List Str := ["int8"ₛ, "int16"ₛ, "int24"ₛ, "int32"ₛ, "int64"ₛ]

/-- The canonical spelling of a type name. -/
def canon (t : Str) : Str := (aliases.lookup (lower t)).getD (lower t)

/-- A column that the tool accepts. -/
structure ValidColumn (c : Column) : Prop where
  named : c.name ≠ []
  supported : canon c.type ∈ supportedTypes
  setValues : canon c.type = "set"ₛ → 1 ≤ c.values.length ∧ c.values.length ≤ 64
  enumValues : canon c.type = "enum"ₛ → 1 ≤ c.values.length

/-- A table all of whose columns are accepted. -/
def ValidTable (t : Table) : Prop := ∀ c ∈ t.columns, ValidColumn c

/-- What normalisation may do to a column: canonical type, auto-increment only on integers. -/
def normColumn (c : Column) : Column :=
  { c with
    type := canon c.type
    autoIncremental := c.autoIncremental && decide (canon c.type ∈ integerTypes) }

/-- What normalisation may do to a table. -/
def normTable (t : Table) : Table := { t with columns := t.columns.map normColumn }

/-- The (group, name) order on tables, as a proposition. -/
def Before (a b : Table) : Prop :=
  strLt a.group b.group = true ∨ (a.group = b.group ∧ strLt a.name b.name = true)

/-- No two tables share group and name. -/
def DistinctTables (s : Schema) : Prop :=
  s.tables.Pairwise (fun a b => ¬(a.group = b.group ∧ a.name = b.name))

end Octo.Spec
