import Verif.Spec.MysqlDb

/-!
# Which types MySQL accepts

Written after the MySQL manual, "Data Type Syntax": how many arguments a type takes. `VARCHAR` and `VARBINARY` need a length, `DOUBLE` takes
none or two, `ENUM` and `SET` need a member. The ranges of the numbers are left out.
-/

namespace Octo.Spec

/-- MySQL accepts a type with this number of arguments. -/
def acceptsArgs (type : Str) (n : Nat) : Bool :=
  if type ∈ ["enum"ₛ, "set"ₛ] then n != 0
  else if type ∈ ["varchar"ₛ, "varbinary"ₛ] then n == 1
  else if type = "double"ₛ then n == 0 || n == 2
  else if type ∈ ["decimal"ₛ, "float"ₛ] then decide (n ≤ 2)
  else if type ∈ ["bit"ₛ, "tinyint"ₛ, "smallint"ₛ, "mediumint"ₛ, "int"ₛ, "bigint"ₛ, "char"ₛ, "binary"ₛ, "blob"ₛ, "text"ₛ, "year"ₛ, "time"ₛ,
    "datetime"ₛ] then decide (n ≤ 1)
  else decide (type ∈ ["tinyblob"ₛ, "mediumblob"ₛ, "longblob"ₛ, "tinytext"ₛ, "mediumtext"ₛ, "longtext"ₛ, "date"ₛ, "json"ₛ, "geometry"ₛ,
    "point"ₛ]) && n == 0

/-- MySQL accepts the types of a table definition. -/
def TypesAccepted (t : DdlTable) : Prop := ∀ c ∈ t.columns, (readType c.type).any (fun ty => acceptsArgs ty.1 ty.2.length) = true

/-- A column whose type has what it needs, and nothing that it does not take. -/
structure TypedColumn (c : Column) : Prop where
  varbinary : c.type ≠ "varbinary"ₛ
  members : c.type ∈ ["enum"ₛ, "set"ₛ] → c.values ≠ []
  length : c.type = "varchar"ₛ → c.size ≠ 0
  digits : c.type = "double"ₛ → c.size = 0 ∨ c.scale ≠ 0
  scale : c.type ∈ ["bit"ₛ, "int8"ₛ, "int16"ₛ, "int24"ₛ, "int32"ₛ, "int64"ₛ, "char"ₛ, "varchar"ₛ] → c.size = 0 ∨ c.scale = 0

instance (c : Column) : Decidable (TypedColumn c) :=
  decidable_of_iff (c.type ≠ "varbinary"ₛ ∧ (c.type ∈ ["enum"ₛ, "set"ₛ] → c.values ≠ []) ∧ (c.type = "varchar"ₛ → c.size ≠ 0) ∧
    (c.type = "double"ₛ → c.size = 0 ∨ c.scale ≠ 0) ∧
    (c.type ∈ ["bit"ₛ, "int8"ₛ, "int16"ₛ, "int24"ₛ, "int32"ₛ, "int64"ₛ, "char"ₛ, "varchar"ₛ] → c.size = 0 ∨ c.scale = 0))
    ⟨fun ⟨a, b, c, d, e⟩ => ⟨a, b, c, d, e⟩, fun ⟨a, b, c, d, e⟩ => ⟨a, b, c, d, e⟩⟩

end Octo.Spec
