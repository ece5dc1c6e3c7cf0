import Verif.Spec.MysqlDb

/-!
# What MySQL requires of columns of long types

Written after the MySQL manual, "Data Type Default Values": "The BLOB, TEXT, GEOMETRY, and JSON data types cannot be assigned a default
value" (other than an expression in parentheses, which the tool does not write), and "CREATE INDEX Statement": keys on BLOB and TEXT columns
need a prefix length, which the tool does not write; JSON columns cannot be indexed directly, and geometries only by SPATIAL indices.
-/

namespace Octo.Spec

/-- The MySQL types without default value and keys. -/
def longTypes : List Str :=
  ["tinytext"ₛ, "text"ₛ, "mediumtext"ₛ, "longtext"ₛ, "tinyblob"ₛ, "blob"ₛ, "mediumblob"ₛ, "longblob"ₛ, "json"ₛ, "geometry"ₛ, "point"ₛ]

/-- MySQL accepts the columns of a table definition that have these types. -/
def LongAccepted (t : DdlTable) : Prop :=
  ∀ c ∈ t.columns, (readType c.type).any (fun ty => decide (ty.1 ∈ longTypes)) = true →
    c.default = none ∧ ∀ k ∈ t.keys ++ (t.uniqueKeys ++ t.indexKeys).map (·.2), c.name ∉ k

/-- The types of a schema that are stored this way. -/
def longColTypes : List Str :=
  ["text8"ₛ, "text16"ₛ, "text24"ₛ, "text32"ₛ, "blob8"ₛ, "blob16"ₛ, "blob24"ₛ, "blob32"ₛ, "json"ₛ, "geometry"ₛ, "point"ₛ]

/-- A table whose columns of these types have no default value and belong to no key and no index. -/
def LongTable (t : Table) : Prop :=
  ∀ c ∈ t.columns, c.type ∈ longColTypes → c.defaultValue = [] ∧
    (∀ d ∈ t.columns, d.name = c.name → d.primaryKey = false ∧ d.uniqueKey = false) ∧ ∀ i ∈ t.indices, c.name ∉ i.columns

instance (t : Table) : Decidable (LongTable t) := inferInstanceAs (Decidable (∀ _ ∈ _, _))

end Octo.Spec
