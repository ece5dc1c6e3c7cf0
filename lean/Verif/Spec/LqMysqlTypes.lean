import Verif.Spec.MysqlDb

/-!
# The types of a Liquibase changelog on a MySQL database

Written after the documentation of Liquibase: types are kept as they are, with their arguments, except that `boolean` is one bit,
`clob` is `longtext` and `blob` is `longblob` on MySQL.
-/

namespace Octo.Spec

/-- The MySQL name of a type of Liquibase. -/
def lqMysqlBase (b : Str) : Str := if b = "clob"ₛ then "longtext"ₛ else if b = "blob"ₛ then "longblob"ₛ else b

/-- The MySQL type that Liquibase gives to a column. -/
def lqMysqlType (s : Str) : Str :=
  match splitN2 '(' s with
  | (b, args) => if b = "boolean"ₛ then "bit(1)"ₛ else lqMysqlBase b ++ (match args with | none => [] | some r => '(' :: r)

/-- The columns of two databases have the same types. -/
def SameTypes (d : Db DdlColumn) (e : Db LqAttr) : Prop :=
  ∀ n T U, d n = some T → e n = some U → ∀ k a b, T.cols k = some a → U.cols k = some b → a.type = lqMysqlType b.type

/-- The types for which both commands write size and scale. -/
def bothSized : List Str :=
  ["bit"ₛ, "char"ₛ, "varchar"ₛ, "decimal"ₛ, "double"ₛ, "float"ₛ, "int8"ₛ, "int16"ₛ, "int24"ₛ, "int32"ₛ, "int64"ₛ, "boolean"ₛ]

/-- The types for which only the changelog has a size, if one is declared. -/
def oneSized : List Str :=
  ["binary"ₛ, "varbinary"ₛ, "date"ₛ, "datetime"ₛ, "time"ₛ, "year"ₛ, "geometry"ₛ, "point"ₛ, "json"ₛ, "text32"ₛ, "blob32"ₛ]

/-- Script and changelog give the column the same type. -/
def AgreedType (c : Column) : Prop := c.type ∈ bothSized ∨ (c.type ∈ oneSized ∧ c.size = 0)

instance (c : Column) : Decidable (AgreedType c) := inferInstanceAs (Decidable (_ ∨ _))

end Octo.Spec
