import Verif.Spec.Graphql
import Verif.Spec.Gorm
import Verif.Spec.Jpa
import Verif.Spec.Protobuf

/-! The values that columns can have, and those that the fields of generated classes can have. -/

namespace Octo.Spec

/-- A value of a database.  A decimal is `m / 10 ^ e`; values of types without numbers or texts are just named. -/
inductive Value
  | null
  | int (n : Int)
  | bits (n : Nat)
  | decimal (m : Int) (e : Nat)
  | truth (b : Bool)
  | text (s : Str)
  | other (type : Str)

/-- A column that may be null: neither declared otherwise, nor in the primary key. -/
def Nullable (c : Column) : Prop := c.notNull = false ∧ c.primaryKey = false

/-- The number of bits of a column. -/
def bitSize (c : Column) : Nat := max 1 c.size.toNat

/-- The number of digits of a decimal column; MySQL's default is 10. -/
def precision (c : Column) : Nat := if c.size = 0 then 10 else c.size.toNat

/-- The types whose values are just named. -/
def otherTypes : List Str :=
  ["binary"ₛ, "blob16"ₛ, "blob24"ₛ, "blob32"ₛ, "blob8"ₛ, "date"ₛ, "datetime"ₛ, "double"ₛ, "float"ₛ, "geometry"ₛ, "json"ₛ, "point"ₛ, "set"ₛ,
   "time"ₛ, "varbinary"ₛ, "year"ₛ]

/-- The types of texts without a list of values. -/
def textTypes : List Str := ["char"ₛ, "varchar"ₛ, "text8"ₛ, "text16"ₛ, "text24"ₛ, "text32"ₛ]

/-- A value that a column can have. -/
def Stores (c : Column) : Value → Prop
  | .null => Nullable c
  | .int n => IntValue c n
  | .bits n => lower c.type = "bit"ₛ ∧ n < 2 ^ bitSize c
  | .decimal m e => lower c.type = "decimal"ₛ ∧ e = c.scale.toNat ∧ m.natAbs < 10 ^ precision c
  | .truth _ => lower c.type = "boolean"ₛ
  | .text s => (lower c.type ∈ textTypes ∧ (c.size = 0 ∨ s.length ≤ c.size.toNat)) ∨ (lower c.type = "enum"ₛ ∧ s ∈ c.values)
  | .other t => t = lower c.type ∧ t ∈ otherTypes

/-! ### Go -/

/-- The Go types that have a null value. -/
def goNullable : List Str :=
  ["null.String"ₛ, "null.Bool"ₛ, "null.Int"ₛ, "null.Float"ₛ, "null.Time"ₛ, "decimal.NullDecimal"ₛ, "[]byte"ₛ, "*byte"ₛ, "interface{}"ₛ]

/-- The bits of the Go types of integers. -/
def goBits : List (Str × Nat) := [("int8"ₛ, 8), ("int16"ₛ, 16), ("int32"ₛ, 32), ("int64"ₛ, 64), ("null.Int"ₛ, 64)]

/-- The Go types of the other column types. -/
def goOthers : List (Str × List Str) :=
  [("float32"ₛ, ["float"ₛ]), ("float64"ₛ, ["float"ₛ, "double"ₛ]), ("null.Float"ₛ, ["float"ₛ, "double"ₛ]),
   ("time.Time"ₛ, ["date"ₛ, "datetime"ₛ, "time"ₛ]), ("null.Time"ₛ, ["date"ₛ, "datetime"ₛ, "time"ₛ]),
   ("[]byte"ₛ, ["blob8"ₛ, "blob16"ₛ, "blob24"ₛ, "blob32"ₛ, "binary"ₛ, "varbinary"ₛ])]

/-- A value that a variable of a Go type can have. -/
def GoHolds (type : Str) : Value → Prop
  | .null => type ∈ goNullable
  | .int n => type = "interface{}"ₛ ∨ ∃ b, goBits.lookup type = some b ∧ InBits b n
  | .bits n => type = "interface{}"ₛ ∨ (type ∈ ["byte"ₛ, "*byte"ₛ] ∧ n < 2 ^ 8)
  | .decimal _ _ => type ∈ ["decimal.Decimal"ₛ, "decimal.NullDecimal"ₛ, "interface{}"ₛ]
  | .truth _ => type ∈ ["bool"ₛ, "null.Bool"ₛ, "interface{}"ₛ]
  | .text _ => type ∈ ["string"ₛ, "null.String"ₛ, "interface{}"ₛ]
  | .other t => type = "interface{}"ₛ ∨ ∃ l, goOthers.lookup type = some l ∧ t ∈ l

/-- The columns that the generated Go type does justice to. -/
def GoFits (c : Column) : Prop := ¬(lower c.type = "bit"ₛ ∧ 8 < c.size.toNat) ∧ ¬(lower c.type = "enum"ₛ ∧ Nullable c)

/-! ### Kotlin -/

/-- A value that a property of a Kotlin type can have that is not marked with `?`. -/
def KtHoldsPlain (type : Str) : Value → Prop
  | .null => False
  | .int n => type = "Any"ₛ ∨ ∃ b, [("Int"ₛ, 32), ("Long"ₛ, 64)].lookup type = some b ∧ InBits b n
  | .bits _ => type = "Any"ₛ
  | .decimal _ _ => type ∈ ["BigDecimal"ₛ, "Any"ₛ]
  | .truth _ => type ∈ ["Boolean"ₛ, "Any"ₛ]
  | .text _ => type ∈ ["String"ₛ, "Any"ₛ]
  | .other t => type = "Any"ₛ ∨ ∃ l, [("Float"ₛ, ["float"ₛ]), ("Double"ₛ, ["float"ₛ, "double"ₛ]), ("Timestamp"ₛ, ["datetime"ₛ]), ("LocalDate"ₛ, ["date"ₛ]),
      ("LocalTime"ₛ, ["time"ₛ]), ("Blob"ₛ, ["blob8"ₛ, "blob16"ₛ, "blob24"ₛ, "blob32"ₛ])].lookup type = some l ∧ t ∈ l

/-- A value that a property of a Kotlin type can have. -/
def KtHolds (type : Str) (v : Value) : Prop :=
  KtHoldsPlain type v ∨ ∃ base, type = base ++ "?"ₛ ∧ (v = .null ∨ KtHoldsPlain base v)

/-! ### Protocol buffers -/

/-- A number that a double has exactly: an integer of at most 53 bits, times a power of two. -/
def Double (m : Int) (e : Nat) : Prop := ∃ (k : Int) (a b : Nat), k.natAbs ≤ 2 ^ 53 ∧ m * 2 ^ a = k * 2 ^ b * 10 ^ e

/-- A value that a field of proto3 can have.  Only fields that are messages can be absent. -/
def ProtoHolds (type : Str) : Value → Prop
  | .null => type = "google.protobuf.Timestamp"ₛ
  | .int n => ∃ b, [("int32"ₛ, 32), ("int64"ₛ, 64)].lookup type = some b ∧ InBits b n
  | .bits _ => False
  | .decimal m e => type = "double"ₛ ∧ Double m e
  | .truth _ => type = "bool"ₛ
  | .text _ => type = "string"ₛ
  | .other t => ∃ l, [("float"ₛ, ["float"ₛ]), ("double"ₛ, ["float"ₛ, "double"ₛ]), ("google.protobuf.Timestamp"ₛ, ["datetime"ₛ])].lookup type = some l ∧ t ∈ l

/-- The columns that the generated field does justice to: they are not null, of a supported type, and decimals are integers of at most 15
digits. -/
def ProtoFits (c : Column) : Prop :=
  (Nullable c → lower c.type = "datetime"ₛ) ∧ (lower c.type = "decimal"ₛ → c.scale = 0 ∧ precision c ≤ 15) ∧
    (lower c.type ∈ otherTypes → lower c.type ∈ ["float"ₛ, "double"ₛ, "datetime"ₛ]) ∧ lower c.type ≠ "bit"ₛ ∧
    (lower c.type = "enum"ₛ → c.values = [])

end Octo.Spec
