import Verif.Spec.MysqlAst

/-! What a MySQL script can say about a table, for the exact forms of C21 and C120. -/

namespace Octo.Spec

/-- The literals whose value the modelled part of the SQL grammar knows: `NULL`, `TRUE`, `FALSE`, natural numbers as they are
usually written, and signed numbers. -/
def KnownLiteral (v : Str) : Prop :=
  lower v ∈ ["null"ₛ, "true"ₛ, "false"ₛ] ∨ (∃ n, v = itoa n) ∨ v.head? = some '-' ∨ v.head? = some '+'

/-- Literals of other than the character types are known ones. -/
def KnownDefault (c : Column) : Prop :=
  c.defaultValue = [] ∨ hasPrefix c.defaultValue "fn::"ₛ = true ∨ c.type = "char"ₛ ∨ c.type = "varchar"ₛ ∨ KnownLiteral c.defaultValue

/-- What MySQL can express of a column, apart from its name and the keys it is in. -/
structure Expressible (c : Column) : Prop where
  type : PortableType c
  default : PortableDefault c.type c.defaultValue
  onUpdate : c.onUpdate = [] ∨ c.onUpdate = "fn::CURRENT_TIMESTAMP"ₛ
  autoNotNull : c.autoIncremental = true → c.notNull = true
  noRef : c.ref = none

/-- What MySQL can express of a table: there are columns, every index has columns, columns of the same name are in the same keys, and
there is no description, group or class name. -/
structure ExpressibleTable (t : Table) : Prop where
  columns : ∀ c ∈ t.columns, Expressible c
  hasColumns : t.columns ≠ []
  indexed : ∀ i ∈ t.indices, i.columns ≠ []
  sameKeys : ∀ c ∈ t.columns, ∀ d ∈ t.columns, c.name = d.name → c.primaryKey = d.primaryKey ∧ c.uniqueKey = d.uniqueKey
  noDescription : t.description = []
  noGroup : t.group = []
  noClassName : t.className = []

end Octo.Spec
