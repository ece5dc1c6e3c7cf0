import Verif.Spec.MysqlDb
import Verif.Spec.MysqlAst

/-!
# What MySQL requires of columns that are counted up

Written after the MySQL manual, "CREATE TABLE Statement": "There can be only one AUTO_INCREMENT column per table, it must be indexed, and
it cannot have a DEFAULT value", and "AUTO_INCREMENT Handling in InnoDB": the column is the first or only column of some index.
-/

namespace Octo.Spec
open MysqlImport

/-- The first element of a list that has the property has the name. -/
def LeadsBy {α : Type} (name : α → Str) (p : α → Prop) : List α → Str → Prop
  | [], _ => False
  | a :: l, n => (p a ∧ name a = n) ∨ (¬p a ∧ LeadsBy name p l n)

instance decLeadsBy {α : Type} (name : α → Str) (p : α → Prop) [DecidablePred p] : ∀ (l : List α) (n : Str), Decidable (LeadsBy name p l n)
  | [], _ => inferInstanceAs (Decidable False)
  | a :: l, n =>
    have := decLeadsBy name p l n
    inferInstanceAs (Decidable ((p a ∧ name a = n) ∨ (¬p a ∧ LeadsBy name p l n)))

/-- MySQL accepts the columns of a table definition that are counted up. -/
structure AutoAccepted (t : DdlTable) : Prop where
  one : (t.columns.filter (·.autoIncrement)).length ≤ 1
  noDefault : ∀ c ∈ t.columns, c.autoIncrement = true → c.default = none
  keyed : ∀ c ∈ t.columns, c.autoIncrement = true →
    ∃ k ∈ t.keys ++ (t.uniqueKeys ++ t.indexKeys).map (·.2), k.head? = some c.name

/-- A table of a schema with at most one column that is counted up, without a default value, which is the first column of the primary key,
the first unique column, or the first column of an index. -/
structure AutoTable (t : Table) : Prop where
  one : (t.columns.filter (·.autoIncremental)).length ≤ 1
  noDefault : ∀ c ∈ t.columns, c.autoIncremental = true → c.defaultValue = []
  keyed : ∀ c ∈ t.columns, c.autoIncremental = true →
    LeadsBy (·.name) (·.primaryKey = true) t.columns c.name ∨ LeadsBy (·.name) (·.uniqueKey = true) t.columns c.name ∨
      ∃ i ∈ t.indices, i.columns.head? = some c.name

/-- The option declares a default value. -/
def declaresDefault : ColOption → Bool
  | .defaultValue _ => true
  | _ => false

/-- MySQL accepts the columns of a parsed statement that are counted up: as above, where a key can also be declared with the column. -/
structure AutoStated (x : Created) : Prop where
  one : (x.2.1.filter fun d => decide (ColOption.autoIncrement ∈ d.options)).length ≤ 1
  noDefault : ∀ d ∈ x.2.1, ColOption.autoIncrement ∈ d.options → ∀ o ∈ d.options, declaresDefault o = false
  keyed : ∀ d ∈ x.2.1, ColOption.autoIncrement ∈ d.options → ColOption.primaryKey ∈ d.options ∨ ColOption.uniqKey ∈ d.options ∨
    ∃ k ∈ x.2.2, k.tp ∈ [ConstraintType.primaryKey, .key, .index, .uniq, .uniqKey, .uniqIndex] ∧ k.keys.head? = some (some d.name)

/-- In a parsed statement, the column is the first one of the table that belongs to the primary key, or the first one that belongs to a
unique constraint of the table, or the first one of an index. -/
def AutoLeads (x : Created) (n : Str) : Prop :=
  LeadsBy (·.name) (fun d : ColumnDef => ColOption.primaryKey ∈ d.options ∨ KeyedBy .primaryKey x.2.2 d.name) x.2.1 n ∨
  LeadsBy (·.name) (fun d : ColumnDef => KeyedBy .uniq x.2.2 d.name) x.2.1 n ∨
  ∃ k ∈ x.2.2, k.tp = .index ∧ k.keys.head? = some (some n)

instance (tp : ConstraintType) (csts : List Constraint) (n : Str) : Decidable (KeyedBy tp csts n) :=
  inferInstanceAs (Decidable (∃ cst ∈ csts, cst.tp = tp ∧ some n ∈ cst.keys))

instance (x : Created) (n : Str) : Decidable (AutoLeads x n) := inferInstanceAs (Decidable (_ ∨ _ ∨ _))

end Octo.Spec
