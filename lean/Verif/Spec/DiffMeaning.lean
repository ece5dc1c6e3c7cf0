import Verif.Spec.Database
import Verif.Spec.Diff

/-! What a schema looks like as a database, and what the changes of a diff do to a database. -/

namespace Octo.Spec

/-- The column attributes a diff is meant to carry over. -/
structure ColAttr where
  type : Str
  size : UInt16
  scale : UInt16
  notNull : Bool
  autoIncremental : Bool
  defaultValue : Str
  comment : Str
deriving DecidableEq

/-- Attributes of a column; comments count only when they are compared. -/
def attrOf (uc : Bool) (c : Column) : ColAttr :=
  ⟨c.type, c.size, c.scale, c.notNull, c.autoIncremental, c.defaultValue, if uc then c.description else []⟩

/-- The (first) column of a given name. -/
def columnNamed (t : Table) (n : Str) : Option Column := t.columns.find? (fun c => c.name == n)

/-- Names of primary key columns. -/
def pkNames (t : Table) : Str → Prop := fun n => ∃ c ∈ t.columns, c.primaryKey = true ∧ c.name = n

/-- Names of unique columns. -/
def uqNames (t : Table) : Str → Prop := fun n => ∃ c ∈ t.columns, c.uniqueKey = true ∧ c.name = n

open Classical in
/-- The table as a database holds it: one unique constraint, named after the table, over all unique
columns. -/
noncomputable def dbTable {γ : Type} (attr : Column → γ) (suffix : Str) (t : Table) : DbTable γ :=
  { cols := fun n => (columnNamed t n).map attr
    pk := pkNames t
    uniques := fun k => if k = t.name ++ suffix ∧ HasUnique t then some (uqNames t) else none }

/-- The database of a schema. -/
noncomputable def dbOf {γ : Type} (attr : Column → γ) (suffix : Str) (s : Schema) : Db γ :=
  fun n => (s.tables.find? (fun t => t.name == n)).map (dbTable attr suffix)

/-- The statement a change of the diff stands for. -/
noncomputable def meaning (uc : Bool) (suffix : Str) : Change → DbOp ColAttr
  | .createTable t => .createTable t.name (dbTable (attrOf uc) suffix t)
  | .dropTable t => .dropTable t.name
  | .renameTable o n => .renameTable o.name n.name
  | .updatePrimaryKey _ n => .alter n.name (.setPrimaryKey (pkNames n))
  | .dropUnique k t => .alter t.name (.dropUnique k)
  | .createUnique k t => .alter t.name (.createUnique k (uqNames t))
  | .setTableComment t => .alter t.name .remark
  | .addColumn t c => .alter t.name (.addColumn c.name (attrOf uc c))
  | .dropColumn t c => .alter t.name (.dropColumn c)
  | .setColumnComment t c => .alter t.name (.modify c.name fun g => { g with comment := c.description })
  | .changeColumnType t _ c =>
    .alter t.name (.modify c.name fun g => { g with type := c.type, size := c.size, scale := c.scale })
  | .renameColumn t o n => .alter t.name (.renameColumn o.name n.name)
  | .setNotNull t c => .alter t.name (.modify c.name fun g => { g with notNull := c.notNull })
  | .setAutoIncrement t c =>
    .alter t.name (.modify c.name fun g => { g with autoIncremental := c.autoIncremental })
  | .setDefaultValue t c => .alter t.name (.modify c.name fun g => { g with defaultValue := c.defaultValue })

end Octo.Spec
