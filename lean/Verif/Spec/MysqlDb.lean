import Verif.Spec.MysqlDdl
import Verif.Spec.Database
import Verif.Spec.Liquibase

/-!
# What a script of `CREATE TABLE IF NOT EXISTS` statements does to a database

Written after the MySQL manual, on the statements as the reader of `Spec/MysqlDdl` delivers them, and
independently of the code under verification.  Types and values are not checked.
-/

namespace Octo.Spec

/-- The column definitions of a statement. -/
def DdlTable.columns (t : DdlTable) : List DdlColumn :=
  t.defs.filterMap fun d => match d with | .column c => some c | _ => none

/-- The primary keys of a statement. -/
def DdlTable.keys (t : DdlTable) : List (List Str) :=
  t.defs.filterMap fun d => match d with | .primaryKey cs => some cs | _ => none

/-- The unique constraints of a statement. -/
def DdlTable.uniqueKeys (t : DdlTable) : List (Str × List Str) :=
  t.defs.filterMap fun d => match d with | .unique n cs => some (n, cs) | _ => none

/-- The indices of a statement. -/
def DdlTable.indexKeys (t : DdlTable) : List (Str × List Str) :=
  t.defs.filterMap fun d => match d with | .index n cs => some (n, cs) | _ => none

/-- What MySQL requires of the structure of a new table: it has columns, their names are distinct, there
is at most one primary key, the names of the other keys are distinct, and keys consist of columns of the
table. -/
structure Creatable (t : DdlTable) : Prop where
  columns : t.columns ≠ []
  distinct : (t.columns.map (·.name)).Nodup
  oneKey : t.keys.length ≤ 1
  keyNames : ((t.uniqueKeys ++ t.indexKeys).map (·.1)).Nodup
  exist : ∀ cs ∈ t.keys ++ (t.uniqueKeys ++ t.indexKeys).map (·.2), ∀ c ∈ cs, c ∈ t.columns.map (·.name)

/-- The column belongs to the primary key. -/
def DdlTable.inKey (t : DdlTable) (n : Str) : Prop := ∃ cs ∈ t.keys, n ∈ cs

open Classical in
/-- The table a statement creates.  The columns of the primary key are not null. -/
noncomputable def DdlTable.create (t : DdlTable) : DbTable DdlColumn :=
  { cols := fun n => (t.columns.find? (fun c => c.name == n)).map fun c =>
      { c with notNull := c.notNull || decide (t.inKey n) }
    pk := t.inKey
    uniques := fun k => (t.uniqueKeys.find? (fun u => u.1 == k)).map fun u n => n ∈ u.2 }

/-- Effect of a statement: nothing if there is a table of that name. -/
def DdlStep (t : DdlTable) (d d' : Db DdlColumn) : Prop :=
  ((d t.name).isSome ∧ d' = d) ∨ (d t.name = none ∧ Creatable t ∧ d' = upd d t.name (some t.create))

/-- Executing the statements one after the other. -/
def DdlRuns : List DdlTable → Db DdlColumn → Db DdlColumn → Prop
  | [], d, d' => d' = d
  | t :: ts, d, d'' => ∃ d', DdlStep t d d' ∧ DdlRuns ts d' d''

/-- The text of a value. -/
def SqlValue.text : SqlValue → Str
  | .call f => "fn::"ₛ ++ f
  | .string s => s
  | .bare s => s

/-- What a value means. -/
def SqlValue.meaning : SqlValue → LqValue
  | .call f => .call f
  | .string s => .literal s
  | .bare s => .literal s

/-- A column created by MySQL DDL and one created by Liquibase agree: nullability, auto-increment,
default and, if comments are asked for, comment. -/
structure SameAttr (uc : Bool) (a : DdlColumn) (b : LqAttr) : Prop where
  notNull : a.notNull = b.notNull
  autoIncrement : a.autoIncrement = b.autoIncrement
  default : a.default.map SqlValue.meaning = b.default
  comment : uc = true → a.comment.getD [] = b.remarks

/-- Two tables have the same structure: the same columns, the same primary key, and the same unique
constraints, where the second may repeat constraints under names in `sys`. -/
structure SameTable (sys : Str → Prop) (uc : Bool) (T : DbTable DdlColumn) (U : DbTable LqAttr) : Prop where
  cols : ∀ n, (T.cols n = none ∧ U.cols n = none) ∨ ∃ a b, T.cols n = some a ∧ U.cols n = some b ∧ SameAttr uc a b
  pk : ∀ n, T.pk n ↔ U.pk n
  kept : ∀ k s, T.uniques k = some s → U.uniques k = some s
  only : ∀ k s, U.uniques k = some s → T.uniques k = some s ∨ (sys k ∧ ∃ l, T.uniques l = some s)

/-- Two databases have the same structure. -/
def SameDb (sys : Str → Prop) (uc : Bool) (d : Db DdlColumn) (e : Db LqAttr) : Prop :=
  ∀ n, (d n = none ∧ e n = none) ∨ ∃ T U, d n = some T ∧ e n = some U ∧ SameTable sys uc T U

/-- Keys of the table are well formed: it has columns, index columns exist, and the names of the indices
are distinct and differ from the name of the unique constraint. -/
structure GoodKeys (suffix : Str) (t : Table) : Prop where
  columns : t.columns ≠ []
  indexColumns : ∀ i ∈ t.indices, ∀ c ∈ i.columns, c ∈ t.columns.map (·.name)
  indexNames : (t.indices.map (·.name)).Nodup
  noClash : HasUnique t → t.name ++ suffix ∉ t.indices.map (·.name)

end Octo.Spec
