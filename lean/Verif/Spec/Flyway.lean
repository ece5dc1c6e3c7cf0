import Verif.Spec.MysqlDb
import Verif.Spec.DiffOut
import Verif.Spec.DiffMeaning

/-!
# What a migration script does to a MySQL database

Written after the MySQL manual, on the statements as the reader of `Spec/DiffOut` delivers them, and
independently of the code under verification.  Indices, the order of columns and rows are not part of the
state; types and values are not checked.
-/

namespace Octo.Spec

/-- What MySQL requires of a table after it has been altered: there is at most one auto-increment column, and
it belongs to a key (indices, which are not part of the state, do not count here). -/
structure AutoRule (T : DbTable DdlColumn) : Prop where
  one : ∀ n m a b, T.cols n = some a → T.cols m = some b → a.autoIncrement = true → b.autoIncrement = true → n = m
  keyed : ∀ n a, T.cols n = some a → a.autoIncrement = true → T.pk n ∨ ∃ k u, T.uniques k = some u ∧ u n

open Classical in
/-- Effect of an `ALTER TABLE` statement on the table; other statements have none of this sort.  The columns of
a primary key are not null, and stay so when the key is dropped. -/
noncomputable def alterTable : SqlAction → DbTable DdlColumn → Option (DbTable DdlColumn)
  /- there must be a primary key -/
  | .dropPrimaryKey _, T => if ∃ n, T.pk n then some { T with pk := fun _ => False } else none
  /- there must be no primary key, and the columns must exist -/
  | .addPrimaryKey _ cs, T =>
    if (∀ n, ¬T.pk n) ∧ ∀ n ∈ cs, (T.cols n).isSome then
      some { T with
        pk := fun n => n ∈ cs
        cols := fun n => (T.cols n).map fun a => { a with notNull := a.notNull || decide (n ∈ cs) } }
    else none
  /- the name must be free -/
  | .addColumn _ c, T => if T.cols c.name = none then some { T with cols := upd T.cols c.name (some c) } else none
  /- the column must exist; the definition replaces the old one; `PRIMARY KEY` requires that there is none -/
  | .modifyColumn _ c makeKey, T =>
    if (T.cols c.name).isSome ∧ (makeKey = true → ∀ n, ¬T.pk n) then
      some { T with
        pk := fun n => T.pk n ∨ (makeKey = true ∧ n = c.name)
        cols := upd T.cols c.name (some { c with notNull := c.notNull || decide (T.pk c.name) || makeKey }) }
    else none
  | _, _ => none

/-- The table that an `ALTER TABLE` statement names. -/
def altered : SqlAction → Option Str
  | .dropPrimaryKey t => some t
  | .addPrimaryKey t _ => some t
  | .addColumn t _ => some t
  | .modifyColumn t _ _ => some t
  | _ => none

/-- Effect of a statement on the database. -/
def ActStep (a : SqlAction) (d d' : Db DdlColumn) : Prop :=
  match a with
  | .createTable t => DdlStep t d d'
  | .dropTable n => (d n).isSome ∧ d' = upd d n none
  | .renameTable n m => (d n).isSome ∧ d m = none ∧ d' = upd (upd d n none) m (d n)
  | a => ∃ n T T', altered a = some n ∧ d n = some T ∧ alterTable a T = some T' ∧ AutoRule T' ∧ d' = upd d n (some T')

/-- Executing statements one after the other, all of them accepted. -/
def ActRuns : List SqlAction → Db DdlColumn → Db DdlColumn → Prop
  | [], d, d' => d' = d
  | a :: as, d, d'' => ∃ d', ActStep a d d' ∧ ActRuns as d' d''

/-- The script can be executed on the first database and leads to the second. -/
def Migrates (script : Str) (d d' : Db DdlColumn) : Prop := ∃ acts, readScript script = some acts ∧ ActRuns acts d d'

/-- The script builds the database from nothing. -/
def BuiltBy (script : Str) (d : Db DdlColumn) : Prop := ∃ ts, readDdl script = some ts ∧ DdlRuns ts (fun _ => none) d

/-! ## Which versions can be migrated -/

/-- The change from one version of a column to the other is one that the script covers: there is none, or
auto-increment is switched on, or the nullability changes and there is nothing else to say about the
column. -/
def ColumnMoves (mysqlType : Column → Str) (old new : Column) : Prop :=
  ddlColumn mysqlType old = ddlColumn mysqlType new ∨
  (old.autoIncremental = false ∧ new.autoIncremental = true) ∨
  (old.notNull ≠ new.notNull ∧ old.autoIncremental = new.autoIncremental ∧ OnlyNullability new)

/-- The column is one for which the script has a statement. -/
def ColumnTouched (old new : Column) : Prop := old.notNull ≠ new.notNull ∨ old.autoIncremental ≠ new.autoIncremental

/-- The auto-increment columns of the table are at most one and among the given columns. -/
def AutoWithin (t : Table) (keys : Str → Prop) : Prop :=
  (∀ a ∈ t.columns, ∀ b ∈ t.columns, a.autoIncremental = true → b.autoIncremental = true → a.name = b.name) ∧
  ∀ a ∈ t.columns, a.autoIncremental = true → keys a.name

/-- The script covers the change from one version of a table to the other. -/
structure TableMoves (mysqlType : Column → Str) (old new : Table) : Prop where
  /-- no column comes or goes -/
  names : ∀ n, n ∈ old.columns.map (·.name) ↔ n ∈ new.columns.map (·.name)
  columns : ∀ o ∈ old.columns, ∀ c ∈ new.columns, o.name = c.name → ColumnMoves mysqlType o c
  /-- auto-increment columns belong to a key when columns are modified -/
  auto : (∃ o ∈ old.columns, ∃ c ∈ new.columns, o.name = c.name ∧ ColumnTouched o c) →
    AutoWithin new fun n => pkNames old n ∨ uqNames new n
  unique : ∀ n, uqNames old n ↔ uqNames new n
  /-- a primary key that changes is there before, columns that leave it are not null, and while there is none
  auto-increment columns belong to the unique constraint -/
  key : (∀ n, pkNames old n ↔ pkNames new n) ∨
    ((∃ n, pkNames old n) ∧ (∀ c ∈ new.columns, pkNames old c.name → c.primaryKey = false → c.notNull = true) ∧
      AutoWithin new (uqNames new))

/-- The script covers the change from one version of a schema to the other: of every table that is in both, and
no table with unique columns disappears while one with the same columns appears. -/
structure SchemaMoves (mysqlType : Column → Str) (old new : Schema) : Prop where
  kept : ∀ o ∈ old.tables, ∀ t ∈ new.tables, o.name = t.name → TableMoves mysqlType o t
  renamed : ∀ o ∈ old.tables, o.name ∉ new.tables.map (·.name) → ∀ t ∈ new.tables, t.name ∉ old.tables.map (·.name) →
    t.columns = o.columns → ¬HasUnique t

/-- What is required of a schema: names are distinct, texts need no escaping, and keys are well formed. -/
structure Scriptable (suffix : Str) (s : Schema) : Prop where
  tables : (s.tables.map (·.name)).Nodup
  columns : ∀ t ∈ s.tables, (t.columns.map (·.name)).Nodup
  plain : ∀ t ∈ s.tables, PlainTable t ∧ ∀ c ∈ t.columns, c.name ≠ "COLUMN"ₛ
  keys : ∀ t ∈ s.tables, GoodKeys suffix t

end Octo.Spec
