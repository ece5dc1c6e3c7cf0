import Verif.Model.Diff
import Verif.Spec.MysqlDdl

/-! Readers for the texts written by the diff: SQL migration scripts and the markdown report. -/

namespace Octo.Spec

/-! ## Migration scripts -/

/-- What a statement of a migration script asks the database to do.  A column modification replaces the
whole definition of the column. -/
inductive SqlAction
  | createTable (t : DdlTable)
  | dropTable (name : Str)
  | renameTable (old new : Str)
  | dropPrimaryKey (table : Str)
  | addPrimaryKey (table : Str) (columns : List Str)
  | addColumn (table : Str) (column : DdlColumn)
  | modifyColumn (table : Str) (column : DdlColumn) (makeKey : Bool)
  deriving DecidableEq

/-- Reads a column definition. -/
def readColumn : List Str → Option DdlColumn
  | name :: type :: opts => readOptions opts { name := name, type := type }
  | _ => none

/-- Reads the part of an `ALTER TABLE` statement after the table name. -/
def readAlter (table : Str) : List Str → Option SqlAction
  | [] => none
  | k :: r =>
    let cols := if r.head? = some "COLUMN"ₛ then r.drop 1 else r
    if k = "DROP"ₛ then if r = ["PRIMARY"ₛ, "KEY"ₛ] then some (.dropPrimaryKey table) else none
    else if k = "ADD"ₛ then
      if r.take 2 = ["PRIMARY"ₛ, "KEY"ₛ] then
        (r[2]?).bind fun names => (parenList some names).map (.addPrimaryKey table)
      else (readColumn cols).map (.addColumn table)
    else if k = "MODIFY"ₛ then
      if cols.drop (cols.length - 2) = ["PRIMARY"ₛ, "KEY"ₛ] then
        (readColumn (cols.take (cols.length - 2))).map (.modifyColumn table · true)
      else (readColumn cols).map (.modifyColumn table · false)
    else none

/-- Reads a statement. -/
def readAction (s : Str) : Option SqlAction :=
  match tokens s with
  | a :: b :: r =>
    if b ≠ "TABLE"ₛ then none
    else if a = "CREATE"ₛ then (readCreateTable s).map .createTable
    else match r with
      | [] => none
      | n :: r =>
        if a = "DROP"ₛ then if r = [] then some (.dropTable n) else none
        else if a = "RENAME"ₛ then
          match r with
          | [k, m] => if k = "TO"ₛ then some (.renameTable n m) else none
          | _ => none
        else if a = "ALTER"ₛ then readAlter n r
        else none
  | _ => none

/-- Reads a script. -/
def readScript (text : Str) : Option (List SqlAction) := (statements text).mapM readAction

/-- What the script has to do for a change, for the kinds of change that the code writes SQL for. -/
def meant (mysqlType : Column → Str) (suffix : Str) : Change → List SqlAction
  | .createTable t => [.createTable (ddlTable mysqlType suffix t)]
  | .dropTable t => [.dropTable t.name]
  | .renameTable o n => [.renameTable o.name n.name]
  | .updatePrimaryKey o n =>
    (if o.columns.any (·.primaryKey) then [.dropPrimaryKey n.name] else []) ++
    (if n.columns.any (·.primaryKey) then [.addPrimaryKey n.name (sortStrings ((n.columns.filter (·.primaryKey)).map (·.name)).dedup)]
      else [])
  | .addColumn t c => [.addColumn t.name (ddlColumn mysqlType c)]
  | .setNotNull t c => [.modifyColumn t.name (ddlColumn mysqlType c) false]
  | .setAutoIncrement t c => [.modifyColumn t.name (ddlColumn mysqlType c) false]
  | .changeColumnType t _ c => [.modifyColumn t.name (ddlColumn mysqlType c) false]
  | .setColumnComment t c => [.modifyColumn t.name (ddlColumn mysqlType c) false]
  | .setDefaultValue t c => [.modifyColumn t.name (ddlColumn mysqlType c) false]
  | _ => []

/-- The texts of a change that appear in the script need no escaping. -/
def PlainChange : Change → Prop
  | .createTable t => PlainTable t
  | .dropTable t => Word t.name
  | .renameTable o n => Word o.name ∧ Word n.name
  | .updatePrimaryKey _ n => Word n.name ∧ ∀ c ∈ n.columns, Word c.name
  | .addColumn t c => Word t.name ∧ PlainColumn c ∧ c.name ≠ "COLUMN"ₛ
  | .setNotNull t c => Word t.name ∧ PlainColumn c ∧ c.name ≠ "COLUMN"ₛ
  | .setAutoIncrement t c => Word t.name ∧ PlainColumn c ∧ c.name ≠ "COLUMN"ₛ
  | _ => True

/-- Columns about which there is nothing to say but type and nullability. -/
def OnlyNullability (c : Column) : Prop :=
  c.autoIncremental = false ∧ c.defaultValue = [] ∧ c.onUpdate = [] ∧ c.description = []

/-- The changes whose SQL does what is meant. -/
def SqlOk : Change → Prop
  | .createTable _ => True
  | .dropTable _ => True
  | .renameTable _ _ => True
  | .updatePrimaryKey o _ => o.columns.any (·.primaryKey) = true
  | .setNotNull _ c => OnlyNullability c
  | .setAutoIncrement _ c => c.autoIncremental = true
  | _ => False

/-! ## The markdown report -/

/-- A report as read: the two versions and, per heading, the items under it. -/
structure Report where
  fromVersion : Str
  toVersion : Str
  sections : List (Str × List Str)
  deriving DecidableEq

/-- Removes a prefix and a suffix. -/
def between (pre suf s : Str) : Option Str :=
  if hasPrefix s pre && hasSuffix s suf && decide (pre.length + suf.length ≤ s.length) then
    some ((s.drop pre.length).take (s.length - pre.length - suf.length))
  else none

/-- Reads headings and items, from the last line to the first; empty lines are skipped. -/
def readSections : List Str → Option (List Str × List (Str × List Str))
  | [] => some ([], [])
  | line :: rest =>
    match readSections rest with
    | none => none
    | some (items, secs) =>
      if line = [] then some (items, secs)
      else if hasPrefix line "## "ₛ then some ([], (line.drop 3, items) :: secs)
      else if hasPrefix line "* "ₛ then some (line.drop 2 :: items, secs)
      else none

/-- Reads a report. -/
def readReport (text : Str) : Option Report :=
  match split '\n' text with
  | title :: blank :: v1 :: v2 :: rest =>
    if title = "# DB Schema changes"ₛ ∧ blank = [] then
      (between "* from: `"ₛ "`"ₛ v1).bind fun f => (between "* to: `"ₛ "`"ₛ v2).bind fun t =>
      match readSections rest with
      | some ([], secs) => some ⟨f, t, secs⟩
      | _ => none
    else none
  | _ => none

/-- The kinds of items in a report. -/
inductive ItemKind
  | createTable | dropTable | renameTable | updatePrimaryKey | createUnique | dropUnique | tableComment
  | addColumn | dropColumn | columnComment | columnType | renameColumn | notNull | nullable | autoOn | autoOff
  | removeDefault | setDefault
  deriving DecidableEq

/-- The kind of a change. -/
def kindOf : Change → ItemKind
  | .createTable _ => .createTable
  | .dropTable _ => .dropTable
  | .renameTable _ _ => .renameTable
  | .updatePrimaryKey _ _ => .updatePrimaryKey
  | .createUnique _ _ => .createUnique
  | .dropUnique _ _ => .dropUnique
  | .setTableComment _ => .tableComment
  | .addColumn _ _ => .addColumn
  | .dropColumn _ _ => .dropColumn
  | .setColumnComment _ _ => .columnComment
  | .changeColumnType _ _ _ => .columnType
  | .renameColumn _ _ _ => .renameColumn
  | .setNotNull _ c => if c.notNull then .notNull else .nullable
  | .setAutoIncrement _ c => if c.autoIncremental then .autoOn else .autoOff
  | .setDefaultValue _ c => if c.defaultValue = [] then .removeDefault else .setDefault

/-- How items begin. -/
def itemPrefixes : List (Str × ItemKind) :=
  [("create table"ₛ, .createTable), ("drop table"ₛ, .dropTable), ("rename table "ₛ, .renameTable),
   ("update PK: "ₛ, .updatePrimaryKey), ("create unique constraint: "ₛ, .createUnique),
   ("drop unique constraint: "ₛ, .dropUnique), ("update table comment: "ₛ, .tableComment), ("add column: "ₛ, .addColumn),
   ("drop column: "ₛ, .dropColumn), ("update column comment: "ₛ, .columnComment), ("change column type: "ₛ, .columnType),
   ("rename column: "ₛ, .renameColumn), ("set not null: "ₛ, .notNull), ("set nullable: "ₛ, .nullable),
   ("set auto incremental: "ₛ, .autoOn), ("remove auto incremental: "ₛ, .autoOff),
   ("remove default value: "ₛ, .removeDefault), ("update default value: "ₛ, .setDefault)]

/-- The kind of an item of a report. -/
def readKind (item : Str) : Option ItemKind := (itemPrefixes.find? fun p => hasPrefix item p.1).map Prod.snd

/-- The name of the column, written between back-quotes after the prefix, that an item is about. -/
def readSubject (item : Str) : Str := ((item.dropWhile (· != '`')).drop 1).takeWhile (· != '`')

/-- The name an item has to mention. -/
def subjectOf : Change → Option Str
  | .renameTable o _ => some o.name
  | .addColumn _ c => some c.name
  | .dropColumn _ n => some n
  | .setColumnComment _ c => some c.name
  | .changeColumnType _ _ c => some c.name
  | .renameColumn _ o _ => some o.name
  | .setNotNull _ c => some c.name
  | .setAutoIncrement _ c => some c.name
  | .setDefaultValue _ c => some c.name
  | _ => none

/-- The texts of a change fit on one line. -/
def OneLine : Change → Prop
  | .createTable t => '\n' ∉ t.name
  | .dropTable t => '\n' ∉ t.name
  | .renameTable o n => '\n' ∉ o.name ∧ '\n' ∉ n.name
  | .updatePrimaryKey o n => '\n' ∉ o.name ∧ ∀ c, c ∈ o.columns ∨ c ∈ n.columns → '\n' ∉ c.name
  | .createUnique _ t => '\n' ∉ t.name ∧ ∀ c ∈ t.columns, '\n' ∉ c.name
  | .dropUnique _ t => '\n' ∉ t.name ∧ ∀ c ∈ t.columns, '\n' ∉ c.name
  | .setTableComment t => '\n' ∉ t.name ∧ '\n' ∉ t.description
  | .addColumn t c => '\n' ∉ t.name ∧ '\n' ∉ c.name
  | .dropColumn t n => '\n' ∉ t.name ∧ '\n' ∉ n
  | .setColumnComment t c => '\n' ∉ t.name ∧ '\n' ∉ c.name ∧ '\n' ∉ c.description
  | .changeColumnType t o c => '\n' ∉ t.name ∧ '\n' ∉ c.name ∧ '\n' ∉ o.type ∧ '\n' ∉ c.type
  | .renameColumn t o n => '\n' ∉ t.name ∧ '\n' ∉ o.name ∧ '\n' ∉ n.name
  | .setNotNull t c => '\n' ∉ t.name ∧ '\n' ∉ c.name
  | .setAutoIncrement t c => '\n' ∉ t.name ∧ '\n' ∉ c.name
  | .setDefaultValue t c => '\n' ∉ t.name ∧ '\n' ∉ c.name ∧ '\n' ∉ c.defaultValue

/-- An item describes a change: it states the kind, and names the table or column it is about. -/
def Describes (item : Str) (c : Change) : Prop :=
  readKind item = some (kindOf c) ∧ ∀ n, subjectOf c = some n → '`' ∉ n → readSubject item = n

end Octo.Spec
