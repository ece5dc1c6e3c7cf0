import Verif.Model.LqYaml
import Verif.Spec.DiffMeaning

/-!
# Reading a Liquibase YAML changelog

A reader and a description of the documents, written after Liquibase's documentation.  Only the data types of the
model are used.
-/

namespace Octo.Spec.LqDoc
open Octo.Lq

/-! ### The reader -/

/-- The value under a key. -/
def Yaml.get (k : String) : Yaml → Option Yaml
  | .map es => (es.find? fun e => e.1 == k).map (·.2)
  | _ => none

/-- A text attribute that has to be there. -/
def Yaml.text (k : String) (y : Yaml) : Option Str :=
  match Yaml.get k y with
  | some (.str s) => some s
  | _ => none

/-- A text attribute that may be absent. -/
def Yaml.textOr (k : String) (y : Yaml) : Option Str :=
  match Yaml.get k y with
  | none => some []
  | some (.str s) => some s
  | _ => none

/-- A yes/no attribute that may be absent. -/
def Yaml.flag (k : String) (y : Yaml) : Option (Option Bool) :=
  match Yaml.get k y with
  | none => some none
  | some (.bool b) => some (some b)
  | _ => none

/-- A number that may be absent. -/
def Yaml.number (k : String) (y : Yaml) : Option (Option Num) :=
  match Yaml.get k y with
  | none => some none
  | some (.int n) => some (some (.int n))
  | some (.float x) => some (some (.float x))
  | _ => none

/-- The single entry of a mapping. -/
def Yaml.single : Yaml → Option (String × Yaml)
  | .map [e] => some e
  | _ => none

/-- The elements of a sequence, each read by `f`. -/
def Yaml.items {α : Type} (f : Yaml → Option α) : Yaml → Option (List α)
  | .seq l => l.mapM f
  | _ => none

def readDefault (y : Yaml) : Option DefaultValue :=
  (Yaml.textOr "defaultValue" y).bind fun s => (Yaml.flag "defaultValueBoolean" y).bind fun b =>
  (Yaml.number "defaultValueNumeric" y).bind fun n => (Yaml.textOr "defaultValueDate" y).map fun d => ⟨s, b, n, d⟩

def readConstraints (y : Yaml) : Option Constraints :=
  (Yaml.flag "primaryKey" y).bind fun p => (Yaml.flag "nullable" y).bind fun n =>
  (Yaml.flag "unique" y).map fun u => ⟨p, n, u⟩

/-- An element of `columns`: a mapping with the single key `column`. -/
def readColumn (e : Yaml) : Option LqColumn :=
  (Yaml.get "column" e).bind fun y =>
  (Yaml.text "name" y).bind fun name => (Yaml.text "type" y).bind fun type =>
  (Yaml.flag "autoIncrement" y).bind fun ai =>
  (match Yaml.get "constraints" y with
    | none => some none
    | some k => (readConstraints k).map some).bind fun cs =>
  (Yaml.textOr "remarks" y).bind fun r => (readDefault y).bind fun d =>
  (Yaml.textOr "afterColumn" y).map fun a => ⟨name, type, ai, cs, r, d, a⟩

def readColumns (y : Yaml) : Option (List LqColumn) := (Yaml.get "columns" y).bind (Yaml.items readColumn)

/-- A change: a mapping whose single key is the name of the change. -/
def readChange (e : Yaml) : Option LqChange :=
  (Yaml.single e).bind fun kv =>
  let y := kv.2
  let t := Yaml.text "tableName" y
  let c := Yaml.text "columnName" y
  let ty := Yaml.text "columnDataType" y
  match kv.1 with
  | "createTable" => t.bind fun t => (Yaml.textOr "remarks" y).bind fun r =>
      (readColumns y).map fun cs => .createTable t r cs
  | "dropTable" => t.map fun t => .dropTable t
  | "renameTable" => (Yaml.text "newTableName" y).bind fun n =>
      (Yaml.text "oldTableName" y).map fun o => .renameTable n o
  | "setTableRemarks" => t.bind fun t => (Yaml.textOr "remarks" y).map fun r => .setTableRemarks t r
  | "addColumn" => t.bind fun t => (readColumns y).map fun cs => .addColumn t cs
  | "dropColumn" => t.bind fun t => c.map fun c => .dropColumn t c
  | "setColumnRemarks" => t.bind fun t => c.bind fun c =>
      (Yaml.textOr "remarks" y).map fun r => .setColumnRemarks t c r
  | "modifyDataType" => t.bind fun t => c.bind fun c =>
      (Yaml.text "newDataType" y).map fun ty => .modifyDataType t c ty
  | "renameColumn" => t.bind fun t => (Yaml.text "newColumnName" y).bind fun n =>
      (Yaml.text "oldColumnName" y).bind fun o => ty.map fun ty => .renameColumn t n o ty
  | "addNotNullConstraint" => t.bind fun t => c.bind fun c => ty.bind fun ty =>
      (Yaml.textOr "defaultNullValue" y).map fun v => .addNotNullConstraint t c ty v
  | "dropNotNullConstraint" => t.bind fun t => c.bind fun c => ty.map fun ty => .dropNotNullConstraint t c ty
  | "addAutoIncrement" => t.bind fun t => c.bind fun c => ty.map fun ty => .addAutoIncrement t c ty
  | "addDefaultValue" => t.bind fun t => c.bind fun c => (Yaml.textOr "columnDataType" y).bind fun ty =>
      (readDefault y).map fun v => .addDefaultValue t c ty v
  | "dropDefaultValue" => t.bind fun t => c.bind fun c => ty.map fun ty => .dropDefaultValue t c ty
  | "addPrimaryKey" => t.bind fun t => (Yaml.text "columnNames" y).map fun cs => .addPrimaryKey t cs
  | "dropPrimaryKey" => t.map fun t => .dropPrimaryKey t
  | "addUniqueConstraint" => t.bind fun t => (Yaml.text "columnNames" y).bind fun cs =>
      (Yaml.text "constraintName" y).map fun k => .addUniqueConstraint t cs k
  | "dropUniqueConstraint" => t.bind fun t => (Yaml.text "constraintName" y).map fun k => .dropUniqueConstraint t k
  | _ => none

/-- The databases named by a precondition: product names separated by commas. -/
def dbmsNames (s : Str) : List Str := (split ',' s).map trimSpace

/-- What to do when a precondition fails, or cannot be evaluated, and the databases it names. -/
structure Guard where
  onFail : Str
  onError : Str
  products : List Str
  deriving DecidableEq

def readGuard (y : Yaml) : Option Guard :=
  (Yaml.text "onFail" y).bind fun f => (Yaml.text "onError" y).bind fun e =>
  (Yaml.get "dbms" y).bind fun d => (Yaml.text "type" d).map fun s => ⟨f, e, dbmsNames s⟩

/-- A change set as it is read. -/
structure ReadSet where
  id : Str
  author : Str
  guard : Option Guard
  changes : List LqChange
  deriving DecidableEq

/-- An optional part, read by `f`. -/
def optional {α : Type} (f : Yaml → Option α) : Option Yaml → Option (Option α)
  | none => some none
  | some y => (f y).map some

def readChangeSet (y : Yaml) : Option ReadSet :=
  (Yaml.text "id" y).bind fun id => (Yaml.textOr "author" y).bind fun author =>
  (optional readGuard (Yaml.get "preConditions" y)).bind fun g =>
  (optional (Yaml.items readChange) (Yaml.get "changes" y)).map fun cs => ⟨id, author, g, cs.getD []⟩

/-- An entry of a changelog. -/
inductive Entry
  | quoting (strategy : Str)
  | changeSet (s : ReadSet)
  deriving DecidableEq

def readEntry (e : Yaml) : Option Entry :=
  (Yaml.single e).bind fun kv =>
  match kv.1 with
  | "objectQuotingStrategy" =>
    match kv.2 with
    | .str s => some (.quoting s)
    | _ => none
  | "changeSet" => (readChangeSet kv.2).map .changeSet
  | _ => none

def readChangelog (y : Yaml) : Option (List Entry) :=
  (Yaml.get "databaseChangeLog" y).bind (Yaml.items readEntry)

/-- The products on which the guarded change sets run. -/
def guardedProducts : List Str :=
  ["derby"ₛ, "h2"ₛ, "mssql"ₛ, "mariadb"ₛ, "mysql"ₛ, "postgresql"ₛ, "sqlite"ₛ]

/-- What the reader should find for a change set. -/
def readAs (s : LqChangeSet) : ReadSet :=
  ⟨s.id, s.author, if s.preConditions then some ⟨"CONTINUE"ₛ, "CONTINUE"ₛ, guardedProducts⟩ else none, s.changes⟩

/-! ### The documents Liquibase accepts -/

inductive Kind
  | text | flag | number | constraints | columns
  deriving DecidableEq

/-- An attribute: name, kind, and whether it is required. -/
structure Attr where
  name : String
  kind : Kind := .text
  required : Bool := false
  deriving DecidableEq

def must (name : String) (kind : Kind := .text) : Attr := ⟨name, kind, true⟩
def may (name : String) (kind : Kind := .text) : Attr := ⟨name, kind, false⟩

/-- Attributes of `constraints` (those of Liquibase's documentation that can hold a flag). -/
def constraintAttrs : List Attr :=
  [may "nullable" .flag, may "primaryKey" .flag, may "unique" .flag, may "deleteCascade" .flag,
   may "deferrable" .flag, may "initiallyDeferred" .flag, may "primaryKeyName", may "uniqueConstraintName"]

/-- The attributes for default values. -/
def defaultAttrs : List Attr :=
  [may "defaultValue", may "defaultValueBoolean" .flag, may "defaultValueNumeric" .number, may "defaultValueDate"]

/-- Attributes of `column`. -/
def columnAttrs : List Attr :=
  [must "name", must "type", may "autoIncrement" .flag, may "constraints" .constraints, may "remarks",
   may "afterColumn", may "beforeColumn", may "position" .number] ++ defaultAttrs

/-- Attributes of the changes. -/
def changeAttrs : String → Option (List Attr)
  | "createTable" => some [must "tableName", must "columns" .columns, may "remarks", may "tablespace"]
  | "dropTable" => some [must "tableName", may "cascadeConstraints" .flag]
  | "renameTable" => some [must "newTableName", must "oldTableName"]
  | "setTableRemarks" => some [must "tableName", must "remarks"]
  | "addColumn" => some [must "tableName", must "columns" .columns]
  | "dropColumn" => some [must "tableName", may "columnName", may "columns" .columns]
  | "setColumnRemarks" => some [must "tableName", must "columnName", must "remarks", may "columnDataType"]
  | "modifyDataType" => some [must "tableName", must "columnName", must "newDataType"]
  | "renameColumn" => some [must "tableName", must "newColumnName", must "oldColumnName", may "columnDataType", may "remarks"]
  | "addNotNullConstraint" => some [must "tableName", must "columnName", may "columnDataType", may "constraintName",
      may "defaultNullValue"]
  | "dropNotNullConstraint" => some [must "tableName", must "columnName", may "columnDataType", may "constraintName"]
  | "addAutoIncrement" => some [must "tableName", must "columnName", may "columnDataType"]
  | "addDefaultValue" => some ([must "tableName", must "columnName", may "columnDataType"] ++ defaultAttrs)
  | "dropDefaultValue" => some [must "tableName", must "columnName", may "columnDataType"]
  | "addPrimaryKey" => some [must "tableName", must "columnNames", may "constraintName", may "tablespace"]
  | "dropPrimaryKey" => some [must "tableName", may "constraintName"]
  | "addUniqueConstraint" => some [must "tableName", must "columnNames", may "constraintName", may "tablespace"]
  | "dropUniqueConstraint" => some [must "tableName", must "constraintName"]
  | _ => none

/-- A mapping with known attributes of the right kind, no key twice, and all required ones. -/
def Fits (ok : Kind → Yaml → Prop) (attrs : List Attr) (y : Yaml) : Prop :=
  ∃ es, y = .map es ∧ (es.map (·.1)).Nodup ∧ (∀ e ∈ es, ∃ a ∈ attrs, a.name = e.1 ∧ ok a.kind e.2) ∧
    ∀ a ∈ attrs, a.required = true → ∃ e ∈ es, e.1 = a.name

def ScalarOk : Kind → Yaml → Prop
  | .text, .str _ => True
  | .flag, .bool _ => True
  | .number, .int _ => True
  | .number, .float _ => True
  | _, _ => False

def ColumnPartOk : Kind → Yaml → Prop
  | .constraints, y => Fits ScalarOk constraintAttrs y
  | k, y => ScalarOk k y

def ChangePartOk : Kind → Yaml → Prop
  | .columns, y => ∃ l, y = .seq l ∧ ∀ e ∈ l, ∃ c, e = .map [("column", c)] ∧ Fits ColumnPartOk columnAttrs c
  | k, y => ScalarOk k y

def ChangeOk (y : Yaml) : Prop :=
  ∃ k v attrs, y = .map [(k, v)] ∧ changeAttrs k = some attrs ∧ Fits ChangePartOk attrs v

/-- Reactions to a failing precondition. -/
def reactions : List Str := ["HALT"ₛ, "CONTINUE"ₛ, "MARK_RAN"ₛ, "WARN"ₛ]

/-- A change set: `id` and `author` are required. -/
def ChangeSetOk (y : Yaml) : Prop :=
  (∃ s, Yaml.text "id" y = some s) ∧ (∃ s, Yaml.text "author" y = some s) ∧
  (∀ p, Yaml.get "preConditions" y = some p → ∃ g, readGuard p = some g ∧ g.onFail ∈ reactions ∧ g.onError ∈ reactions) ∧
  (∀ c, Yaml.get "changes" y = some c → ∃ l, c = .seq l ∧ ∀ e ∈ l, ChangeOk e)

def quotingStrategies : List Str := ["LEGACY"ₛ, "QUOTE_ALL_OBJECTS"ₛ, "QUOTE_ONLY_RESERVED_WORDS"ₛ]

def EntryOk (y : Yaml) : Prop :=
  (∃ s, y = .map [("objectQuotingStrategy", .str s)] ∧ s ∈ quotingStrategies) ∨
  (∃ s, y = .map [("changeSet", s)] ∧ ChangeSetOk s)

def ChangelogOk (y : Yaml) : Prop := ∃ l, y = .map [("databaseChangeLog", .seq l)] ∧ ∀ e ∈ l, EntryOk e

/-- A change with a `remarks` attribute that Liquibase requires, and no text for it. -/
def emptyRemarks : LqChange → Bool
  | .setTableRemarks _ r => r.isEmpty
  | .setColumnRemarks _ _ r => r.isEmpty
  | _ => false

/-- The table has exactly one column (name) that is unique. -/
def OneUnique (t : Table) : Prop := ∃ n, ∀ m, uqNames t m ↔ m = n

/-- A constraints block says nothing twice: it is not empty, does not mention what is the case anyway
(not a key, not unique, nullable), and a key column is not declared not null in addition. -/
def NoRedundancy (lc : LqColumn) : Prop :=
  ∀ k, lc.constraints = some k → k ≠ {} ∧ k.primaryKey ≠ some false ∧ k.unique ≠ some false ∧
    k.nullable ≠ some true ∧ ¬(k.primaryKey = some true ∧ k.nullable = some false)

end Octo.Spec.LqDoc
