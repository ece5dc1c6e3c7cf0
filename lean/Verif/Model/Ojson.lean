import Verif.Model.Json

/-! Model of package `ojson`, the importer of version 1 documents: format/ojson/column.go, table.go and
importer.go. -/

namespace Octo.Ojson

/-- `Reference`, format/ojson/column.go 9-12. -/
structure Reference where
  table : Str
  column : Str
  deriving DecidableEq, Repr

/-- `Column`, format/ojson/column.go 14-26. -/
structure Column where
  name : Str := []
  type : Str := []
  description : Str := []
  size : UInt16 := 0
  scale : UInt16 := 0
  notNull : Bool := false
  primaryKey : Bool := false
  uniqueKey : Bool := false
  autoIncremental : Bool := false
  defaultValue : Str := []
  ref : Option Reference := none
  deriving DecidableEq, Repr, Inhabited

/-- `Table`, format/ojson/table.go 12-18. -/
structure Table where
  name : Str := []
  columns : List Column := []
  description : Str := []
  group : Str := []
  className : Str := []
  deriving DecidableEq, Repr, Inhabited

/-- `Schema`, format/ojson/table.go 71-76. -/
structure Schema where
  author : Str := []
  name : Str := []
  version : Str := []
  tables : List Table := []
  deriving DecidableEq, Repr

/-! ### Reading and writing documents -/

open Json in
/-- Struct tags of `Reference`. -/
def toReference : Json → Option Reference
  | .obj l => do
    let table ← toStr (field l "table")
    let column ← toStr (field l "column")
    return ⟨table, column⟩
  | _ => none

open Json in
/-- Struct tags of `Column`: the description is called `description`, unlike in version 2. -/
def toColumn : Json → Option Column
  | .obj l => do
    let name ← toStr (field l "name")
    let type ← toStr (field l "type")
    let description ← toStr (field l "description")
    let size ← toNum (field l "size")
    let scale ← toNum (field l "scale")
    let notNull ← toBool (field l "notnull")
    let primaryKey ← toBool (field l "pk")
    let uniqueKey ← toBool (field l "unique")
    let autoIncremental ← toBool (field l "autoinc")
    let defaultValue ← toStr (field l "default")
    let ref ← toPtr toReference (field l "ref")
    return { name, type, description, size, scale, notNull, primaryKey, uniqueKey, autoIncremental, defaultValue, ref }
  | _ => none

open Json in
/-- Struct tags of `Table`. -/
def toTable : Json → Option Table
  | .obj l => do
    let name ← toStr (field l "name")
    let columns ← toList toColumn (field l "columns")
    let description ← toStr (field l "desc")
    let group ← toStr (field l "group")
    let className ← toStr (field l "className")
    return { name, columns, description, group, className }
  | _ => none

open Json in
/-- `FromJson`, format/ojson/table.go 134-136, on the value of the document. -/
def toSchema : Json → Option Schema
  | .null => some {}
  | .obj l => do
    let author ← toStr (field l "author")
    let name ← toStr (field l "name")
    let version ← toStr (field l "version")
    let tables ← toList toTable (field l "tables")
    return { author, name, version, tables }
  | _ => none

open Json in
/-- `Reference` as written by `encoding/json`. -/
def ofReference (r : Reference) : Json := .obj (members [("table", optStr r.table), ("column", optStr r.column)])

open Json in
/-- `Column` as written by `encoding/json`. -/
def ofColumn (c : Column) : Json :=
  .obj (members [("name", some (.str c.name)), ("type", some (.str c.type)), ("description", optStr c.description),
    ("size", optNum c.size), ("scale", optNum c.scale), ("notnull", optBool c.notNull), ("pk", optBool c.primaryKey),
    ("unique", optBool c.uniqueKey), ("autoinc", optBool c.autoIncremental), ("default", optStr c.defaultValue),
    ("ref", c.ref.map ofReference)])

open Json in
/-- `Table` as written by `encoding/json`. -/
def ofTable (t : Table) : Json :=
  .obj (members [("name", optStr t.name), ("columns", optArr (t.columns.map ofColumn)), ("desc", optStr t.description),
    ("group", optStr t.group), ("className", optStr t.className)])

open Json in
/-- `Schema` as written by `encoding/json`. -/
def ofSchema (s : Schema) : Json :=
  .obj (members [("author", optStr s.author), ("name", optStr s.name), ("version", optStr s.version),
    ("tables", optArr (s.tables.map ofTable))])

/-! ### Normalisation -/

/-- `normalizeColumnType`, format/ojson/table.go 160-198; `none` when the type is unknown. -/
def normalizeColumnType (type : Str) : Option Str :=
  let t := lower type
  if t = "string"ₛ ∨ t = "varchar"ₛ ∨ t = "char"ₛ then some "string"ₛ
  else if t = "int"ₛ ∨ t = "integer"ₛ ∨ t = "smallint"ₛ then some "int"ₛ
  else if t = "bigint"ₛ ∨ t = "long"ₛ then some "long"ₛ
  else if t = "datetime"ₛ then some "datetime"ₛ
  else if t = "bool"ₛ ∨ t = "boolean"ₛ then some "boolean"ₛ
  else if t = "number"ₛ ∨ t = "double"ₛ ∨ t = "decimal"ₛ then some "decimal"ₛ
  else if t = "float"ₛ then some "float"ₛ
  else if t = "text"ₛ then some "text"ₛ
  else if t = "date"ₛ then some "date"ₛ
  else if t = "time"ₛ then some "time"ₛ
  else if t = "blob"ₛ then some "blob"ₛ
  else none

/-- `Validate(true)`, format/ojson/column.go 40-55; `none` is an error. -/
def Column.validate (c : Column) : Option Column :=
  if c.name = [] then none
  else if c.autoIncremental ∧ c.type ≠ "int"ₛ ∧ c.type ≠ "long"ₛ then some { c with autoIncremental := false }
  else some c

/-- The loop body of `Normalize`, format/ojson/table.go 144-154; `none` is a panic. -/
def Column.normalize (c : Column) : Option Column :=
  match normalizeColumnType c.type with
  | some t => ({ c with type := t } : Column).validate
  | none => some c

/-- The inner loop of `Normalize`, format/ojson/table.go 142-156. -/
def Table.normalize (t : Table) : Option Table :=
  match t.columns.mapM Column.normalize with
  | some cs => some { t with columns := cs }
  | none => none

/-- `TableSlice.Less`, format/ojson/table.go 59-67. -/
def less (a b : Table) : Bool :=
  if strLt a.group b.group then true
  else if a.group = b.group then strLt a.name b.name
  else false

/-- `Normalize`, format/ojson/table.go 139-157; `sorter` stands for `sort.Sort`. -/
def Schema.normalize (sorter : List Table → List Table) (s : Schema) : Option Schema :=
  match (sorter s.tables).mapM Table.normalize with
  | some ts => some { s with tables := ts }
  | none => none

/-! ### importer.go -/

/-- `fromOjsonColumn`, format/ojson/importer.go 67-88: line 85 stores the description as default value. -/
def fromColumn (c : Column) : Octo.Column :=
  { name := c.name, type := c.type, description := c.description, size := c.size, scale := c.scale
    notNull := c.notNull, primaryKey := c.primaryKey, uniqueKey := c.uniqueKey, autoIncremental := c.autoIncremental
    defaultValue := c.description
    ref := c.ref.map fun r => ⟨r.table, r.column, []⟩ }

/-- `fromOjsonTable`, format/ojson/importer.go 53-65. -/
def fromTable (t : Table) : Octo.Table :=
  { name := t.name, columns := t.columns.map fromColumn, description := t.description, group := t.group }

/-- The result of an import. -/
inductive Outcome
  | ok (s : Octo.Schema)
  | error
  | panic
  deriving DecidableEq, Repr

/-- `ImportJSON`, format/ojson/importer.go 32-51, on the value of the document (`none`: not a JSON text). -/
def importJSON (sorter : List Table → List Table) (doc : Option Json) : Outcome :=
  match doc.bind toSchema with
  | none => .error
  | some s => match s.normalize sorter with
    | none => .panic
    | some s => .ok { author := s.author, name := s.name, version := s.version, tables := s.tables.map fromTable }

end Octo.Ojson
