import Verif.Model.Octopus

/-! Model of the importer of package `format/mysql` of /repo (importer.go).  The SQL parser
(github.com/pingcap/parser) is not modelled; the importer works on its syntax tree, of which the parts
read by the importer are modelled here. -/

namespace Octo.MysqlImport

/-- Type codes `mysql.TypeXxx` of the parser. -/
inductive Tp
  | decimal | tiny | short | long | float | double | null | timestamp | longlong | int24 | date
  | duration | datetime | year | newDate | varchar | bit | json | newDecimal | enum | set
  | tinyBlob | mediumBlob | longBlob | blob | string | geometry | other
  deriving DecidableEq, Repr

/-- `types.FieldType` of the parser: type code, lengths (-1 when not given), whether the flag is
exactly `BinaryFlag`, the results of `String()` and `InfoSchemaStr()`, the members. -/
structure FieldType where
  tp : Tp
  flen : Int := -1
  decimal : Int := -1
  binaryFlag : Bool := false
  text : Str := []
  infoSchema : Str := []
  elems : List Str := []
  deriving DecidableEq, Repr

/-- An expression in a column option: a literal (`GetValue()` printed, `none` for NULL), a function
call, or anything else. -/
inductive Expr
  | value (v : Option Str)
  | func (name : Str)
  | other
  deriving DecidableEq, Repr

/-- Column options of the parser. -/
inductive ColOption
  | primaryKey
  | notNull
  | autoIncrement
  | defaultValue (e : Expr)
  | null
  | onUpdate (e : Expr)
  | uniqKey
  | comment (text : Str)
  | other
  deriving DecidableEq, Repr

/-- `ast.ColumnDef`. -/
structure ColumnDef where
  name : Str
  tp : FieldType
  options : List ColOption := []
  deriving DecidableEq, Repr

/-- `ast.ConstraintType`. -/
inductive ConstraintType
  | primaryKey | key | index | uniq | uniqKey | uniqIndex | foreignKey | fulltext | check
  deriving DecidableEq, Repr

/-- `ast.Constraint`; a key without column (an expression key) is `none`. -/
structure Constraint where
  tp : ConstraintType
  name : Str := []
  keys : List (Option Str) := []
  deriving DecidableEq, Repr

/-- A statement: `CREATE TABLE` or anything else. -/
inductive Stmt
  | createTable (name : Str) (cols : List ColumnDef) (constraints : List Constraint)
  | other
  deriving DecidableEq, Repr

/-- The sets collected from the constraints, format/mysql/importer.go 84-118. -/
structure Keys where
  pk : StringSet := StringSet.empty
  uniq : StringSet := StringSet.empty
  indices : List Index := []

/-- The constraint loop, format/mysql/importer.go 88-118; `none` is the nil dereference of
`key.Column` on an expression key. -/
def constraintStep (k : Keys) (c : Constraint) : Option Keys :=
  match c.tp with
  | .primaryKey => (c.keys.mapM id).map fun names => { k with pk := k.pk.addAll names }
  | .index => (c.keys.mapM id).map fun names => { k with indices := k.indices ++ [⟨c.name, names⟩] }
  | .uniq => (c.keys.mapM id).map fun names => { k with uniq := k.uniq.addAll names }
  | _ => some k

/-- `columnType`, format/mysql/importer.go 224-318. -/
def columnType (f : FieldType) : Str × UInt16 × UInt16 :=
  let size : UInt16 := if f.flen > 0 then UInt16.ofNat f.flen.toNat else 0
  let scale : UInt16 := if f.decimal > 0 then UInt16.ofNat f.decimal.toNat else 0
  match f.tp with
  | .decimal => ("decimal"ₛ, size, scale)
  | .tiny => if f.flen = 1 then ("boolean"ₛ, 0, 0) else ("int8"ₛ, size, 0)
  | .short => ("int16"ₛ, size, 0)
  | .long => ("int32"ₛ, size, 0)
  | .float => ("float"ₛ, size, scale)
  | .double => ("double"ₛ, size, scale)
  | .null => (f.infoSchema, size, scale)
  | .timestamp => ("datetime"ₛ, 0, 0)
  | .longlong => ("int64"ₛ, size, 0)
  | .int24 => ("int24"ₛ, size, 0)
  | .date => ("date"ₛ, 0, 0)
  | .duration => ("time"ₛ, 0, 0)
  | .datetime => ("datetime"ₛ, 0, 0)
  | .year => ("year"ₛ, 0, 0)
  | .newDate => ("date"ₛ, 0, 0)
  | .varchar => ("varchar"ₛ, size, 0)
  | .bit => if f.flen = 1 then ("boolean"ₛ, 0, 0) else ("bit"ₛ, size, 0)
  | .json => ("json"ₛ, 0, 0)
  | .newDecimal => ("decimal"ₛ, size, scale)
  | .enum => ("enum"ₛ, 0, 0)
  | .set => ("set"ₛ, 0, 0)
  | .tinyBlob => if containsSub (lower f.text) "tinytext"ₛ then ("text8"ₛ, 0, 0) else ("blob8"ₛ, 0, 0)
  | .mediumBlob => if containsSub (lower f.text) "mediumtext"ₛ then ("text24"ₛ, 0, 0) else ("blob24"ₛ, 0, 0)
  | .longBlob => if containsSub (lower f.text) "longtext"ₛ then ("text32"ₛ, 0, 0) else ("blob32"ₛ, 0, 0)
  | .blob => if containsSub (lower f.text) "text"ₛ then ("text16"ₛ, 0, 0) else ("blob16"ₛ, 0, 0)
  | .string => if f.binaryFlag then ("binary"ₛ, size, 0) else ("char"ₛ, size, 0)
  | .geometry => ("geometry"ₛ, 0, 0)
  | .other => (f.infoSchema, size, scale)

/-- `columnValues`, format/mysql/importer.go 214-222. -/
def columnValues (colType : Str) (f : FieldType) : List Str :=
  if colType = "enum"ₛ then f.elems else if colType = "set"ₛ then f.elems else []

/-- One option of a column, format/mysql/importer.go 160-210.  `UNIQUE` is not among the cases. -/
def optionStep (c : Column) : ColOption → Column
  | .primaryKey => { c with primaryKey := true, notNull := true }
  | .notNull => { c with notNull := true }
  | .autoIncrement => { c with autoIncremental := true, notNull := true }
  | .defaultValue (.value v) => c.setDefaultValue v
  | .defaultValue (.func f) => c.setDefaultValueFn f
  | .defaultValue .other => c
  | .null => { c with notNull := false }
  | .onUpdate (.value v) => c.setOnUpdate v
  | .onUpdate (.func f) => c.setOnUpdateFn f
  | .onUpdate .other => c
  | .uniqKey => c
  | .comment text => { c with description := text }
  | .other => c

/-- `column`, format/mysql/importer.go 142-212. -/
def column (k : Keys) (d : ColumnDef) : Column :=
  let (colType, size, scale) := columnType d.tp
  d.options.foldl optionStep
    { name := d.name, type := colType, size := size, scale := scale
      primaryKey := k.pk.contains d.name, uniqueKey := k.uniq.contains d.name, notNull := false
      values := columnValues colType d.tp }

/-- `Enter`, format/mysql/importer.go 77-136: the tables after one statement; `none` is a panic. -/
def enter (excludes : StringSet) (tables : List Table) : Stmt → Option (List Table)
  | .createTable name cols constraints =>
    if excludes.contains name then some tables
    else (constraints.foldlM constraintStep {}).map fun k =>
      tables ++ [{ name := name, columns := cols.map (column k), indices := k.indices }]
  | .other => some tables

/-- `ImportSql`, format/mysql/importer.go 43-69, after parsing. -/
def importSql (excludes : List Str) (author version : Str) (stmts : List Stmt) : Option Schema :=
  (stmts.foldlM (enter (StringSet.ofList excludes)) []).map fun tables =>
    { author := author, tables := tables, version := version }

end Octo.MysqlImport
