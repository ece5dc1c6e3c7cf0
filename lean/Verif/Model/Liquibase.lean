import Verif.Model.Diff

/-! Model of package `format/liquibase` of /repo: generator.go and diff.go.

The result is the document before `yaml.Marshal` (the YAML text is not modelled): the list of change
sets.  `omitempty` fields are left out of the text when they have their zero value, which is how they
are represented here (`[]`, `none`).  Every document starts with the property
`objectQuotingStrategy: QUOTE_ALL_OBJECTS` (generator.go 18-22), which is left out of the model. -/

namespace Octo.Lq

/-! ## generator.go: data -/

/-- The dynamic value of `DefaultValueNumeric`, generator.go 405: an `int` or a `float64` (by its
text). -/
inductive Num
  | int (n : Int)
  | float (text : Str)
  deriving DecidableEq, Repr

/-- `LqDefaultValue`, generator.go 401-406. -/
structure DefaultValue where
  text : Str := []
  boolean : Option Bool := none
  numeric : Option Num := none
  date : Str := []
  deriving DecidableEq, Repr

/-- `LqConstraints`, generator.go 495-499. -/
structure Constraints where
  primaryKey : Option Bool := none
  nullable : Option Bool := none
  unique : Option Bool := none
  deriving DecidableEq, Repr

/-- `LqColumn`, generator.go 438-449 (the four default value fields as one). -/
structure LqColumn where
  name : Str
  type : Str
  autoIncrement : Option Bool := none
  constraints : Option Constraints := none
  remarks : Str := []
  default : DefaultValue := {}
  afterColumn : Str := []
  deriving DecidableEq, Repr

/-- The changes: `LqCreateTable` ... `LqDropUniqueConstraint`, generator.go 138-395.  (The keys under
which they are appended, e.g. generator.go 54-68 and diff.go 109, are the constructor names.) -/
inductive LqChange
  | createTable (tableName remarks : Str) (columns : List LqColumn)
  | dropTable (tableName : Str)
  | renameTable (newTableName oldTableName : Str)
  | setTableRemarks (tableName remarks : Str)
  | addColumn (tableName : Str) (columns : List LqColumn)
  | dropColumn (tableName columnName : Str)
  | setColumnRemarks (tableName columnName remarks : Str)
  | modifyDataType (tableName columnName newDataType : Str)
  | renameColumn (tableName newColumnName oldColumnName columnDataType : Str)
  | addNotNullConstraint (tableName columnName columnDataType defaultNullValue : Str)
  | dropNotNullConstraint (tableName columnName columnDataType : Str)
  | addAutoIncrement (tableName columnName columnDataType : Str)
  | addDefaultValue (tableName columnName columnDataType : Str) (value : DefaultValue)
  | dropDefaultValue (tableName columnName columnDataType : Str)
  | addPrimaryKey (tableName columnNames : Str)
  | dropPrimaryKey (tableName : Str)
  | addUniqueConstraint (tableName columnNames constraintName : Str)
  | dropUniqueConstraint (tableName constraintName : Str)
  deriving DecidableEq, Repr

/-- `LqChangeSet`, generator.go 34-39.  The only preconditions ever set are those of lines 119-127 (on
failure or error continue; only for the listed databases); the flag says whether they are set. -/
structure LqChangeSet where
  id : Str
  author : Str
  preConditions : Bool := false
  changes : List LqChange
  deriving DecidableEq, Repr

/-- `LqId`, generator.go 621-655: the fields and methods are those of `ChangeSetID`
(format/diff/changeset.go 9-42), whose model is used: `newLqId` 626-631, `bumpMajor` 633-636,
`revertMajor` 638-641, `bumpMinor` 643-646, `version` 648-654. -/
abbrev LqId := ChangeSetID

/-! ## generator.go: functions -/

/-- The switch of `getLiquibaseType`, generator.go 561-608. -/
def lqTypeName (type : Str) : Str :=
  let t := lower type
  if t = "char"ₛ then "char"ₛ
  else if t = "varchar"ₛ then "varchar"ₛ
  else if t = "text8"ₛ then "clob"ₛ
  else if t = "text16"ₛ then "clob"ₛ
  else if t = "text24"ₛ then "clob"ₛ
  else if t = "text32"ₛ then "clob"ₛ
  else if t = "boolean"ₛ then "boolean"ₛ
  else if t = "int8"ₛ then "tinyint"ₛ
  else if t = "int16"ₛ then "smallint"ₛ
  else if t = "int24"ₛ then "mediumint"ₛ
  else if t = "int32"ₛ then "int"ₛ
  else if t = "int64"ₛ then "bigint"ₛ
  else if t = "decimal"ₛ then "decimal"ₛ
  else if t = "float"ₛ then "float"ₛ
  else if t = "double"ₛ then "double"ₛ
  else if t = "datetime"ₛ then "datetime"ₛ
  else if t = "date"ₛ then "date"ₛ
  else if t = "time"ₛ then "time"ₛ
  else if t = "blob8"ₛ then "blob"ₛ
  else if t = "blob16"ₛ then "blob"ₛ
  else if t = "blob24"ₛ then "blob"ₛ
  else if t = "blob32"ₛ then "blob"ₛ
  else type

/-- `getLiquibaseType`, generator.go 560-619. -/
def getLiquibaseType (c : Column) : Str :=
  if c.size > 0 then
    if c.scale > 0 then
      lqTypeName c.type ++ "("ₛ ++ itoa c.size.toNat ++ ","ₛ ++ itoa c.scale.toNat ++ ")"ₛ
    else lqTypeName c.type ++ "("ₛ ++ itoa c.size.toNat ++ ")"ₛ
  else lqTypeName c.type

/-- `strconv.Atoi` (64 bit): an optional sign and decimal digits within the range of int64. -/
def atoi (s : Str) : Option Int :=
  let neg := hasPrefix s "-"ₛ
  let ds := if neg || hasPrefix s "+"ₛ then s.drop 1 else s
  if ds.isEmpty || !ds.all isDigit then none
  else if neg then
    if digitsVal ds ≤ 2 ^ 63 then some (-(digitsVal ds : Int)) else none
  else if digitsVal ds < 2 ^ 63 then some (digitsVal ds : Int) else none

/-- `newLqDefaultValue`, generator.go 408-436; `none` is the error result.  `pf` stands for
`strconv.ParseFloat(_, 64)` followed by printing the number; nothing is assumed about it. -/
def newLqDefaultValue (pf : Str → Option Str) (c : Column) : Option DefaultValue :=
  if isStringType c.type then some { text := c.defaultValue }
  else if isBooleanType c.type then some { boolean := some (c.defaultValue == "true"ₛ) }
  else if isNumericType c.type then
    if isIntType c.type then (atoi c.defaultValue).map fun n => { numeric := some (.int n) }
    else (pf c.defaultValue).map fun x => { numeric := some (.float x) }
  else if isDateType c.type then some { date := c.defaultValue }
  else some { text := c.defaultValue }

/-- The constraints part of `newLqColumn`, generator.go 463-479. -/
def newConstraints (c : Column) (createSeparatePK createSeparateUq : Bool) : Option Constraints :=
  let pk := c.primaryKey && !createSeparatePK
  let nn := !pk && c.notNull
  let uq := c.uniqueKey && !createSeparateUq
  if pk || nn || uq then
    some { primaryKey := if pk then some true else none
           nullable := if nn then some false else none
           unique := if uq then some true else none }
  else none

/-- `newLqColumn`, generator.go 451-493. -/
def newLqColumn (pf : Str → Option Str) (c : Column) (createSeparatePK createSeparateUq : Bool) :
    Option LqColumn :=
  let lc : LqColumn :=
    { name := c.name
      type := getLiquibaseType c
      remarks := c.description
      autoIncrement := if c.autoIncremental then some true else none
      constraints := newConstraints c createSeparatePK createSeparateUq }
  if c.defaultValue ≠ [] then (newLqDefaultValue pf c).map fun dv => { lc with default := dv }
  else some lc

/-- `if !useComments { lc.Remarks = "" }`, generator.go 94-96 and 196-198. -/
def stripRemarks (uc : Bool) (lc : LqColumn) : LqColumn := if uc then lc else { lc with remarks := [] }

/-- The inner loop of `newAddColumn`, generator.go 187-193: the name of the last column before `col`.
The loop compares pointers; the model compares the columns, which is the same when no two columns of
the table are equal. -/
def lastColName (col : Column) : List Column → Str → Str
  | [], last => last
  | c :: cs, last => if c = col then last else lastColName col cs c.name

/-- One round of the loop of `newAddColumn`, generator.go 183-202. -/
def newAddedColumn (pf : Str → Option Str) (table : Table) (uc : Bool) (col : Column) : Option LqColumn :=
  (newLqColumn pf col true true).map fun lc =>
    { stripRemarks uc lc with afterColumn := lastColName col table.columns [] }

/-- `newAddColumn`, generator.go 181-207. -/
def newAddColumn (pf : Str → Option Str) (table : Table) (columns : List Column) (uc : Bool) :
    Option LqChange :=
  (columns.mapM (newAddedColumn pf table uc)).map fun lcs => .addColumn table.name lcs

/-- `newAddDefaultValue`, generator.go 319-333. -/
def newAddDefaultValue (pf : Str → Option Str) (table : Table) (c : Column) : Option LqChange :=
  (newLqDefaultValue pf c).map fun dv => .addDefaultValue table.name c.name (getLiquibaseType c) dv

/-- The id counter and the change sets collected so far. -/
structure LqState where
  id : LqId
  out : List LqChangeSet

/-- The recurring pattern `changeSet := newLqChangeSet(id.bumpMinor(), author)`,
`changeSet.Append(...)`, `changeSets = append(changeSets, changeSet)`. -/
def emit (author : Str) (changes : List LqChange) (s : LqState) : LqState :=
  ⟨s.id.bumpMinor, s.out ++ [{ id := s.id.bumpMinor.version, author := author, changes := changes }]⟩

/-- The same with the preconditions of generator.go 119-127 when `pre`. -/
def emitPre (author : Str) (pre : Bool) (changes : List LqChange) (s : LqState) : LqState :=
  ⟨s.id.bumpMinor, s.out ++ [{ id := s.id.bumpMinor.version, author := author, preConditions := pre,
                               changes := changes }]⟩

/-- Runs `emit` under a condition. -/
def emitIf (cond : Bool) (author : Str) (changes : List LqChange) (s : LqState) : LqState :=
  if cond then emit author changes s else s

/-- `newCreateTableChangeSet`, generator.go 70-132; the change sets go directly to the caller's list. -/
def createTableSets (pf : Str → Option Str) (author : Str) (table : Table) (suffix : Str) (uc : Bool)
    (s : LqState) : Option LqState :=
  let uniqueNameSet := table.uniqueKeyNameSet
  let primaryKeySet := table.primaryKeyNameSet
  let pkCount := primaryKeySet.size
  let uniqueCount := uniqueNameSet.size
  (table.columns.mapM fun c =>
      (newLqColumn pf c (decide (pkCount > 1)) (decide (uniqueCount > 1))).map (stripRemarks uc)).map
    fun lcs =>
      let s := emit author [.createTable table.name table.description lcs] s
      let s := emitIf (decide (pkCount ≥ 2)) author
        [.addPrimaryKey table.name (primaryKeySet.joinKeys ", "ₛ)] s
      if uniqueCount ≥ 1 then
        emitPre author (decide (uniqueCount = 1))
          [.addUniqueConstraint table.name (uniqueNameSet.joinKeys ", "ₛ) (table.name ++ suffix)] s
      else s

/-- `Option`, generator.go 501-505. -/
structure GenOption where
  tableFilter : Option (Table → Bool) := none
  uniqueNameSuffix : Str := []
  useComments : Bool := false

/-- One round of the loop of `generateAll`, generator.go 539-555. -/
def genStep (pf : Str → Option Str) (opt : GenOption) (author : Str) (s : LqState) (table : Table) :
    Option LqState :=
  if !passes opt.tableFilter table then some s
  else createTableSets pf author table opt.uniqueNameSuffix opt.useComments ⟨s.id.bumpMajor, s.out⟩

/-- `generateAll`, generator.go 531-558: the change sets, `none` on error. -/
def generateAll (pf : Str → Option Str) (opt : GenOption) (schema : Schema) : Option (List LqChangeSet) :=
  (schema.tables.foldlM (genStep pf opt schema.author) ⟨{}, []⟩).map (·.out)

/-! ## diff.go -/

/-- `diffColumn`, diff.go 305-369; the change sets go directly to the caller's list (lines 204-206).
Removing auto-increment is only logged (lines 345-346). -/
def diffColumn (pf : Str → Option Str) (author : Str) (table : Table) (column oldColumn : Column) (uc : Bool)
    (s : LqState) : Option LqState :=
  let type := getLiquibaseType column
  let s := emitIf (column.name != oldColumn.name) author
    [.renameColumn table.name column.name oldColumn.name type] s
  let s := emitIf (column.type != oldColumn.type || column.size != oldColumn.size ||
    column.scale != oldColumn.scale) author [.modifyDataType table.name column.name type] s
  let s := emitIf (uc && column.description != oldColumn.description) author
    [.setColumnRemarks table.name column.name column.description] s
  let s := emitIf (column.notNull != oldColumn.notNull) author
    [if column.notNull then .addNotNullConstraint table.name column.name type column.defaultValue
     else .dropNotNullConstraint table.name column.name type] s
  let s := emitIf (column.autoIncremental != oldColumn.autoIncremental && column.autoIncremental) author
    [.addAutoIncrement table.name column.name type] s
  if column.defaultValue != oldColumn.defaultValue then
    if column.defaultValue = [] then
      some (emit author [.dropDefaultValue table.name column.name type] s)
    else (newAddDefaultValue pf table column).map fun change => emit author [change] s
  else some s

/-- State of the column loop, diff.go 182-208. -/
structure ColLoop where
  st : LqState
  added : List Column
  removed : StringSet

/-- One round of the column loop, diff.go 191-208. -/
def colStep (pf : Str → Option Str) (author : Str) (table oldTable : Table) (uc : Bool) (l : ColLoop)
    (column : Column) : Option ColLoop :=
  match oldTable.columnNameMap column.name with
  | none => some { l with added := l.added ++ [column] }
  | some oldColumn =>
    (diffColumn pf author table column oldColumn uc l.st).map fun st =>
      { st := st, added := l.added, removed := l.removed.remove column.name }

/-- The column loop, diff.go 182-208. -/
def colLoop (pf : Str → Option Str) (author : Str) (table oldTable : Table) (uc : Bool) (st : LqState) :
    Option ColLoop :=
  table.columns.foldlM (colStep pf author table oldTable uc)
    { st := st, added := [], removed := StringSet.ofList (oldTable.columns.map (·.name)) }

/-- One round of the loop over renamed columns, diff.go 244-255. -/
def renameColStep (author : Str) (table : Table) (s : LqState) (p : Column × Column) : LqState :=
  let s := emit author [.renameColumn table.name p.1.name p.2.name (getLiquibaseType p.1)] s
  emitIf p.2.notNull author
    [.addNotNullConstraint table.name p.1.name (getLiquibaseType p.1) p.1.defaultValue] s

/-- The part of `diffTable` after the column loop and the search for renamed columns, diff.go
223-302. -/
def diffTableRest (pf : Str → Option Str) (sched : List (Column × Column) → List (Column × Column))
    (author : Str) (table oldTable : Table) (uc : Bool) (suffix : Str)
    (r : List (Column × Option Column) × StringSet) (s : LqState) : Option LqState :=
  let uqSet := table.uniqueKeyNameSet
  let oldUqSet := oldTable.uniqueKeyNameSet
  let uniqueChanged := !uqSet.equals oldUqSet
  let uniqueConstraintName := table.name ++ suffix
  let s := emitIf uniqueChanged author [.dropUniqueConstraint table.name uniqueConstraintName] s
  let s := r.2.slice.foldl (fun s n => emit author [.dropColumn table.name n] s) s
  let s := (sched (renamedPairs r.1)).foldl (renameColStep author table) s
  let finalAdded := notRenamed r.1
  (if finalAdded.length > 0 then
      (newAddColumn pf table finalAdded uc).map fun change => emit author [change] s
    else some s).map fun s =>
      let pkSet := table.primaryKeyNameSet
      let oldPkSet := oldTable.primaryKeyNameSet
      let s := emitIf (!pkSet.equals oldPkSet) author
        ((if oldPkSet.size > 0 then [.dropPrimaryKey table.name] else []) ++
         (if pkSet.size > 0 then [.addPrimaryKey table.name (pkSet.joinKeys ", "ₛ)] else [])) s
      emitIf uniqueChanged author
        (if uqSet.size > 0 then
          [.addUniqueConstraint table.name (uqSet.joinKeys ", "ₛ) uniqueConstraintName] else []) s

/-- `diffTable`, diff.go 165-303. -/
def diffTable (pf : Str → Option Str) (sched : List (Column × Column) → List (Column × Column))
    (author : Str) (table oldTable : Table) (uc : Bool) (suffix : Str) (id : LqId) : Option LqState :=
  let s := emitIf (uc && table.description != oldTable.description) author
    [.setTableRemarks table.name table.description] ⟨id, []⟩
  match colLoop pf author table oldTable uc s with
  | none => none
  | some l =>
    diffTableRest pf sched author table oldTable uc suffix
      (findRenames oldTable.columnNameMap (fun a b => a.isRenamed b (!uc)) l.added l.removed) l.st

/-- State of the table loop, diff.go 53-88. -/
structure TabLoop where
  st : LqState
  added : List Table
  removed : StringSet

/-- One round of the table loop, diff.go 61-88; the second component of the element is its position. -/
def tabStep (pf : Str → Option Str) (opt : DiffOption) (sched : Sched) (author : Str) (l : TabLoop)
    (e : Table × Nat) : Option TabLoop :=
  let table := e.1
  if !passes opt.tableFilter table then some l
  else
    let removed := l.removed.remove table.name
    match opt.diffFrom.tablesByName table.name with
    | none => some { l with added := l.added ++ [table], removed := removed }
    | some oldTable =>
      (diffTable pf (sched.columns e.2) author table oldTable opt.useComments opt.uniqueNameSuffix
        l.st.id.bumpMajor).map fun d =>
          { l with
            st := if d.out.length > 0 then ⟨d.id, l.st.out ++ d.out⟩ else ⟨d.id.revertMajor, l.st.out⟩
            removed := removed }

/-- One drop of the loop over removed tables, diff.go 104-111. -/
def dropStep (author : Str) (s : LqState) (name : Str) : LqState :=
  let id := s.id.bumpMajor
  ⟨id, s.out ++ [{ id := id.version, author := author, changes := [.dropTable name] }]⟩

/-- One rename of the loop over the rename map, diff.go 114-141. -/
def renameStep (author suffix : Str) (s : LqState) (p : Table × Table) : LqState :=
  let newTable := p.1
  let oldTable := p.2
  let id := s.id.bumpMajor
  let s : LqState := ⟨id, if oldTable.uniqueKeyNameSet.size > 0 then
      s.out ++ [{ id := id.version, author := author
                  changes := [.dropUniqueConstraint oldTable.name (oldTable.name ++ suffix)] }] else s.out⟩
  let s := emit author [.renameTable newTable.name oldTable.name] s
  let newUqSet := newTable.uniqueKeyNameSet
  emitIf (decide (newUqSet.size > 0)) author
    [.addUniqueConstraint newTable.name (newUqSet.joinKeys ", "ₛ) (newTable.name ++ suffix)] s

/-- `generate`, diff.go 43-163: the change sets, `none` on error.  (`DiffOption`, diff.go 12-19, has the
fields of `Option` of format/diff/diff.go, whose model is used.) -/
def generate (pf : Str → Option Str) (opt : DiffOption) (sched : Sched) : Option (List LqChangeSet) :=
  let author := if opt.author ≠ [] then opt.author else opt.diffTo.author
  match opt.diffTo.tables.zipIdx.foldlM (tabStep pf opt sched author)
    { st := ⟨{}, []⟩, added := [], removed := StringSet.ofList (opt.diffFrom.tables.map (·.name)) } with
  | none => none
  | some l =>
    let r := findRenames opt.diffFrom.tablesByName (fun a b => a.columns == b.columns) l.added l.removed
    let s := r.2.slice.foldl (dropStep author) l.st
    let s := (sched.tables (renamedPairs r.1)).foldl (renameStep author opt.uniqueNameSuffix) s
    ((notRenamed r.1).foldlM (fun s t => createTableSets pf author t opt.uniqueNameSuffix opt.useComments
      ⟨s.id.bumpMajor, s.out⟩) s).map (·.out)

end Octo.Lq
