import Verif.Model.Util

/-! Model of package `format/octopus` of /repo: the schema and its normalisation. -/

namespace Octo

/-! ## column.go -/

/-- `Reference`, format/octopus/column.go 17-21. -/
structure Reference where
  table : Str
  column : Str
  relationship : Str
  deriving DecidableEq, Repr

/-- `Column`, format/octopus/column.go 23-37.  A nil and an empty `Values` slice are identified. -/
structure Column where
  name : Str := []
  type : Str := []
  description : Str := []
  size : UInt16 := 0
  scale : UInt16 := 0
  notNull : Bool := false
  primaryKey : Bool := false
  uniqueKey : Bool := false
  autoIncremental : Bool := false
  defaultValue : Str := []
  onUpdate : Str := []
  values : List Str := []
  ref : Option Reference := none
  deriving DecidableEq, Repr

/-- `RefManyToOne`, `RefOneToOne`, `RefOneToMany`, format/octopus/column.go 12-14. -/
def refManyToOne : Str := "n:1"ₛ
@[inherit_doc refManyToOne] def refOneToOne : Str := "1:1"ₛ
@[inherit_doc refManyToOne] def refOneToMany : Str := "1:n"ₛ

/-- `FnPrefix`, format/octopus/column.go 10. -/
def fnPrefix : Str := "fn::"ₛ

/-- `toNormalizedType`, format/octopus/column.go 43-85. -/
def toNormalizedType (t : Str) : Str :=
  if t = "string"ₛ then "varchar"ₛ
  else if t = "tinyint"ₛ then "int8"ₛ
  else if t = "smallint"ₛ then "int16"ₛ
  else if t = "mediumint"ₛ then "int24"ₛ
  else if t = "int"ₛ then "int32"ₛ
  else if t = "integer"ₛ then "int32"ₛ
  else if t = "bigint"ₛ then "int64"ₛ
  else if t = "long"ₛ then "int64"ₛ
  else if t = "numeric"ₛ then "decimal"ₛ
  else if t = "real"ₛ then "double"ₛ
  else if t = "timestamp"ₛ then "datetime"ₛ
  else if t = "tinyblob"ₛ then "blob8"ₛ
  else if t = "blob"ₛ then "blob16"ₛ
  else if t = "mediumblob"ₛ then "blob24"ₛ
  else if t = "longblob"ₛ then "blob32"ₛ
  else if t = "tinytext"ₛ then "text8"ₛ
  else if t = "text"ₛ then "text16"ₛ
  else if t = "mediumtext"ₛ then "text24"ₛ
  else if t = "longtext"ₛ then "text32"ₛ
  else t

/-- `NormalizeType`, format/octopus/column.go 39-41. -/
def Column.normalizeType (c : Column) : Column := { c with type := toNormalizedType (lower c.type) }

/-- `IsRenamed`, format/octopus/column.go 87-98. -/
def Column.isRenamed (c target : Column) (excludeDescription : Bool) : Bool :=
  c.type == target.type &&
  (excludeDescription || c.description == target.description) &&
  c.size == target.size &&
  c.scale == target.scale &&
  c.notNull == target.notNull &&
  c.primaryKey == target.primaryKey &&
  c.uniqueKey == target.uniqueKey &&
  c.autoIncremental == target.autoIncremental &&
  c.defaultValue == target.defaultValue &&
  c.onUpdate == target.onUpdate

/-! ## types.go -/

/-- `colTypeSet`, format/octopus/types.go 42-74. -/
def colTypes : List Str :=
  ["binary"ₛ, "bit"ₛ, "blob16"ₛ, "blob24"ₛ, "blob32"ₛ, "blob8"ₛ, "boolean"ₛ, "char"ₛ, "date"ₛ,
   "datetime"ₛ, "decimal"ₛ, "double"ₛ, "enum"ₛ, "float"ₛ, "geometry"ₛ, "int16"ₛ, "int24"ₛ,
   "int32"ₛ, "int64"ₛ, "int8"ₛ, "json"ₛ, "point"ₛ, "set"ₛ, "text16"ₛ, "text24"ₛ, "text32"ₛ,
   "text8"ₛ, "time"ₛ, "varbinary"ₛ, "varchar"ₛ, "year"ₛ]

/-- `containsColType`, format/octopus/types.go 76-84. -/
def containsColType (colType : Str) (l : List Str) : Bool := l.any (fun t => lower colType == t)

/-- `IsValidColType`, format/octopus/types.go 86-88. -/
def isValidColType (colType : Str) : Bool := (StringSet.ofList colTypes).contains colType

/-- `IsColTypeNumeric`, format/octopus/types.go 91-103. -/
def isColTypeNumeric (t : Str) : Bool :=
  containsColType t ["decimal"ₛ, "double"ₛ, "float"ₛ, "int16"ₛ, "int24"ₛ, "int32"ₛ, "int64"ₛ, "int8"ₛ]

/-- `IsColTypeAutoIncremental`, format/octopus/types.go 106-115. -/
def isColTypeAutoIncremental (t : Str) : Bool :=
  containsColType t ["int16"ₛ, "int24"ₛ, "int32"ₛ, "int64"ₛ, "int8"ₛ]

/-- `IsColTypeClob`, format/octopus/types.go 118-126. -/
def isColTypeClob (t : Str) : Bool := containsColType t ["text8"ₛ, "text16"ₛ, "text24"ₛ, "text32"ₛ]

/-- `IsColTypeDecimal`, format/octopus/types.go 129-136. -/
def isColTypeDecimal (t : Str) : Bool := containsColType t ["float"ₛ, "double"ₛ, "decimal"ₛ]

/-- `IsColTypeString`, format/octopus/types.go 139-149. -/
def isColTypeString (t : Str) : Bool :=
  containsColType t ["text8"ₛ, "text16"ₛ, "text24"ₛ, "text32"ₛ, "char"ₛ, "varchar"ₛ]

/-- The error types of format/octopus/errors.go 5-36 (without message text and column pointer). -/
inductive ColErr
  | emptyName
  | invalidAutoIncremental
  | invalidValues
  | invalidType
  deriving DecidableEq, Repr

/-- `Validate`, format/octopus/column.go 100-134.  The method mutates the column (line 108) even
when it later returns an error, so the model returns the column together with the error. -/
def Column.validate (autoCorrect : Bool) (c : Column) : Column × Option ColErr :=
  if c.name = [] then (c, some .emptyName)
  else
    let bad := c.autoIncremental && !isColTypeAutoIncremental c.type
    if bad && !autoCorrect then (c, some .invalidAutoIncremental)
    else
      let c := if bad then { c with autoIncremental := false } else c
      let memberCount := c.values.length
      if c.type = "set"ₛ ∧ (memberCount ≤ 0 ∨ memberCount > 64) then (c, some .invalidValues)
      else if c.type = "enum"ₛ ∧ memberCount ≤ 0 then (c, some .invalidValues)
      else if !isValidColType c.type then (c, some .invalidType)
      else (c, none)

/-- `SetDefaultValueFn`, format/octopus/column.go 146-148. -/
def Column.setDefaultValueFn (c : Column) (fnName : Str) : Column :=
  { c with defaultValue := fnPrefix ++ fnName }

/-- `SetDefaultValue`, format/octopus/column.go 137-143, for string or nil values (the only ones
used by the importers). -/
def Column.setDefaultValue (c : Column) (value : Option Str) : Column :=
  { c with defaultValue := value.getD [] }

/-- `SetOnUpdateFn`, format/octopus/column.go 166-168. -/
def Column.setOnUpdateFn (c : Column) (fnName : Str) : Column :=
  { c with onUpdate := fnPrefix ++ fnName }

/-- `SetOnUpdate`, format/octopus/column.go 157-163, for string or nil values. -/
def Column.setOnUpdate (c : Column) (value : Option Str) : Column :=
  { c with onUpdate := value.getD [] }

/-- `getValue`, format/octopus/column.go 176-181. -/
def getValue (value : Str) : Str × Bool :=
  if hasPrefix value fnPrefix then (value.drop fnPrefix.length, true) else (value, false)

/-- `GetDefaultValue`, format/octopus/column.go 152-154. -/
def Column.getDefaultValue (c : Column) : Str × Bool := getValue c.defaultValue

/-- `GetOnUpdate`, format/octopus/column.go 172-174. -/
def Column.getOnUpdate (c : Column) : Str × Bool := getValue c.onUpdate

/-- `Format`, format/octopus/column.go 183-191. -/
def Column.format (c : Column) : Str :=
  if c.size = 0 then c.type
  else if c.scale = 0 then c.type ++ "("ₛ ++ itoa c.size.toNat ++ ")"ₛ
  else c.type ++ "("ₛ ++ itoa c.size.toNat ++ ","ₛ ++ itoa c.scale.toNat ++ ")"ₛ

/-! ## table.go -/

/-- `Index`, format/octopus/table.go 11-14. -/
structure Index where
  name : Str
  columns : List Str
  deriving DecidableEq, Repr

/-- `(*Index).AddColumn`, format/octopus/table.go 16-18. -/
def Index.addColumn (i : Index) (column : Str) : Index := { i with columns := i.columns ++ [column] }

/-- `Table`, format/octopus/table.go 20-27. -/
structure Table where
  name : Str := []
  columns : List Column := []
  description : Str := []
  group : Str := []
  className : Str := []
  indices : List Index := []
  deriving DecidableEq, Repr

/-- `(*Table).AddColumn`, format/octopus/table.go 29-33. -/
def Table.addColumn (t : Table) (c : Option Column) : Table :=
  match c with
  | some c => { t with columns := t.columns ++ [c] }
  | none => t

/-- Lookup in a Go map filled by assigning the elements of a list in order: the last one wins. -/
def lastBy {α : Type} (key : α → Str) (l : List α) (k : Str) : Option α :=
  l.reverse.find? (fun x => key x == k)

/-- `ColumnNameMap`, format/octopus/table.go 35-43, as its lookup function. -/
def Table.columnNameMap (t : Table) (name : Str) : Option Column := lastBy Column.name t.columns name

/-- `ColumnByName`, format/octopus/table.go 45-52. -/
def Table.columnByName (t : Table) (name : Str) : Option Column :=
  t.columns.find? (fun c => c.name == name)

/-- `PrimaryKeyNameSet`, format/octopus/table.go 54-62. -/
def Table.primaryKeyNameSet (t : Table) : StringSet :=
  t.columns.foldl (fun s c => if c.primaryKey then s.add c.name else s) StringSet.empty

/-- `UniqueKeyNameSet`, format/octopus/table.go 64-72. -/
def Table.uniqueKeyNameSet (t : Table) : StringSet :=
  t.columns.foldl (fun s c => if c.uniqueKey then s.add c.name else s) StringSet.empty

/-- `IndexByName`, format/octopus/table.go 74-81. -/
def Table.indexByName (t : Table) (name : Str) : Option Index :=
  t.indices.find? (fun i => i.name == name)

/-- `AddIndex`, format/octopus/table.go 83-85. -/
def Table.addIndex (t : Table) (indexName column : Str) : Table :=
  { t with indices := t.indices ++ [⟨indexName, [column]⟩] }

/-- `TableSlice.Less`, format/octopus/table.go 90-98. -/
def tableLess (a b : Table) : Bool :=
  if strLt a.group b.group then true
  else if a.group = b.group then strLt a.name b.name
  else false

/-- `Schema`, format/octopus/table.go 102-107. -/
structure Schema where
  author : Str := []
  name : Str := []
  version : Str := []
  tables : List Table := []
  deriving DecidableEq, Repr

/-- `TablesByName`, format/octopus/table.go 110-118, as its lookup function. -/
def Schema.tablesByName (s : Schema) (name : Str) : Option Table := lastBy Table.name s.tables name

/-- `TableByName`, format/octopus/table.go 121-128. -/
def Schema.tableByName (s : Schema) (name : Str) : Option Table :=
  s.tables.find? (fun t => t.name == name)

/-- `FindReference`, format/octopus/table.go 130-137. -/
def Schema.findReference (s : Schema) (ref : Reference) : Option (Table × Column) :=
  match s.tableByName ref.table with
  | none => none
  | some t => match t.columnByName ref.column with
    | none => none
    | some c => some (t, c)

/-- `Groups` under a map iteration schedule, format/octopus/table.go 139-147. -/
def Schema.groupsOrd (ord : List Str → List Str) (s : Schema) : List Str :=
  sortStrings ((s.tables.foldl (fun g t => g.add t.group) StringSet.empty).sliceOrd ord)

/-- `Groups` for the trivial schedule (`C09` shows the schedule is irrelevant). -/
def Schema.groups (s : Schema) : List Str := s.groupsOrd id

/-- The column loop of `Normalize`, format/octopus/table.go 185-191: stops at the first error and
leaves the remaining columns as they are. -/
def normCols : List Column → List Column × Option ColErr
  | [] => ([], none)
  | c :: cs =>
    match Column.validate true c.normalizeType with
    | (c', some e) => (c' :: cs, some e)
    | (c', none) => (c' :: (normCols cs).1, (normCols cs).2)

/-- The table loop of `Normalize`, format/octopus/table.go 184-193. -/
def normTables : List Table → List Table × Option (Str × ColErr)
  | [] => ([], none)
  | t :: ts =>
    match normCols t.columns with
    | (cs, some e) => ({ t with columns := cs } :: ts, some (t.name, e))
    | (cs, none) => ({ t with columns := cs } :: (normTables ts).1, (normTables ts).2)

/-- `Normalize`, format/octopus/table.go 181-194.  `sorter` stands for `sort.Sort`; it is only
known to return a sorted permutation (`SortSpec`).  The schema is mutated in place, also when an
error is returned, so both are results.  (Columns shared between tables through pointers are not
modelled.) -/
def Schema.normalize (sorter : List Table → List Table) (s : Schema) :
    Schema × Option (Str × ColErr) :=
  ({ s with tables := (normTables (sorter s.tables)).1 }, (normTables (sorter s.tables)).2)

/-- What Go's `sort.Sort` guarantees for `TableSlice`: a permutation without inversions. -/
def SortSpec (sorter : List Table → List Table) : Prop :=
  ∀ l, (sorter l).Perm l ∧ (sorter l).Pairwise (fun a b => tableLess b a = false)

/-- A concrete sorter: insertion sort. -/
def tableSort (l : List Table) : List Table :=
  l.insertionSort (fun a b => tableLess b a = false)

/-! ## io.go -/

/-- `LoadSchema`, format/octopus/io.go 8-23, after the file has been read and decoded
(`decoded`, `none` when reading or decoding fails): line 20 calls `Normalize` and drops its error. -/
def loadSchema (sorter : List Table → List Table) (isOctopusFile : Bool) (decoded : Option Schema) :
    Option Schema :=
  if isOctopusFile then decoded.map (fun s => (s.normalize sorter).1) else none

/-! ## filter.go -/

/-- `GetTableFilterFn`, format/octopus/filter.go 11-25; `none` is the nil function. -/
def getTableFilterFn (groups : Str) : Option (Table → Bool) :=
  if groups = [] then none
  else some (fun t => (split ',' groups).any (fun g => t.group == g))

/-- The test `option.TableFilter != nil && !option.TableFilter(table)` negated, as used by all
generators (e.g. format/mysql/exporter.go 47): whether a table is processed. -/
def passes (filter : Option (Table → Bool)) (t : Table) : Bool :=
  match filter with
  | none => true
  | some f => f t

end Octo
