import Verif.Basic.GoMap
import Verif.Model.Octopus

/-! Model of package `xlsx`: format/xlsx/exporter.go and format/xlsx/importer.go.

The spreadsheet library (github.com/tealeg/xlsx) is not part of /repo.  A workbook is modelled as a list of
named sheets, a sheet as a list of rows, a row as the list of the values of its cells; saving and opening
a file is taken to preserve it.  Styles, column widths and panes are left out.  `AddSheet` refuses the name
of an existing sheet and, depending on the version, names that are too long or contain special characters:
the parameter `accepts`. -/

namespace Octo.Xlsx

/-- The values of the cells of a row. -/
abbrev Row := List Str

/-- A sheet of a workbook. -/
structure Sheet where
  name : Str
  rows : List Row
  deriving DecidableEq, Repr

/-! ## exporter.go -/

/-- `getColumnAttributes`, exporter.go 257-271: line 267 writes the default value after `onUpdate=`. -/
def columnAttributes (c : Column) : List Str :=
  (if c.autoIncremental then ["autoInc"ₛ] else []) ++
  (if c.defaultValue ≠ [] then ["default"ₛ ++ "="ₛ ++ c.defaultValue] else []) ++
  (if c.onUpdate ≠ [] then ["onUpdate"ₛ ++ "="ₛ ++ c.defaultValue] else [])

/-- `getColumnReference`, exporter.go 273-278. -/
def columnReference (c : Column) : Str :=
  match c.ref with
  | some r => r.table ++ "."ₛ ++ r.column
  | none => []

/-- `util.BoolToString`, util/string.go 26-32. -/
def boolToString (b : Bool) (t f : Str) : Str := if b then t else f

/-- The row of a column, exporter.go 193-218. -/
def columnRow (useNull : Bool) (c : Column) : Row :=
  [columnReference c, c.name, c.format,
   boolToString c.primaryKey "P"ₛ (boolToString c.uniqueKey "U"ₛ []),
   if useNull then boolToString (!c.notNull) "O"ₛ [] else boolToString c.notNull "O"ₛ [],
   join ", "ₛ (columnAttributes c), trimSpace c.description]

/-- The row of a table, exporter.go 185-190. -/
def tableRow (t : Table) : Row :=
  [t.name, [], "table"ₛ, [], [], if t.className = [] then [] else "class"ₛ ++ "="ₛ ++ t.className,
   trimSpace t.description]

/-- The rows of an index, exporter.go 220-231. -/
def indexRows (i : Index) : List Row := i.columns.map fun c => [i.name, c, [], "I"ₛ]

/-- The rows of a table, exporter.go 185-231. -/
def tableRows (useNull : Bool) (t : Table) : List Row :=
  tableRow t :: (t.columns.map (columnRow useNull) ++ t.indices.flatMap indexRows)

/-- The header, exporter.go 165-177. -/
def headerRow (useNull : Bool) : Row :=
  ["table/ref."ₛ, "column"ₛ, "type"ₛ, "key"ₛ, if useNull then "nullable"ₛ else "not null"ₛ, "attributes"ₛ, "description"ₛ]

/-- The loop over the tables, exporter.go 179-237; `i` is the index of the first of them, `n` the number
of tables of the schema. -/
def bodyRows (useNull : Bool) (group : Str) (n : Nat) : Nat → List Table → List Row
  | _, [] => []
  | i, t :: ts =>
    if t.group ≠ group then bodyRows useNull group n (i + 1) ts
    else tableRows useNull t ++ ((if i < n - 1 then [[]] else []) ++ bodyRows useNull group n (i + 1) ts)

/-- `fillGroupSheet`, exporter.go 129-240. -/
def groupRows (useNull : Bool) (s : Schema) (group : Str) : List Row :=
  headerRow useNull :: bodyRows useNull group s.tables.length 0 s.tables

/-- `fillMetaSheet`, exporter.go 61-74. -/
def metaRows (s : Schema) : List Row := [["author"ₛ, s.author], ["name"ₛ, s.name], ["version"ₛ, s.version]]

/-- `AddSheet` of the library. -/
def addSheet (accepts : Str → Bool) (wb : List Sheet) (name : Str) (rows : List Row) : Option (List Sheet) :=
  if accepts name && !(wb.any fun sh => sh.name == name) then some (wb ++ [⟨name, rows⟩]) else none

/-- The name of the sheet of a group, exporter.go 32-35. -/
def groupName (group : Str) : Str := if group = [] then "Common"ₛ else group

/-- The loop over the groups, exporter.go 31-56. -/
def addGroups (accepts : Str → Bool) (useNull : Bool) (s : Schema) : List Sheet → List Str → Option (List Sheet)
  | wb, [] => some wb
  | wb, g :: gs => match addSheet accepts wb (groupName g) (groupRows useNull s g) with
    | none => none
    | some wb => addGroups accepts useNull s wb gs

/-- `Export`, exporter.go 20-59. -/
def exportSchema (accepts : Str → Bool) (useNull : Bool) (s : Schema) : Option (List Sheet) :=
  match addSheet accepts [] "Meta"ₛ (metaRows s) with
  | none => none
  | some wb => addGroups accepts useNull s wb s.groups

/-! ## importer.go -/

/-- `getCellValue`, importer.go 243-250. -/
def cell (r : Row) (i : Nat) : Str := r.getD i []

/-- The loop body of `parseAttributes`, importer.go 182-194. -/
def parseAttr (attr : Str) : Str × Str :=
  match splitN2 '=' (trimSpace attr) with
  | (k, some v) => (k, v)
  | (k, none) => (k, "true"ₛ)

/-- `parseAttributes`, importer.go 180-196. -/
def parseAttributes (value : Str) : List (Str × Str) := mapOf ((split ',' value).map parseAttr)

/-- Reading a map of strings: the empty string when the key is absent. -/
def attr (m : List (Str × Str)) (k : Str) : Str := (mapGet m k).getD []

/-- The relationship of a reference, importer.go 206-216. -/
def relationship : Str → Str
  | '>' :: _ => "n:1"ₛ
  | '<' :: _ => "1:n"ₛ
  | '-' :: _ => "1:1"ₛ
  | _ => "n:1"ₛ

/-- `parseReference`, importer.go 198-226: the marker is not removed from the table name. -/
def parseReference (s : Str) : Option Reference :=
  if s = [] then none
  else match split '.' s with
    | [table, column] => if table ≠ [] ∧ column ≠ [] then some ⟨table, column, relationship table⟩ else none
    | _ => none

/-- The column of a row, importer.go 141-142 and 152-169. -/
def readColumn (useNotNull : Bool) (r : Row) : Column :=
  let ty := parseType (trimSpace (cell r 2))
  let key := trimSpace (cell r 3)
  let nullable := trimSpace (cell r 4)
  let attrs := parseAttributes (trimSpace (cell r 5))
  { name := trimSpace (cell r 1)
    type := ty.1
    description := trimSpace (cell r 6)
    size := ty.2.1
    scale := ty.2.2
    notNull := if useNotNull then nullable != [] else nullable == []
    primaryKey := key == "P"ₛ
    uniqueKey := key == "U"ₛ
    autoIncremental := attr attrs "autoInc"ₛ == "true"ₛ
    defaultValue := attr attrs "default"ₛ
    onUpdate := attr attrs "onUpdate"ₛ
    ref := parseReference (trimSpace (cell r 0)) }

/-- Adding a column to the first index with the name; `none` when there is none.  (`IndexByName` returns a
pointer, so `AddColumn` changes the index in the table.) -/
def extendIndex (name column : Str) : List Index → Option (List Index)
  | [] => none
  | i :: is => if i.name = name then some (i.addColumn column :: is) else (extendIndex name column is).map (i :: ·)

/-- A row below a table row, importer.go 136-170. -/
def addRow (useNotNull : Bool) (t : Table) (r : Row) : Table :=
  let columnName := trimSpace (cell r 1)
  if columnName = [] then t
  else if trimSpace (cell r 3) = "I"ₛ then
    let indexName := trimSpace (cell r 0)
    match extendIndex indexName columnName t.indices with
    | some is => { t with indices := is }
    | none => t.addIndex indexName columnName
  else t.addColumn (some (readColumn useNotNull r))

/-- The table of a row, importer.go 120-127. -/
def readTable (group : Str) (r : Row) : Table :=
  { name := trimSpace (cell r 0)
    description := trimSpace (cell r 6)
    group := group
    className := attr (parseAttributes (trimSpace (cell r 5))) "class"ₛ }

/-- The loop over the rows, importer.go 86-177; `last` is the table that has not been finished. -/
def readRows (group : Str) (useNotNull : Bool) : Option Table → List Row → Option (List Table)
  | last, [] => some last.toList
  | last, r :: rs =>
    if trimSpace (cell r 2) = "table"ₛ then
      if trimSpace (cell r 0) = [] then none
      else (readRows group useNotNull (some (readTable group r)) rs).map (last.toList ++ ·)
    else match last with
      | none => readRows group useNotNull none rs
      | some t => readRows group useNotNull (some (addRow useNotNull t r)) rs

/-- `readGroupSheet`, importer.go 85-178; `none` is an error. -/
def readGroupSheet (group : Str) : List Row → Option (List Table)
  | [] => some []
  | r :: rs => readRows group (trimSpace (cell r 4) == "not null"ₛ) none rs

/-- `readMetaSheet`, importer.go 68-83. -/
def readMetaSheet (rows : List Row) : List (Str × Str) :=
  mapOf (rows.filterMap fun
    | [] => none
    | [k] => some (k, [])
    | k :: v :: _ => some (k, v))

/-- The map `sheetsByGroup`, importer.go 26-35. -/
def sheetsByGroup (wb : List Sheet) : List (Str × List Row) :=
  mapOf ((wb.filter fun sh => sh.name != "Meta"ₛ).map fun sh => (sh.name, sh.rows))

/-- `Import` and `toSchema`, importer.go 20-66; the sheets are visited in the order of a map iteration,
`ord`. -/
def importWorkbook (ord : List (Str × List Row) → List (Str × List Row)) (wb : List Sheet) : Option Schema :=
  let props := match wb.reverse.find? (fun sh => sh.name == "Meta"ₛ) with
    | some sh => readMetaSheet sh.rows
    | none => []
  match (ord (sheetsByGroup wb)).mapM (fun p => readGroupSheet p.1 p.2) with
  | none => none
  | some tables =>
    some { author := attr props "author"ₛ, name := attr props "name"ₛ, version := attr props "version"ₛ,
           tables := tables.flatten }

end Octo.Xlsx
