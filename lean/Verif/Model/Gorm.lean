import Verif.Model.Octopus
import Verif.Model.Common
import Verif.Model.Strcase

/-! Model of package `gorm`, format/gorm/gorm.go, gorm_model.go, generator.go, init.go and cli.go. -/

namespace Octo.Gorm

/-- `Option`, format/gorm/generator.go 16-24. `PrefixMapper` is not nil: cli.go 37 always sets it. -/
structure GormOption where
  prefixMapper : PrefixMapper
  tableFilter : Option (Table → Bool)
  embed : Str
  package : Str
  pointerAssociation : Bool
  removePrefixes : List Str
  uniqueNameSuffix : Str

/-! ### Fields -/

/-- The field type for a column type and nullability, format/gorm/gorm.go 104-202. -/
def fieldType (type : Str) (nullable : Bool) : Str :=
  let columnType := lower type
  if columnType ∈ ["char"ₛ, "varchar"ₛ, "text8"ₛ, "text16"ₛ, "text24"ₛ, "text32"ₛ] then
    if nullable then "null.String"ₛ else "string"ₛ
  else if columnType = "boolean"ₛ then if nullable then "null.Bool"ₛ else "bool"ₛ
  else if columnType = "int8"ₛ then if nullable then "null.Int"ₛ else "int8"ₛ
  else if columnType = "int16"ₛ then if nullable then "null.Int"ₛ else "int16"ₛ
  else if columnType ∈ ["int24"ₛ, "int32"ₛ] then if nullable then "null.Int"ₛ else "int32"ₛ
  else if columnType = "int64"ₛ then if nullable then "null.Int"ₛ else "int64"ₛ
  else if columnType = "decimal"ₛ then if nullable then "decimal.NullDecimal"ₛ else "decimal.Decimal"ₛ
  else if columnType = "float"ₛ then if nullable then "null.Float"ₛ else "float32"ₛ
  else if columnType = "double"ₛ then if nullable then "null.Float"ₛ else "float64"ₛ
  else if columnType ∈ ["datetime"ₛ, "date"ₛ, "time"ₛ] then if nullable then "null.Time"ₛ else "time.Time"ₛ
  else if columnType ∈ ["blob8"ₛ, "blob16"ₛ, "blob24"ₛ, "blob32"ₛ] then "[]byte"ₛ
  else if columnType = "bit"ₛ then if nullable then "*byte"ₛ else "byte"ₛ
  else if columnType = "enum"ₛ then "string"ₛ
  else "interface{}"ₛ

/-- The imports of a field, format/gorm/gorm.go 98-102, 155 and 181. -/
def fieldImports (type : Str) (nullable : Bool) : List Str :=
  let columnType := lower type
  ((((if nullable then ["gopkg.in/guregu/null.v4"ₛ] else []) ++
    (if columnType = "decimal"ₛ then ["github.com/shopspring/decimal"ₛ] else []) ++
    (if columnType ∈ ["datetime"ₛ, "date"ₛ, "time"ₛ] ∧ nullable = false then ["time"ₛ] else [])).foldl
      StringSet.add StringSet.empty)).slice

/-- The pattern `^\d+.*$`. -/
def startsWithNumber (s : Str) : Bool := (s.head?.any isDigit) && !(s.contains '\n')

/-- The replacement of `Id$` by `ID`, format/gorm/gorm.go 207-211. -/
def idSuffix (s : Str) : Str := if hasSuffix s "Id"ₛ then s.take (s.length - 2) ++ "ID"ₛ else s

/-- The name of a field and whether the column name must be given, format/gorm/gorm.go 204-216. -/
def fieldName (sc : Strcase) (name : Str) : Str × Bool :=
  let p := utilToUpperCamel sc name
  let n := idSuffix p.1
  if startsWithNumber n then ('_' :: n, true) else (n, !p.2)

/-- `GoField`, format/gorm/gorm.go 88-94. -/
structure GoField where
  column : Column
  name : Str
  type : Str
  overrideName : Bool
  imports : List Str

/-- `NewGoField`, format/gorm/gorm.go 96-225. -/
def newGoField (sc : Strcase) (c : Column) : GoField :=
  ⟨c, (fieldName sc c.name).1, fieldType c.type !c.notNull, (fieldName sc c.name).2, fieldImports c.type !c.notNull⟩

/-! ### Embedded models -/

/-- `EmbeddedModels`, format/gorm/gorm_model.go 41: a Go map, as its entries. -/
abbrev Models := List (Str × List Str)

/-- The character class of the name of a model, format/gorm/gorm_model.go 23. -/
def isModelNameChar (c : Char) : Bool := isAlpha c || isDigit c || c == '.' || c == '_'

/-- `parseEmbeddedModelDefinition`, format/gorm/gorm_model.go 22-39: the pattern is `^([a-zA-Z0-9._]+):(.*)$`. -/
def parseModel (definition : Str) : Option (Str × List Str) :=
  match splitN2 ':' definition with
  | (name, some rest) =>
    if name ≠ [] ∧ name.all isModelNameChar = true ∧ '\n' ∉ rest then
      some (name, if rest = [] then [] else split ',' rest)
    else none
  | _ => none

/-- The models registered by `init`, format/gorm/init.go 3-5 and gorm_model.go 72-74. -/
def defaultModels : Models := [("gorm.Model"ₛ, ["id"ₛ, "created_at"ₛ, "updated_at"ₛ, "deleted_at"ₛ])]

/-- The registration at the start of `Generate`, format/gorm/generator.go 62-67. The map is a package variable. -/
def register (models : Models) (embed : Str) : Models :=
  if embed = [] then models else match parseModel embed with
    | none => models
    | some (name, columns) => mapSet models name columns

/-- One step of the loop of `extractEmbeddedModels`, format/gorm/gorm_model.go 85-90. -/
def extractStep (st : StringSet × Models) (m : Str × List Str) : StringSet × Models :=
  if st.1.containsAll m.2 then (st.1.removeAll m.2, mapSet st.2 m.1 m.2) else st

/-- `extractEmbeddedModels`, format/gorm/gorm_model.go 77-93; `ord` is the order in which the map is visited. -/
def extractModels (ord : Models → Models) (models : Models) (columns : List Column) : Models :=
  ((ord models).foldl extractStep (StringSet.ofList (columns.map (·.name)), [])).2

/-- `ContainsColumnName`, format/gorm/gorm_model.go 43-50. -/
def containsColumn (models : Models) (name : Str) : Bool := models.any fun m => m.2.contains name

/-! ### Structs -/

/-- `GoAssocationField`, format/gorm/gorm.go 10-16. -/
structure GoAssociation where
  name : Str
  type : Str
  array : Bool
  foreignKey : Str
  reference : Str

/-- `GoStruct`, format/gorm/gorm.go 18-26, without the primary key fields, which are not used. -/
structure GoStruct where
  table : Table
  name : Str
  embedded : List Str
  fields : List GoField
  uniqueFields : List GoField
  associations : List GoAssociation

/-- `StructName`, format/gorm/generator.go 33-47. -/
def structName (sc : Strcase) (o : GormOption) (t : Table) : Str :=
  if t.className = [] then
    let name := sc.toCamel (o.removePrefixes.foldl trimPrefix t.name)
    if o.prefixMapper.getPrefix t.group ≠ [] then o.prefixMapper.getPrefix t.group ++ name else name
  else t.className

/-- The association of a column, format/gorm/gorm.go 53-65. -/
def association (sc : Strcase) (s : Schema) (o : GormOption) (c : Column) : Option GoAssociation :=
  c.ref.bind fun r => (s.findReference r).map fun p =>
    ⟨structName sc o p.1, structName sc o p.1, r.relationship == refOneToMany, (fieldName sc c.name).1, (fieldName sc p.2.name).1⟩

/-- `NewGoStruct`, format/gorm/gorm.go 33-86; `ord` and `ord'` are the orders of the two maps that are visited. -/
def newGoStruct (sc : Strcase) (s : Schema) (o : GormOption) (models : Models) (ord ord' : Models → Models) (t : Table) : GoStruct :=
  let fields := t.columns.map (newGoField sc)
  let embedded := extractModels ord models t.columns
  { table := t
    name := structName sc o t
    embedded := (ord' embedded).map Prod.fst
    fields := fields.filter fun f => !containsColumn embedded f.column.name
    uniqueFields := fields.filter (·.column.uniqueKey)
    associations := t.columns.filterMap (association sc s o) }

/-! ### Tags -/

/-- `getGormTagByType`, format/gorm/generator.go 322-345. -/
def typeTag (c : Column) : Str :=
  if c.type ∈ ["bit"ₛ, "char"ₛ, "varchar"ₛ] then
    if c.size > 0 then "type:"ₛ ++ c.type ++ "("ₛ ++ itoa c.size.toNat ++ ")"ₛ else []
  else if c.type ∈ ["double"ₛ, "float"ₛ, "decimal"ₛ] then
    if c.size > 0 ∧ c.scale > 0 then
      "type:"ₛ ++ c.type ++ "("ₛ ++ itoa c.size.toNat ++ ","ₛ ++ itoa c.scale.toNat ++ ")"ₛ
    else []
  else []

/-- The tag of an index, format/gorm/generator.go 167-187 and 240-246; `none` when the column is not part of it. -/
def indexTag (column : Str) (i : Index) : Option Str :=
  if column ∈ i.columns then
    some (if i.columns.length = 1 then "index:"ₛ ++ i.name
      else "index:"ₛ ++ i.name ++ ",priority:"ₛ ++ itoa (i.columns.idxOf column + 1))
  else none

/-- The tags of a field, format/gorm/generator.go 216-255. -/
def fieldTags (t : Table) (uniqueCstName : Str) (f : GoField) : List Str :=
  let c := f.column
  (if f.overrideName then ["column:"ₛ ++ c.name] else []) ++
  (if typeTag c = [] then [] else [typeTag c]) ++
  (if c.primaryKey then ["primary_key"ₛ] else []) ++
  (if c.uniqueKey then [if uniqueCstName = [] then "unique"ₛ else "unique_index:"ₛ ++ uniqueCstName] else []) ++
  t.indices.filterMap (indexTag c.name) ++
  (if c.autoIncremental then ["auto_increment"ₛ] else []) ++
  (if c.notNull && !c.autoIncremental then ["not null"ₛ] else [])

/-- `gormTag`, format/gorm/generator.go 315-320. -/
def gormTag (tags : List Str) : Str :=
  if tags = [] then [] else "`gorm:\""ₛ ++ join ";"ₛ tags ++ "\"`"ₛ

/-- `TplFieldData.ToString`, format/gorm/generator.go 153-159. -/
def fieldLine (name type : Str) (tag : Str) : Str :=
  if tag = [] then name ++ " "ₛ ++ type else name ++ " "ₛ ++ type ++ " "ₛ ++ tag

/-- The name of the unique constraint, format/gorm/generator.go 200-208. -/
def uniqueCstName (o : GormOption) (g : GoStruct) : Str :=
  if g.uniqueFields.length > 1 then g.table.name ++ o.uniqueNameSuffix else []

/-- The type of an association field, format/gorm/generator.go 266-272. -/
def associationType (o : GormOption) (a : GoAssociation) : Str :=
  let t := if a.array then "[]"ₛ ++ a.type else a.type
  if o.pointerAssociation then "*"ₛ ++ t else t

/-- The lines of the fields, format/gorm/generator.go 210-283. -/
def structFields (o : GormOption) (g : GoStruct) : List Str :=
  g.fields.map (fun f => fieldLine f.name f.type (gormTag (fieldTags g.table (uniqueCstName o g) f))) ++
  g.associations.map fun a => fieldLine a.name (associationType o a)
    (gormTag ["foreignKey:"ₛ ++ a.foreignKey, "references:"ₛ ++ a.reference])

/-- `GenerateStruct`, format/gorm/generator.go 189-313: the expansion of the template. -/
def structText (o : GormOption) (g : GoStruct) : Str :=
  "type "ₛ ++ g.name ++ " struct {"ₛ ++ g.embedded.flatMap (fun e => "\n\t"ₛ ++ e) ++
  (structFields o g).flatMap (fun f => "\n\t"ₛ ++ f) ++ "\n}\n\nfunc (c *"ₛ ++ g.name ++ ") TableName() string { return \""ₛ ++
  g.table.name ++ "\" }\n\n"ₛ

/-! ### Files -/

/-- The imports of a file, format/gorm/generator.go 83-97. -/
def imports (gs : List GoStruct) : List Str :=
  (gs.foldl (fun s g =>
    ((g.embedded.filterMap fun m => if m = "gorm.Model"ₛ then some "github.com/jinzhu/gorm"ₛ else none).foldl StringSet.add s).addAll
      (g.fields.flatMap (·.imports))) StringSet.empty).slice

/-- The header, format/gorm/generator.go 68-71 and 99-121. -/
def headerText (o : GormOption) (is : List Str) : Str :=
  "package "ₛ ++ (if o.package = [] then "main"ₛ else o.package) ++ "\n\nimport ("ₛ ++
  is.flatMap (fun i => "\n\t\""ₛ ++ i ++ "\""ₛ) ++ "\n)\n\n"ₛ

/-- The tables that pass the filter, format/gorm/generator.go 76-81. -/
def selected (o : GormOption) (s : Schema) : List Table := s.tables.filter (passes o.tableFilter)

/-- The structs of a file. `ords i` are the orders in which the two maps are visited for the `i`-th table. -/
def structs (sc : Strcase) (ords : Nat → (Models → Models) × (Models → Models)) (models : Models) (o : GormOption) (s : Schema) :
    List GoStruct :=
  (selected o s).zipIdx.map fun p => newGoStruct sc s o (register models o.embed) (ords p.2).1 (ords p.2).2 p.1

/-- `Generate`, format/gorm/generator.go 60-132: the text, and the models that are registered afterwards. -/
def generate (sc : Strcase) (ords : Nat → (Models → Models) × (Models → Models)) (models : Models) (o : GormOption) (s : Schema) :
    Str × Models :=
  let gs := structs sc ords models o s
  (headerText o (imports gs) ++ gs.flatMap (structText o), register models o.embed)

end Octo.Gorm
