import Verif.Model.Jpa

/-! Model of package `sqlalchemy`, format/sqlalchemy/sqlalchemy.go, generator.go and cli.go. -/

namespace Octo
namespace Sqlalchemy

/-- `Option`, format/sqlalchemy/generator.go 16-22. The prefix mapper is not nil: cli.go always sets it. -/
structure SaOption where
  prefixMapper : PrefixMapper
  tableFilter : Option (Table → Bool)
  removePrefixes : List Str
  uniqueNameSuffix : Str
  useUTC : Bool

/-! ### Classes -/

/-- The switch of `NewSaField`, format/sqlalchemy/sqlalchemy.go 71-125. -/
def fieldType (c : Column) : Str :=
  let columnType := lower c.type
  if columnType ∈ ["char"ₛ, "varchar"ₛ, "text8"ₛ, "text16"ₛ, "text24"ₛ, "text32"ₛ] then "String"ₛ
  else if columnType = "boolean"ₛ then "Boolean"ₛ
  else if columnType ∈ ["int8"ₛ, "int16"ₛ, "int24"ₛ, "int32"ₛ] then "Integer"ₛ
  else if columnType = "int64"ₛ then "BigInteger"ₛ
  else if columnType = "decimal"ₛ then "Numeric"ₛ
  else if columnType = "float"ₛ then "Float"ₛ
  else if columnType = "double"ₛ then "Float"ₛ
  else if columnType = "datetime"ₛ then "DateTime"ₛ
  else if columnType = "date"ₛ then "Date"ₛ
  else if columnType = "time"ₛ then "Time"ₛ
  else if columnType ∈ ["blob8"ₛ, "blob16"ₛ, "blob24"ₛ, "blob32"ₛ] then "LargeBinary"ₛ
  else if columnType = "bit"ₛ ∧ c.size = 1 then "Boolean"ₛ
  else []

/-- `SaField`, format/sqlalchemy/sqlalchemy.go 18-24. -/
structure SaField where
  column : Column
  name : Str
  overrideName : Bool
  type : Str
  imports : List Str

/-- `NewSaField`, format/sqlalchemy/sqlalchemy.go 67-146. -/
def newField (sc : Strcase) (c : Column) : SaField :=
  let type := fieldType c
  let snake := utilToLowerSnake sc c.name
  let reserved := isPythonReservedWord snake.1
  { column := c
    name := if reserved then snake.1 ++ "_"ₛ else snake.1
    overrideName := reserved || !snake.2
    type := type
    imports := (if type ≠ [] then StringSet.empty.add type else StringSet.empty).slice }

/-- `SaClass`, format/sqlalchemy/sqlalchemy.go 10-16, without `PKFields`, which is not used. -/
structure SaClass where
  table : Table
  name : Str
  fields : List SaField
  uniqueFields : List SaField

/-- The name of a class, format/sqlalchemy/sqlalchemy.go 30-41. -/
def className (sc : Strcase) (o : SaOption) (t : Table) : Str :=
  if t.className = [] then
    let name := sc.toCamel (o.removePrefixes.foldl trimPrefix t.name)
    if o.prefixMapper.getPrefix t.group ≠ [] then o.prefixMapper.getPrefix t.group ++ name else name
  else t.className

/-- `NewSaClass`, format/sqlalchemy/sqlalchemy.go 26-65. -/
def newClass (sc : Strcase) (o : SaOption) (t : Table) : SaClass :=
  let fields := t.columns.map (newField sc)
  { table := t
    name := className sc o t
    fields := fields
    uniqueFields := fields.filter (·.column.uniqueKey) }

/-- The classes of the selected tables, format/sqlalchemy/generator.go 58-65. -/
def newClasses (sc : Strcase) (o : SaOption) (s : Schema) : List SaClass :=
  (s.tables.filter (passes o.tableFilter)).map (newClass sc o)

/-! ### Columns -/

/-- The function that yields the current time, format/sqlalchemy/generator.go 130-140. -/
def nowFn (useUTC : Bool) : Str := if useUTC then "datetime.utcnow"ₛ else "datetime.now"ₛ

/-- The attributes for the type of a column, format/sqlalchemy/generator.go 116-154. -/
def typeAttrs (useUTC : Bool) (f : SaField) : List Str :=
  let c := f.column
  let t := lower c.type
  if (t = "varchar"ₛ ∨ t = "char"ₛ) ∧ c.size > 0 then [f.type ++ "("ₛ ++ itoa c.size.toNat ++ ")"ₛ]
  else if t = "double"ₛ ∨ t = "float"ₛ ∨ t = "decimal"ₛ then
    [f.type ++ "("ₛ ++ join ", "ₛ
      ((if c.size > 0 then ["precision="ₛ ++ itoa c.size.toNat] else []) ++
       (if c.scale > 0 then ["scale="ₛ ++ itoa c.scale.toNat] else [])) ++ ")"ₛ]
  else if t = "datetime"ₛ then
    if c.name = "created_at"ₛ then [f.type, "default="ₛ ++ nowFn useUTC]
    else if c.name = "updated_at"ₛ then [f.type, "default="ₛ ++ nowFn useUTC, "onupdate="ₛ ++ nowFn useUTC]
    else if useUTC then ["TZDateTime"ₛ]
    else [f.type]
  else [f.type]

/-- The attributes of a column, format/sqlalchemy/generator.go 109-170. -/
def attributes (useUTC : Bool) (f : SaField) : List Str :=
  let c := f.column
  (if f.overrideName then ["'"ₛ ++ c.name ++ "'"ₛ] else []) ++
  typeAttrs useUTC f ++
  (if c.primaryKey then ["primary_key=True"ₛ] else []) ++
  (if c.uniqueKey then ["unique=True"ₛ] else []) ++
  (if c.autoIncremental then ["autoincrement=True"ₛ] else []) ++
  (if c.notNull && !c.autoIncremental then ["nullable=False"ₛ] else [])

/-- The line of a column, format/sqlalchemy/generator.go 172. -/
def columnLine (useUTC : Bool) (f : SaField) : Str :=
  "    "ₛ ++ f.name ++ " = Column("ₛ ++ join ", "ₛ (attributes useUTC f) ++ ")"ₛ

/-- The lines of a class, format/sqlalchemy/generator.go 80-172. -/
def classLines (o : SaOption) (k : SaClass) : List Str :=
  [[], [], "class "ₛ ++ k.name ++ "(Base):"ₛ, "    __tablename__ = '"ₛ ++ k.table.name ++ "'"ₛ] ++
  (if k.uniqueFields.length > 1 then
    ["    UniqueConstraint("ₛ ++ join ", "ₛ (k.uniqueFields.map fun f => "'"ₛ ++ f.name ++ "'"ₛ) ++ ", name='"ₛ ++
      (k.table.name ++ o.uniqueNameSuffix) ++ "')"ₛ]
  else []) ++ [[]] ++
  k.fields.map (columnLine o.useUTC)

/-! ### Imports -/

/-- What is collected over the classes, format/sqlalchemy/generator.go 67-75: `saImportSet`, `importSet` and `useTZDateTime`. -/
structure State where
  saImports : StringSet
  imports : StringSet
  useTZ : Bool

/-- The start, format/sqlalchemy/generator.go 67-75. -/
def start : State := ⟨StringSet.empty.add "Column"ₛ, StringSet.empty, false⟩

/-- What a field adds, format/sqlalchemy/generator.go 128-151 and 174-177. -/
def addField (useUTC : Bool) (st : State) (f : SaField) : State :=
  let c := f.column
  let st :=
    if lower c.type = "datetime"ₛ then
      let st :=
        if c.name ≠ "created_at"ₛ ∧ c.name ≠ "updated_at"ₛ ∧ useUTC = true then
          ⟨st.saImports.add "TypeDecorator"ₛ, st.imports.add "from datetime import timezone"ₛ, true⟩
        else st
      { st with imports := st.imports.add "from datetime import datetime"ₛ }
    else st
  { st with saImports := st.saImports.addAll f.imports }

/-- What a class adds, format/sqlalchemy/generator.go 98-178. -/
def addClass (useUTC : Bool) (st : State) (k : SaClass) : State :=
  k.fields.foldl (addField useUTC)
    (if k.uniqueFields.length > 1 then { st with saImports := st.saImports.add "UniqueConstraint"ₛ } else st)

/-! ### Files -/

/-- `getHeaderLines`, format/sqlalchemy/generator.go 242-259. -/
def headerLines (imports saImports : List Str) : List Str :=
  (if imports.length > 0 then imports ++ [[]] else []) ++
  ["from sqlalchemy import "ₛ ++ join ", "ₛ saImports, "from sqlalchemy.ext.declarative import declarative_base"ₛ,
   "from sqlalchemy_repr import RepresentableBase"ₛ, [], "Base = declarative_base(cls=RepresentableBase)"ₛ]

/-- `getTZDateTimeLines`, format/sqlalchemy/generator.go 221-240. -/
def tzLines : List Str :=
  [[], [], "class TZDateTime(TypeDecorator):"ₛ, "    impl = DateTime"ₛ, [],
   "    def process_bind_param(self, value, dialect):"ₛ,
   "        if value is not None:"ₛ,
   "            if not value.tzinfo:"ₛ,
   "                raise TypeError(\"tzinfo is required\")"ₛ,
   "            value = value.astimezone(timezone.utc).replace(tzinfo=None)"ₛ,
   "        return value"ₛ, [],
   "    def process_result_value(self, value, dialect):"ₛ,
   "        if value is not None:"ₛ,
   "            value = value.replace(tzinfo=timezone.utc)"ₛ,
   "        return value"ₛ]

/-- The text of the file of a class, format/sqlalchemy/generator.go 183-188 and util/io.go 39-45. -/
def classText (o : SaOption) (st : State) (k : SaClass) : Str :=
  join "\n"ₛ (headerLines st.imports.slice st.saImports.slice ++ classLines o k ++ [[]])

/-- The files of the classes, format/sqlalchemy/generator.go 77-197 when there is a file per class: the two sets are cleared after
each file. -/
def classFiles (o : SaOption) (dir : Str) : State → List SaClass → List (List Str × Str)
  | _, [] => []
  | st, k :: ks =>
    let st := addClass o.useUTC st k
    (Jpa.pathJoin [dir, k.table.name ++ ".py"ₛ], classText o st k) ::
      classFiles o dir { st with saImports := st.saImports.clear, imports := st.imports.clear } ks

/-- The text of a single file, format/sqlalchemy/generator.go 77-211. -/
def singleText (o : SaOption) (ks : List SaClass) : Str :=
  let st := ks.foldl (addClass o.useUTC) start
  join "\n"ₛ (headerLines st.imports.slice st.saImports.slice ++ (if st.useTZ then tzLines else []) ++ ks.flatMap (classLines o) ++ [[]])

/-- Whether a single file is written, format/sqlalchemy/generator.go 42-50. -/
def single (out : Str) : Bool := lower (fileExt out) == ".py"ₛ

/-- `Generate`, format/sqlalchemy/generator.go 37-214: the files in the order in which they are written. Errors of the file system
are not modelled; paths are lists of elements. -/
def generate (sc : Strcase) (o : SaOption) (s : Schema) (out : Str) : List (List Str × Str) :=
  let classes := newClasses sc o s
  if single out then [(Jpa.pathJoin [out], singleText o classes)] else classFiles o out start classes

end Sqlalchemy
end Octo
