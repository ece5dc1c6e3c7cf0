import Verif.Spec.Protobuf
import Verif.Model.Gorm

/-! A reader of Go files with GORM models, and what a file should say about a schema. -/

namespace Octo.Spec
open Gorm (GormOption Models)

/-- A field of a struct, with the settings of its GORM tag. -/
structure GoFieldDecl where
  name : Str
  type : Str
  tags : List (Str × Option Str)
  deriving DecidableEq, Repr

/-- A struct, with the names of the structs it embeds. -/
structure GoStructDecl where
  name : Str
  embedded : List Str
  fields : List GoFieldDecl
  deriving DecidableEq, Repr

/-- A file: package, imports, structs, and the table names given by methods. -/
structure GoFile where
  package : Option Str
  imports : List Str
  structs : List GoStructDecl
  tableNames : List (Str × Str)
  deriving DecidableEq, Repr

/-- Where the reader is. -/
inductive GoMode
  | top
  | imports
  | struct (d : GoStructDecl)
  deriving DecidableEq

/-- The rest of a text after a prefix. -/
def after (p s : Str) : Option Str := if s.take p.length = p then some (s.drop p.length) else none

/-- The settings of a tag, as GORM reads them: separated by semicolons, with a name and optionally a value after a colon. -/
def readGormTag (s : Str) : Option (List (Str × Option Str)) :=
  (unwrap '`' '`' s).bind fun b => (after "gorm:"ₛ b).bind fun q => (unquote '"' q).map fun l => (split ';' l).map (splitN2 ':')

/-- The receiver `(c *Name)` of a method. -/
def readReceiver (s : Str) : Option Str :=
  (unwrap '(' ')' s).bind fun b => after "c *"ₛ b

/-- A line outside of structs, from its tokens. -/
def readGoTop (f : GoFile) : List Str → Option (GoMode × GoFile)
  | [] => some (.top, f)
  | [k, a] =>
    if k = "package"ₛ then some (.top, { f with package := some a })
    else if k = "import"ₛ ∧ a = "("ₛ then some (.imports, f)
    else none
  | [k, a, b, c] => if k = "type"ₛ ∧ b = "struct"ₛ ∧ c = "{"ₛ then some (.struct ⟨a, [], []⟩, f) else none
  | [k, r, m, t, o, ret, v, c] =>
    if k = "func"ₛ ∧ m = "TableName()"ₛ ∧ t = "string"ₛ ∧ o = "{"ₛ ∧ ret = "return"ₛ ∧ c = "}"ₛ then
      (readReceiver r).bind fun n => (unquote '"' v).map fun t => (.top, { f with tableNames := f.tableNames ++ [(n, t)] })
    else none
  | _ => none

/-- A line of an import block, from its tokens. -/
def readGoImport (f : GoFile) : List Str → Option (GoMode × GoFile)
  | [x] => if x = ")"ₛ then some (.top, f) else (unquote '"' x).map fun i => (.imports, { f with imports := f.imports ++ [i] })
  | _ => none

/-- A line of a struct, from its tokens. -/
def readGoField (d : GoStructDecl) (f : GoFile) : List Str → Option (GoMode × GoFile)
  | [x] => if x = "}"ₛ then some (.top, { f with structs := f.structs ++ [d] })
    else some (.struct { d with embedded := d.embedded ++ [x] }, f)
  | [n, t] => some (.struct { d with fields := d.fields ++ [⟨n, t, []⟩] }, f)
  | [n, t, g] => (readGormTag g).map fun tags => (.struct { d with fields := d.fields ++ [⟨n, t, tags⟩] }, f)
  | _ => none

/-- One line. -/
def readGoLine (st : GoMode × GoFile) (l : Str) : Option (GoMode × GoFile) :=
  match st.1 with
  | .top => readGoTop st.2 (tokens l)
  | .imports => readGoImport st.2 (tokens l)
  | .struct d => readGoField d st.2 (tokens l)

/-- A file is complete outside of blocks. -/
def goDone (st : GoMode × GoFile) : Option GoFile :=
  match st.1 with
  | .top => some st.2
  | _ => none

/-- Reads a Go file. -/
def readGo (s : Str) : Option GoFile :=
  ((split '\n' s).foldlM readGoLine (GoMode.top, ⟨none, [], [], []⟩)).bind goDone

/-! ### What a file says -/

/-- The tables that the filter selects. -/
def GormSelected (o : GormOption) (s : Schema) : List Table :=
  s.tables.filter fun t => (o.tableFilter.map fun f => f t).getD true

/-- The name of the struct of a table: its class name, or the prefix of its group and its name in camel case. -/
def goStructName (sc : Strcase) (o : GormOption) (t : Table) : Str :=
  if t.className = [] then o.prefixMapper.getPrefix t.group ++ sc.toCamel (o.removePrefixes.foldl trimPrefix t.name)
  else t.className

/-- A final `Id` becomes `ID`. -/
def goInitialism (s : Str) : Str := match s.reverse with
  | d :: i :: r => if d = 'd' ∧ i = 'I' then r.reverse ++ "ID"ₛ else s
  | _ => s

/-- Camel case, a final `Id` in capitals. -/
def goBaseName (sc : Strcase) (n : Str) : Str := goInitialism (sc.toCamel n)

/-- A name that starts with a digit. -/
def StartsWithDigit (s : Str) : Prop := s.head?.any isDigit = true

instance (s : Str) : Decidable (StartsWithDigit s) := inferInstanceAs (Decidable (_ = _))

/-- The name of the field of a column; an underscore is put before a digit. -/
def goFieldName (sc : Strcase) (n : Str) : Str :=
  if StartsWithDigit (goBaseName sc n) then '_' :: goBaseName sc n else goBaseName sc n

/-- The field name does not lead back to the column name. -/
def NeedsColumn (sc : Strcase) (n : Str) : Prop :=
  sc.toSnake (sc.toCamel n) ≠ n ∨ StartsWithDigit (goBaseName sc n)

/-- Column types with the Go types of columns that are not null, and of columns that are. -/
def goTypes : List (Str × Str × Str) :=
  [("char"ₛ, "string"ₛ, "null.String"ₛ), ("varchar"ₛ, "string"ₛ, "null.String"ₛ), ("text8"ₛ, "string"ₛ, "null.String"ₛ),
   ("text16"ₛ, "string"ₛ, "null.String"ₛ), ("text24"ₛ, "string"ₛ, "null.String"ₛ), ("text32"ₛ, "string"ₛ, "null.String"ₛ),
   ("boolean"ₛ, "bool"ₛ, "null.Bool"ₛ), ("int8"ₛ, "int8"ₛ, "null.Int"ₛ), ("int16"ₛ, "int16"ₛ, "null.Int"ₛ),
   ("int24"ₛ, "int32"ₛ, "null.Int"ₛ), ("int32"ₛ, "int32"ₛ, "null.Int"ₛ), ("int64"ₛ, "int64"ₛ, "null.Int"ₛ),
   ("decimal"ₛ, "decimal.Decimal"ₛ, "decimal.NullDecimal"ₛ), ("float"ₛ, "float32"ₛ, "null.Float"ₛ),
   ("double"ₛ, "float64"ₛ, "null.Float"ₛ), ("datetime"ₛ, "time.Time"ₛ, "null.Time"ₛ), ("date"ₛ, "time.Time"ₛ, "null.Time"ₛ),
   ("time"ₛ, "time.Time"ₛ, "null.Time"ₛ), ("blob8"ₛ, "[]byte"ₛ, "[]byte"ₛ), ("blob16"ₛ, "[]byte"ₛ, "[]byte"ₛ),
   ("blob24"ₛ, "[]byte"ₛ, "[]byte"ₛ), ("blob32"ₛ, "[]byte"ₛ, "[]byte"ₛ), ("bit"ₛ, "byte"ₛ, "*byte"ₛ),
   ("enum"ₛ, "string"ₛ, "string"ₛ)]

/-- The Go type of a column. -/
def goTypeOf (c : Column) : Str :=
  ((goTypes.lookup (lower c.type)).map fun p => if c.notNull then p.1 else p.2).getD "interface{}"ₛ

/-- The unique columns of a table. -/
def uniqueColumns (t : Table) : List Column := t.columns.filter (·.uniqueKey)

/-- The settings of the field of a column. -/
structure GormTags (sc : Strcase) (o : GormOption) (t : Table) (c : Column) (tags : List (Str × Option Str)) : Prop where
  column : ∀ v, ("column"ₛ, v) ∈ tags ↔ v = some c.name ∧ NeedsColumn sc c.name
  type : ∀ v, ("type"ₛ, v) ∈ tags ↔
    (c.type ∈ ["bit"ₛ, "char"ₛ, "varchar"ₛ] ∧ 0 < c.size ∧ v = some (c.type ++ "("ₛ ++ itoa c.size.toNat ++ ")"ₛ)) ∨
    (c.type ∈ ["double"ₛ, "float"ₛ, "decimal"ₛ] ∧ 0 < c.size ∧ 0 < c.scale ∧
      v = some (c.type ++ "("ₛ ++ itoa c.size.toNat ++ ","ₛ ++ itoa c.scale.toNat ++ ")"ₛ))
  primary : ∀ v, ("primary_key"ₛ, v) ∈ tags ↔ v = none ∧ c.primaryKey = true
  auto : ∀ v, ("auto_increment"ₛ, v) ∈ tags ↔ v = none ∧ c.autoIncremental = true
  notNull : ∀ v, ("not null"ₛ, v) ∈ tags ↔ v = none ∧ c.notNull = true ∧ c.autoIncremental = false
  unique : ∀ v, ("unique"ₛ, v) ∈ tags ↔ v = none ∧ c.uniqueKey = true ∧ (uniqueColumns t).length ≤ 1
  uniqueIndex : ∀ v, ("unique_index"ₛ, v) ∈ tags ↔
    v = some (t.name ++ o.uniqueNameSuffix) ∧ c.uniqueKey = true ∧ 2 ≤ (uniqueColumns t).length
  index : (tags.filter (fun p => p.1 = "index"ₛ)).map (·.2) = (t.indices.filter (fun i => c.name ∈ i.columns)).map fun i =>
    some (i.name ++ if i.columns.length = 1 then [] else ",priority:"ₛ ++ itoa (i.columns.idxOf c.name + 1))
  once : ((tags.map Prod.fst).filter (fun k => k ≠ "index"ₛ)).Nodup
  others : ∀ p ∈ tags, p.1 ∈ ["column"ₛ, "type"ₛ, "primary_key"ₛ, "auto_increment"ₛ, "not null"ₛ, "unique"ₛ, "unique_index"ₛ, "index"ₛ]

/-- The table and column that a reference leads to. -/
def resolve (s : Schema) (r : Reference) : Option (Table × Column) :=
  (s.tables.find? fun t => t.name == r.table).bind fun t => (t.columns.find? fun c => c.name == r.column).map fun c => (t, c)

/-- The references of a table that lead somewhere, with their columns. -/
def links (s : Schema) (t : Table) : List (Column × Reference × Table × Column) :=
  t.columns.filterMap fun c => c.ref.bind fun r => (resolve s r).map fun p => (c, r, p.1, p.2)

/-- The field of a reference. -/
structure GormLink (sc : Strcase) (o : GormOption) (x : Column × Reference × Table × Column) (f : GoFieldDecl) : Prop where
  name : f.name = goStructName sc o x.2.2.1
  type : f.type = (if o.pointerAssociation then "*"ₛ else []) ++ (if x.2.1.relationship = "1:n"ₛ then "[]"ₛ else []) ++
    goStructName sc o x.2.2.1
  tags : f.tags = [("foreignKey"ₛ, some (goFieldName sc x.1.name)), ("references"ₛ, some (goFieldName sc x.2.2.2.name))]

/-- A choice of structs to embed: all their columns are columns of the table, no column belongs to two of them, and none is left
out unless a column of it is missing or belongs to another one. -/
structure Embeds (models : Models) (names : List Str) (chosen : Models) : Prop where
  known : ∀ m ∈ chosen, m ∈ models
  columns : ∀ m ∈ chosen, ∀ c ∈ m.2, c ∈ names
  apart : chosen.Pairwise fun a b => ∀ c ∈ a.2, c ∉ b.2
  distinct : (chosen.map Prod.fst).Nodup
  maximal : ∀ m ∈ models, (∀ c ∈ m.2, c ∈ names) → m ∈ chosen ∨ ∃ c ∈ m.2, ∃ m' ∈ chosen, c ∈ m'.2

/-- The columns of a table that no embedded struct has. -/
def ownColumns (chosen : Models) (t : Table) : List Column :=
  t.columns.filter fun c => chosen.all fun m => !m.2.contains c.name

/-- What a file says about a table: the structs it embeds, one field per column that these do not have, in order, and then one
field per reference, in order. -/
def GormDescribes (sc : Strcase) (o : GormOption) (s : Schema) (models : Models) (t : Table) (d : GoStructDecl) : Prop :=
  d.name = goStructName sc o t ∧ ∃ chosen, Embeds models (t.columns.map (·.name)) chosen ∧ d.embedded = chosen.map Prod.fst ∧
    List.Forall₂ (fun (c : Column) (f : GoFieldDecl) => f.name = goFieldName sc c.name ∧ f.type = goTypeOf c ∧ GormTags sc o t c f.tags)
      (ownColumns chosen t) (d.fields.take (ownColumns chosen t).length) ∧
    List.Forall₂ (GormLink sc o) (links s t) (d.fields.drop (ownColumns chosen t).length)

/-- A name of an embedded struct. -/
def ModelName (s : Str) : Prop := s ≠ [] ∧ s.all Gorm.isModelNameChar = true

instance (s : Str) : Decidable (ModelName s) := inferInstanceAs (Decidable (_ ∧ _))

/-- A schema and options whose texts can be written as they are. -/
structure PlainGorm (o : GormOption) (s : Schema) : Prop where
  tables : ∀ t ∈ s.tables, Ident t.name ∧ HasAlnum (o.removePrefixes.foldl trimPrefix t.name) ∧ (t.className = [] ∨ Ident t.className)
  prefixes : ∀ g, (o.prefixMapper.getPrefix g).all isAlnum = true
  columns : ∀ t ∈ s.tables, ∀ c ∈ t.columns, Ident c.name ∧ HasAlnum c.name
  indices : ∀ t ∈ s.tables, ∀ i ∈ t.indices, Ident i.name
  package : o.package = [] ∨ Ident o.package
  suffix : o.uniqueNameSuffix.all isIdent = true

/-- The number of times a struct has a column: in an embedded struct, or as a field of its own. -/
def occurrences (chosen : Models) (t : Table) (n : Str) : Nat :=
  (chosen.filter fun m => n ∈ m.2).length + ((ownColumns chosen t).filter fun c => c.name = n).length

/-- The name of a package, from its path: the last element, without a version. -/
def importName (path : Str) : Str := (splitN2 '.' ((split '/' path).getLast?.getD [])).1

/-- The package of a qualified name. -/
def qualifier (type : Str) : Option Str := match splitN2 '.' type with
  | (q, some _) => some q
  | (_, none) => none

/-- The packages that a struct uses. -/
def usedPackages (d : GoStructDecl) : List Str := d.embedded.filterMap qualifier ++ (d.fields.map (·.type)).filterMap qualifier

/-- A name that starts with a capital letter, and so can be used in other packages. -/
def Exported (s : Str) : Prop := s.head?.any (fun c => decide ('A' ≤ c) && decide (c ≤ 'Z')) = true

instance (s : Str) : Decidable (Exported s) := inferInstanceAs (Decidable (_ = _))

/-- The name under which an embedded struct is a member: its name without the package. -/
def embeddedName (e : Str) : Str := ((split '.' e).getLast?).getD []

/-- The members that a struct declares.  The Go compiler wants them to be different. -/
def goMembers (d : GoStructDecl) : List Str := d.embedded.map embeddedName ++ d.fields.map (·.name)

end Octo.Spec
