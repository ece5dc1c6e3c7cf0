import Verif.Model.Octopus
import Verif.Model.Common
import Verif.Model.Strcase

/-! Model of package `jpa`, format/jpa/kotlin.go, kotlin-gen.go and cli.go. -/

namespace Octo.Jpa

/-- `KtOption`, format/jpa/kotlin-gen.go 17-27. The mappers are not nil: cli.go 32-33 always sets them. -/
structure KtOption where
  annoMapper : AnnotationMapper
  prefixMapper : PrefixMapper
  tableFilter : Option (Table → Bool)
  idEntity : Str
  package : Str
  relation : Str
  removePrefixes : List Str
  reposPackage : Str
  uniqueNameSuffix : Str

/-! ### Classes -/

/-- The switch of `NewKotlinField`, format/jpa/kotlin.go 78-160: the type, the default value of a column that is not null,
and the imports. -/
def typeInfo (type : Str) : Str × Str × List Str :=
  let columnType := lower type
  if columnType ∈ ["char"ₛ, "varchar"ₛ, "text8"ₛ, "text16"ₛ, "text24"ₛ, "text32"ₛ] then ("String"ₛ, "\"\""ₛ, [])
  else if columnType = "boolean"ₛ then ("Boolean"ₛ, "false"ₛ, [])
  else if columnType ∈ ["int8"ₛ, "int16"ₛ, "int24"ₛ, "int32"ₛ] then ("Int"ₛ, "0"ₛ, [])
  else if columnType = "int64"ₛ then ("Long"ₛ, "0L"ₛ, [])
  else if columnType = "decimal"ₛ then ("BigDecimal"ₛ, "BigDecimal.ZERO"ₛ, ["java.math.BigDecimal"ₛ])
  else if columnType = "float"ₛ then ("Float"ₛ, "0.0F"ₛ, [])
  else if columnType = "double"ₛ then ("Double"ₛ, "0.0"ₛ, [])
  else if columnType = "datetime"ₛ then ("Timestamp"ₛ, "Timestamp(System.currentTimeMillis())"ₛ, ["java.sql.Timestamp"ₛ])
  else if columnType = "date"ₛ then ("LocalDate"ₛ, "LocalDate.now()"ₛ, ["java.time.LocalDate"ₛ])
  else if columnType = "time"ₛ then ("LocalTime"ₛ, "LocalTime.now()"ₛ, ["java.time.LocalTime"ₛ])
  else if columnType ∈ ["blob8"ₛ, "blob16"ₛ, "blob24"ₛ, "blob32"ₛ] then ("Blob"ₛ, [], ["java.sql.Blob"ₛ])
  else ("Any"ₛ, [], [])

/-- `KotlinField`, format/jpa/kotlin.go 19-26. -/
structure KotlinField where
  column : Column
  name : Str
  overrideName : Bool
  type : Str
  imports : List Str
  defaultValue : Str

/-- `NewKotlinField`, format/jpa/kotlin.go 70-175. -/
def newField (sc : Strcase) (c : Column) : KotlinField :=
  { column := c
    name := (utilToLowerCamel sc c.name).1
    overrideName := !(utilToLowerCamel sc c.name).2
    type := if c.notNull then (typeInfo c.type).1 else (typeInfo c.type).1 ++ "?"ₛ
    imports := ((typeInfo c.type).2.2.foldl StringSet.add StringSet.empty).slice
    defaultValue := if c.notNull then (typeInfo c.type).2.1 else [] }

/-- `KotlinClass`, format/jpa/kotlin.go 10-17, without the annotations, which `GenerateEntityClass` computes again. -/
structure KotlinClass where
  table : Table
  name : Str
  fields : List KotlinField
  pkFields : List KotlinField
  uniqueFields : List KotlinField

/-- The name of a class, format/jpa/kotlin.go 32-43. -/
def className (sc : Strcase) (o : KtOption) (t : Table) : Str :=
  if t.className = [] then
    let name := sc.toCamel (o.removePrefixes.foldl trimPrefix t.name)
    if o.prefixMapper.getPrefix t.group ≠ [] then o.prefixMapper.getPrefix t.group ++ name else name
  else t.className

/-- `NewKotlinClass`, format/jpa/kotlin.go 28-68. -/
def newClass (sc : Strcase) (o : KtOption) (t : Table) : KotlinClass :=
  let fields := t.columns.map (newField sc)
  { table := t
    name := className sc o t
    fields := fields
    pkFields := fields.filter (·.column.primaryKey)
    uniqueFields := fields.filter (·.column.uniqueKey) }

/-- `NewKtGenerator`, format/jpa/kotlin-gen.go 35-54: the classes of the generator. -/
def newClasses (sc : Strcase) (o : KtOption) (s : Schema) : List KotlinClass :=
  (s.tables.filter (passes o.tableFilter)).map (newClass sc o)

/-! ### Annotations -/

/-- `getClassNameByTableName`, format/jpa/kotlin-gen.go 283-290. -/
def classNameByTableName (classes : List KotlinClass) (table : Str) : Str :=
  ((classes.find? fun k => k.table.name == table).map (·.name)).getD []

/-- The attributes of `@Column`, format/jpa/kotlin-gen.go 86-107. -/
def columnAttrs (f : KotlinField) : List Str :=
  let c := f.column
  (if f.overrideName then ["name = \""ₛ ++ c.name ++ "\""ₛ] else []) ++
  (if c.notNull then ["nullable = false"ₛ] else []) ++
  (if isColTypeString c.type && c.size > 0 then ["length = "ₛ ++ itoa c.size.toNat] else []) ++
  (if isColTypeDecimal c.type && c.size > 0 then ["precision = "ₛ ++ itoa c.size.toNat] else []) ++
  (if isColTypeDecimal c.type && c.scale > 0 then ["scale = "ₛ ++ itoa c.scale.toNat] else []) ++
  (if c.type = "datetime"ₛ ∧ f.name = "createdAt"ₛ then ["updatable = false"ₛ] else [])

/-- The annotation of a reference, format/jpa/kotlin-gen.go 71-84; `none` when the process ends with `log.Fatalf`. -/
def relationAnnotation (sc : Strcase) (o : KtOption) (classes : List KotlinClass) (f : KotlinField) : Option (List Str) :=
  if o.relation = "VRelation"ₛ then
    match f.column.ref with
    | none => some []
    | some r =>
      let target := classNameByTableName classes r.table
      if target = [] then none
      else some ["@VRelation(cls = \""ₛ ++ target ++ "\", field = \""ₛ ++ sc.toLowerCamel r.column ++ "\")"ₛ]
  else some []

/-- `getFieldAnnotations`, format/jpa/kotlin-gen.go 56-116; `none` when the process ends with `log.Fatalf`. -/
def fieldAnnotations (sc : Strcase) (o : KtOption) (classes : List KotlinClass) (f : KotlinField) : Option (List Str) :=
  let c := f.column
  (relationAnnotation sc o classes f).map fun relation =>
    (if c.primaryKey then ["@Id"ₛ] else []) ++
    (if c.autoIncremental then ["@GeneratedValue(strategy = GenerationType.AUTO)"ₛ] else []) ++
    (if isColTypeClob c.type then ["@Lob"ₛ] else []) ++
    relation ++
    (if c.type = "datetime"ₛ ∧ f.name = "createdAt"ₛ then ["@CreationTimestamp"ₛ] else []) ++
    (if c.type = "datetime"ₛ ∧ f.name = "updatedAt"ₛ then ["@UpdateTimestamp"ₛ] else []) ++
    (if columnAttrs f = [] then [] else ["@Column("ₛ ++ join ", "ₛ (columnAttrs f) ++ ")"ₛ])

/-! ### Entities -/

/-- Each element with whether another one follows: `hasNext`, format/jpa/kotlin-gen.go 145-147. The fields of a class are
different pointers, so a field is compared with the last one by its position. -/
def withNext {α : Type} : List α → List (α × Bool)
  | [] => []
  | [x] => [(x, false)]
  | x :: y :: r => (x, true) :: withNext (y :: r)

/-- Whether the class implements the interface with an `id`, format/jpa/kotlin-gen.go 214-219. -/
def hasIdEntity (o : KtOption) (k : KotlinClass) : Bool :=
  decide (o.idEntity ≠ []) && k.pkFields.length == 1 && (k.pkFields.head?.map (·.name)) == some "id"ₛ

/-- The name of the class of the key, format/jpa/kotlin-gen.go 207-212. -/
def idClassName (k : KotlinClass) : Str := if k.pkFields.length > 1 then k.name ++ "PK"ₛ else []

/-- A comma, when another field follows. -/
def comma (hasNext : Bool) : Str := if hasNext then ","ₛ else []

/-- A field of an entity, format/jpa/kotlin-gen.go 171-185: the template inside `range .Class.Fields`. The field that
implements the interface is the only field of the primary key, when `hasIdEntity` holds. -/
def fieldText (idEntity : Bool) (annotations : List Str) (f : KotlinField) (hasNext : Bool) : Str :=
  annotations.flatMap (fun a => "\n        "ₛ ++ a) ++
  (if f.column.notNull then
    if idEntity && f.column.primaryKey then
      "\n        override var "ₛ ++ f.name ++ ": "ₛ ++ f.type ++ " = "ₛ ++ f.defaultValue ++ ","ₛ
    else "\n        var "ₛ ++ f.name ++ ": "ₛ ++ f.type ++ " = "ₛ ++ f.defaultValue ++ comma hasNext
  else "\n        var "ₛ ++ f.name ++ ": "ₛ ++ f.type ++ comma hasNext) ++ "\n"ₛ

/-- The imports of an entity, format/jpa/kotlin-gen.go 236-262: the ones that do not start with `java.`. -/
def imports (k : KotlinClass) : List Str :=
  (k.fields.foldl (fun s f =>
    ((((f.imports.filter fun i => !hasPrefix i "java."ₛ) ++
      (if f.column.type = "datetime"ₛ ∧ f.name = "createdAt"ₛ then ["org.hibernate.annotations.CreationTimestamp"ₛ] else []) ++
      (if f.column.type = "datetime"ₛ ∧ f.name = "updatedAt"ₛ then ["org.hibernate.annotations.UpdateTimestamp"ₛ] else [])).foldl
        StringSet.add s))) StringSet.empty).slice

/-- The imports of an entity, format/jpa/kotlin-gen.go 236-262: the ones that start with `java.`. -/
def javaImports (k : KotlinClass) : List Str :=
  (k.fields.foldl (fun s f => (f.imports.filter fun i => hasPrefix i "java."ₛ).foldl StringSet.add s)
    ((["javax.persistence.*"ₛ] ++ if k.pkFields.length > 1 then ["java.io.Serializable"ₛ] else []).foldl
      StringSet.add StringSet.empty)).slice

/-- The annotation `@Table`, format/jpa/kotlin-gen.go 160-166 and 230-234. -/
def tableText (o : KtOption) (k : KotlinClass) : Str :=
  if k.uniqueFields = [] then "\n@Table(name = \""ₛ ++ k.table.name ++ "\")"ₛ
  else "\n@Table(name=\""ₛ ++ k.table.name ++ "\", uniqueConstraints = [\n    UniqueConstraint(name = \""ₛ ++
    k.table.name ++ o.uniqueNameSuffix ++ "\", columnNames = ["ₛ ++
    join ", "ₛ (k.uniqueFields.map fun f => "\""ₛ ++ f.name ++ "\""ₛ) ++ "])\n])"ₛ

/-- The class of the key, format/jpa/kotlin-gen.go 192-198. -/
def idClassText (k : KotlinClass) : Str :=
  if idClassName k = [] then []
  else "\ndata class "ₛ ++ idClassName k ++ "("ₛ ++
    (withNext k.pkFields).flatMap (fun p =>
      "\n        var "ₛ ++ p.1.name ++ ": "ₛ ++ p.1.type ++ " = "ₛ ++ p.1.defaultValue ++ comma p.2) ++ "\n): Serializable"ₛ

/-- The end of an entity with its super class, format/jpa/kotlin-gen.go 186-190 and 224-228. -/
def endText (o : KtOption) (k : KotlinClass) : Str :=
  if hasIdEntity o k then
    "\n): "ₛ ++ o.idEntity ++ "<"ₛ ++ ((k.pkFields.head?.map (·.type)).getD []) ++ ">"ₛ
  else "\n)"ₛ

/-- `GenerateEntityClass`, format/jpa/kotlin-gen.go 135-281: the expansion of the template; `none` when the process ends. -/
def entityText (sc : Strcase) (o : KtOption) (classes : List KotlinClass) (k : KotlinClass) : Option Str :=
  (k.fields.mapM fun f => (fieldAnnotations sc o classes f).map fun as => (f, as)).map fun fields =>
    "package "ₛ ++ o.package ++ "\n\n"ₛ ++
    (imports k).flatMap (fun i => "import "ₛ ++ i ++ "\n"ₛ) ++ "\n"ₛ ++
    (javaImports k).flatMap (fun i => "import "ₛ ++ i ++ "\n"ₛ) ++ "\n"ₛ ++
    (o.annoMapper.getAnnotations k.table.group).flatten ++ "\n@Entity"ₛ ++ tableText o k ++
    (if idClassName k = [] then [] else "\n@IdClass("ₛ ++ idClassName k ++ "::class)"ₛ) ++
    "\ndata class "ₛ ++ k.name ++ "("ₛ ++
    (withNext fields).flatMap (fun p => fieldText (hasIdEntity o k) p.1.2 p.1.1 p.2) ++ endText o k ++ idClassText k ++ "\n"ₛ

/-! ### Repositories -/

/-- The type of the key, format/jpa/kotlin-gen.go 391-397; `none` is the panic of `PKFields[0]` without primary key. -/
def repositoryId (k : KotlinClass) : Option Str :=
  if k.pkFields.length > 1 then some (k.name ++ "PK"ₛ) else k.pkFields.head?.map (·.type)

/-- `generateRepository`, format/jpa/kotlin-gen.go 357-411. -/
def repositoryText (o : KtOption) (k : KotlinClass) : Option Str :=
  (repositoryId k).map fun id =>
    "package "ₛ ++ o.reposPackage ++ "\n\nimport "ₛ ++ o.package ++
    ".*\nimport org.springframework.data.jpa.repository.JpaRepository\nimport org.springframework.stereotype.Repository\n\n@Repository\ninterface "ₛ ++
    k.name ++ "Repository : JpaRepository<"ₛ ++ k.name ++ ", "ₛ ++ id ++ ">\n"ₛ

/-! ### Files -/

/-- `path.Join` (Go standard library) as the list of the elements that are not empty; elements `.` and `..` and separators
inside of elements are not treated. -/
def pathJoin (elems : List Str) : List Str := elems.filter (· ≠ [])

/-- `MkdirPackage`, util/io.go 12-21: the directory of a package. -/
def packageDir (out pkg : Str) : List Str := if pkg = [] then [] else pathJoin (out :: split '.' pkg)

/-- How a run ends: it returns, the process exits with `log.Fatalf`, or it panics. -/
inductive Ending
  | done
  | fatal
  | panic
  deriving DecidableEq, Repr

/-- A run: the files in the order in which they are written, and the end. -/
structure Run where
  writes : List (List Str × Str)
  ending : Ending

/-- Writes a file for each class and stops at the first one that has no text. -/
def writeAll (stop : Ending) (dir : List Str) (name : KotlinClass → Str) (text : KotlinClass → Option Str) : List KotlinClass → Run
  | [] => ⟨[], .done⟩
  | k :: ks => match text k with
    | none => ⟨[], stop⟩
    | some t => let r := writeAll stop dir name text ks; ⟨(pathJoin (dir ++ [name k]), t) :: r.writes, r.ending⟩

/-- `generateEntities`, format/jpa/kotlin-gen.go 306-329. -/
def generateEntities (sc : Strcase) (o : KtOption) (classes : List KotlinClass) (out : Str) : Run :=
  writeAll .fatal (packageDir out o.package) (fun k => k.name ++ ".kt"ₛ) (entityText sc o classes) classes

/-- `generateRepositories`, format/jpa/kotlin-gen.go 332-355. -/
def generateRepositories (o : KtOption) (classes : List KotlinClass) (out : Str) : Run :=
  writeAll .panic (packageDir out o.reposPackage) (fun k => k.name ++ "Repository.kt"ₛ) (repositoryText o) classes

/-- `Generate`, format/jpa/kotlin-gen.go 292-304, after `NewKtGenerator`. Errors of the file system are not modelled. -/
def generate (sc : Strcase) (o : KtOption) (s : Schema) (out : Str) : Run :=
  let classes := newClasses sc o s
  let entities := generateEntities sc o classes out
  match entities.ending with
  | .done =>
    if o.reposPackage = [] then entities
    else
      let repositories := generateRepositories o classes out
      ⟨entities.writes ++ repositories.writes, repositories.ending⟩
  | _ => entities

end Octo.Jpa
