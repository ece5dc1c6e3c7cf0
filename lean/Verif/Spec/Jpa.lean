import Verif.Spec.Gorm
import Verif.Model.Jpa

/-! A reader of Kotlin files with JPA entities and repositories, and what these files should say about a schema. -/

namespace Octo.Spec
open Jpa (KtOption)

/-- The text before a suffix. -/
def ktBefore (p s : Str) : Option Str := (after p.reverse s.reverse).map List.reverse

/-- An annotation with its named arguments. -/
abbrev KtAnnotation := Str × List (Str × Str)

/-- A property of a primary constructor. -/
structure KtProperty where
  name : Str
  type : Str
  default : Option Str
  overrides : Bool
  annotations : List KtAnnotation
  deriving DecidableEq, Repr

/-- What stands before a class: the table with its unique constraint, the class of the key, and other annotations. -/
structure KtHead where
  table : Option Str
  unique : Option (Str × List Str)
  idClass : Option Str
  others : List Str
  deriving DecidableEq, Repr

/-- A data class. -/
structure KtClass where
  head : KtHead
  name : Str
  properties : List KtProperty
  super : Option Str
  deriving DecidableEq, Repr

/-- A repository with the entity and the type of its key. -/
structure KtRepository where
  name : Str
  entity : Str
  key : Str
  deriving DecidableEq, Repr

/-- A file. -/
structure KtFile where
  package : Option Str
  imports : List Str
  classes : List KtClass
  repositories : List KtRepository
  deriving DecidableEq, Repr

/-- Nothing stands before the class. -/
def noHead : KtHead := ⟨none, none, none, []⟩

/-- Where the reader is: outside of classes; in `@Table` before, or after, the unique constraint; in a class, with the
annotations of the next property, and whether another property may follow. -/
inductive KtMode
  | top (h : KtHead)
  | table (h : KtHead) (name : Str)
  | tableEnd (h : KtHead)
  | body (d : KtClass) (annotations : List KtAnnotation) (more : Bool)
  deriving DecidableEq

/-- The words that are no names in Kotlin. -/
def ktKeywords : List Str :=
  ["as"ₛ, "break"ₛ, "class"ₛ, "continue"ₛ, "do"ₛ, "else"ₛ, "false"ₛ, "for"ₛ, "fun"ₛ, "if"ₛ, "in"ₛ, "interface"ₛ, "is"ₛ, "null"ₛ,
   "object"ₛ, "package"ₛ, "return"ₛ, "super"ₛ, "this"ₛ, "throw"ₛ, "true"ₛ, "try"ₛ, "typealias"ₛ, "typeof"ₛ, "val"ₛ, "var"ₛ, "when"ₛ,
   "while"ₛ]

/-- A name in Kotlin. -/
def KtName (s : Str) : Prop := Ident s ∧ ¬ StartsWithDigit s ∧ s ∉ ktKeywords

instance (s : Str) : Decidable (KtName s) := inferInstanceAs (Decidable (_ ∧ _))

/-- An argument `name = value`. -/
def readKtArg (s : Str) : Option (Str × Str) := match tokens s with
  | [k, e, v] => if e = "="ₛ then some (k, v) else none
  | _ => none

/-- An annotation. -/
def readKtAnnotation (s : Str) : Option KtAnnotation :=
  (after "@"ₛ s).bind fun r => match splitN2 '(' r with
    | (n, none) => some (n, [])
    | (n, some r) => (ktBefore ")"ₛ r).bind fun as => ((parts (· == ',') as).mapM readKtArg).map fun as => (n, as)

/-- A text without the comma at its end, and whether there is one. -/
def endComma (s : Str) : Str × Bool := match ktBefore ","ₛ s with
  | some r => (r, true)
  | none => (s, false)

/-- Adds a property. -/
def addProperty (d : KtClass) (as : List KtAnnotation) (more : Bool) (f : KtFile) (overrides : Bool) (name type : Str)
    (default : Option Str) (next : Bool) : Option (KtMode × KtFile) :=
  (ktBefore ":"ₛ name).bind fun n =>
    if more = true ∧ KtName n ∧ type ≠ [] ∧ default ≠ some [] then
      some (.body { d with properties := d.properties ++ [⟨n, type, default, overrides, as⟩] } [] next, f)
    else none

/-- A line of a class, from its tokens. -/
def readKtTokens (d : KtClass) (as : List KtAnnotation) (more : Bool) (f : KtFile) : List Str → Option (KtMode × KtFile)
  | [] => some (.body d as more, f)
  | [a] => (readKtAnnotation a).map fun a => (.body d (as ++ [a]) more, f)
  | [v, n, t] =>
    if v = "var"ₛ then addProperty d as more f false n (endComma t).1 none (endComma t).2 else none
  | [o, v, n, t] =>
    if o = "override"ₛ ∧ v = "var"ₛ then addProperty d as more f true n (endComma t).1 none (endComma t).2 else none
  | [v, n, t, e, x] =>
    if v = "var"ₛ ∧ e = "="ₛ then addProperty d as more f false n t (some (endComma x).1) (endComma x).2 else none
  | [o, v, n, t, e, x] =>
    if o = "override"ₛ ∧ v = "var"ₛ ∧ e = "="ₛ then addProperty d as more f true n t (some (endComma x).1) (endComma x).2 else none
  | _ => none

/-- The end of a class. -/
def closeClass (d : KtClass) (as : List KtAnnotation) (f : KtFile) (super : Option Str) : Option (KtMode × KtFile) :=
  if as = [] then some (.top noHead, { f with classes := f.classes ++ [{ d with super := super }] }) else none

/-- A line of a class. -/
def readKtBody (d : KtClass) (as : List KtAnnotation) (more : Bool) (f : KtFile) (l : Str) : Option (KtMode × KtFile) :=
  if l = ")"ₛ then closeClass d as f none
  else match after "): "ₛ l with
    | some s => closeClass d as f (some s)
    | none => readKtTokens d as more f (tokens l)

/-- A line outside of classes, from its tokens. -/
def readKtTop (h : KtHead) (f : KtFile) : List Str → Option (KtMode × KtFile)
  | [] => some (.top h, f)
  | [k, a] =>
    if k = "package"ₛ ∧ f = ⟨none, [], [], []⟩ ∧ h = noHead then some (.top h, { f with package := some a })
    else if k = "import"ₛ ∧ f.classes = [] ∧ f.repositories = [] ∧ h = noHead then some (.top h, { f with imports := f.imports ++ [a] })
    else none
  | [k, n, c, e, i] =>
    if k = "interface"ₛ ∧ c = ":"ₛ then
      (after "JpaRepository<"ₛ e).bind fun e => (ktBefore ","ₛ e).bind fun e => (ktBefore ">"ₛ i).map fun i =>
        (.top noHead, { f with repositories := f.repositories ++ [⟨n, e, i⟩] })
    else none
  | _ => none

/-- A line outside of classes. -/
def readKtTopLine (h : KtHead) (f : KtFile) (l : Str) : Option (KtMode × KtFile) :=
  match after "data class "ₛ l with
  | some r => (ktBefore "("ₛ r).bind fun n => if KtName n then some (.body ⟨h, n, [], none⟩ [] true, f) else none
  | none => match after "@Table(name="ₛ l with
    | some r => (ktBefore ", uniqueConstraints = ["ₛ r).bind fun n => (unquote '"' n).map fun n => (.table h n, f)
    | none => match after "@Table(name = "ₛ l with
      | some r => (ktBefore ")"ₛ r).bind fun n => (unquote '"' n).map fun n => (.top { h with table := some n }, f)
      | none => match after "@IdClass("ₛ l with
        | some r => (ktBefore "::class)"ₛ r).map fun n => (.top { h with idClass := some n }, f)
        | none => if l.head? = some '@' then some (.top { h with others := h.others ++ [l] }, f) else readKtTop h f (tokens l)

/-- The columns of a unique constraint after the first one. -/
def readMoreColumn (s : Str) : Option Str := (after " "ₛ s).bind (unquote '"')

/-- The unique constraint of a table. -/
def readConstraint (l : Str) : Option (Str × List Str) :=
  (after "    UniqueConstraint(name = "ₛ l).bind fun r => (ktBefore "])"ₛ r).bind fun r =>
    match parts (· == ',') r with
    | n :: c :: cs => (unquote '"' n).bind fun n => ((after " columnNames = ["ₛ c).bind (unquote '"')).bind fun c =>
        (cs.mapM readMoreColumn).map fun cs => (n, c :: cs)
    | _ => none

/-- One line. -/
def readKtLine (st : KtMode × KtFile) (l : Str) : Option (KtMode × KtFile) :=
  match st.1 with
  | .top h => readKtTopLine h st.2 l
  | .table h n => (readConstraint l).map fun u => (.tableEnd { h with table := some n, unique := some u }, st.2)
  | .tableEnd h => if l = "])"ₛ then some (.top h, st.2) else none
  | .body d as more => readKtBody d as more st.2 l

/-- A file is complete outside of classes, with nothing before a class that does not come. -/
def ktDone (st : KtMode × KtFile) : Option KtFile := if st.1 = .top noHead then some st.2 else none

/-- Reads a Kotlin file. -/
def readKt (s : Str) : Option KtFile :=
  ((split '\n' s).foldlM readKtLine (KtMode.top noHead, ⟨none, [], [], []⟩)).bind ktDone

/-! ### What a file says -/

/-- The tables that the filter selects. -/
def JpaSelected (o : KtOption) (s : Schema) : List Table :=
  s.tables.filter fun t => (o.tableFilter.map fun f => f t).getD true

/-- The name of the class of a table: its class name, or the prefix of its group and its name in camel case. -/
def ktClassName (sc : Strcase) (o : KtOption) (t : Table) : Str :=
  if t.className = [] then o.prefixMapper.getPrefix t.group ++ sc.toCamel (o.removePrefixes.foldl trimPrefix t.name)
  else t.className

/-- Column types with their Kotlin types, the default values of these, and the class that must be imported. -/
def ktTypes : List (Str × Str × Option Str × Option Str) :=
  [("char"ₛ, "String"ₛ, some "\"\""ₛ, none), ("varchar"ₛ, "String"ₛ, some "\"\""ₛ, none), ("text8"ₛ, "String"ₛ, some "\"\""ₛ, none),
   ("text16"ₛ, "String"ₛ, some "\"\""ₛ, none), ("text24"ₛ, "String"ₛ, some "\"\""ₛ, none), ("text32"ₛ, "String"ₛ, some "\"\""ₛ, none),
   ("boolean"ₛ, "Boolean"ₛ, some "false"ₛ, none), ("int8"ₛ, "Int"ₛ, some "0"ₛ, none), ("int16"ₛ, "Int"ₛ, some "0"ₛ, none),
   ("int24"ₛ, "Int"ₛ, some "0"ₛ, none), ("int32"ₛ, "Int"ₛ, some "0"ₛ, none), ("int64"ₛ, "Long"ₛ, some "0L"ₛ, none),
   ("decimal"ₛ, "BigDecimal"ₛ, some "BigDecimal.ZERO"ₛ, some "java.math.BigDecimal"ₛ), ("float"ₛ, "Float"ₛ, some "0.0F"ₛ, none),
   ("double"ₛ, "Double"ₛ, some "0.0"ₛ, none),
   ("datetime"ₛ, "Timestamp"ₛ, some "Timestamp(System.currentTimeMillis())"ₛ, some "java.sql.Timestamp"ₛ),
   ("date"ₛ, "LocalDate"ₛ, some "LocalDate.now()"ₛ, some "java.time.LocalDate"ₛ),
   ("time"ₛ, "LocalTime"ₛ, some "LocalTime.now()"ₛ, some "java.time.LocalTime"ₛ),
   ("blob8"ₛ, "Blob"ₛ, none, some "java.sql.Blob"ₛ), ("blob16"ₛ, "Blob"ₛ, none, some "java.sql.Blob"ₛ),
   ("blob24"ₛ, "Blob"ₛ, none, some "java.sql.Blob"ₛ), ("blob32"ₛ, "Blob"ₛ, none, some "java.sql.Blob"ₛ)]

/-- The Kotlin type of a column, nullable exactly when the column is. -/
def ktTypeOf (c : Column) : Str :=
  ((ktTypes.lookup (lower c.type)).map (·.1)).getD "Any"ₛ ++ if c.notNull then [] else "?"ₛ

/-- The default value of a type. -/
def ktDefault (type : Str) : Option Str := (ktTypes.lookup (lower type)).bind (·.2.1)

/-- The class that a type needs. -/
def ktImport (type : Str) : Option Str := (ktTypes.lookup (lower type)).bind (·.2.2)

/-- A text in quotes. -/
def ktQuoted (s : Str) : Str := '"' :: s ++ ['"']

/-- The property name does not lead back to the column name. -/
def NeedsName (sc : Strcase) (n : Str) : Prop := sc.toSnake (sc.toLowerCamel n) ≠ n

instance (sc : Strcase) (n : Str) : Decidable (NeedsName sc n) := inferInstanceAs (Decidable (_ ≠ _))

/-- The arguments of `@Column`. -/
structure ColumnArgs (sc : Strcase) (c : Column) (as : List (Str × Str)) : Prop where
  name : ∀ v, ("name"ₛ, v) ∈ as ↔ v = ktQuoted c.name ∧ NeedsName sc c.name
  nullable : ∀ v, ("nullable"ₛ, v) ∈ as ↔ v = "false"ₛ ∧ c.notNull = true
  length : ∀ v, ("length"ₛ, v) ∈ as ↔ v = itoa c.size.toNat ∧ 0 < c.size ∧
    lower c.type ∈ ["text8"ₛ, "text16"ₛ, "text24"ₛ, "text32"ₛ, "char"ₛ, "varchar"ₛ]
  precision : ∀ v, ("precision"ₛ, v) ∈ as ↔ v = itoa c.size.toNat ∧ 0 < c.size ∧ lower c.type ∈ ["float"ₛ, "double"ₛ, "decimal"ₛ]
  scale : ∀ v, ("scale"ₛ, v) ∈ as ↔ v = itoa c.scale.toNat ∧ 0 < c.scale ∧ lower c.type ∈ ["float"ₛ, "double"ₛ, "decimal"ₛ]
  updatable : ∀ v, ("updatable"ₛ, v) ∈ as ↔ v = "false"ₛ ∧ c.type = "datetime"ₛ ∧ sc.toLowerCamel c.name = "createdAt"ₛ
  once : (as.map Prod.fst).Nodup
  others : ∀ a ∈ as, a.1 ∈ ["name"ₛ, "nullable"ₛ, "length"ₛ, "precision"ₛ, "scale"ₛ, "updatable"ₛ]

/-- The class of the first selected table with a name. -/
def ktTarget (sc : Strcase) (o : KtOption) (s : Schema) (n : Str) : Option Str :=
  ((JpaSelected o s).find? fun t => t.name == n).map (ktClassName sc o)

/-- The class that a column refers to exists, when references are written. -/
def Related (sc : Strcase) (o : KtOption) (s : Schema) (c : Column) : Prop :=
  o.relation = "VRelation"ₛ → ∀ r ∈ c.ref, ktTarget sc o s r.table ≠ none

instance (sc : Strcase) (o : KtOption) (s : Schema) (c : Column) : Decidable (Related sc o s c) :=
  inferInstanceAs (Decidable (_ → _))

/-- The annotations of the property of a column. -/
structure PropertyAnnotations (sc : Strcase) (o : KtOption) (s : Schema) (c : Column) (as : List KtAnnotation) : Prop where
  id : ∀ v, ("Id"ₛ, v) ∈ as ↔ v = [] ∧ c.primaryKey = true
  generated : ∀ v, ("GeneratedValue"ₛ, v) ∈ as ↔ v = [("strategy"ₛ, "GenerationType.AUTO"ₛ)] ∧ c.autoIncremental = true
  lob : ∀ v, ("Lob"ₛ, v) ∈ as ↔ v = [] ∧ lower c.type ∈ ["text8"ₛ, "text16"ₛ, "text24"ₛ, "text32"ₛ]
  relation : ∀ v, ("VRelation"ₛ, v) ∈ as ↔ o.relation = "VRelation"ₛ ∧ ∃ r, c.ref = some r ∧ ∃ k, ktTarget sc o s r.table = some k ∧
    v = [("cls"ₛ, ktQuoted k), ("field"ₛ, ktQuoted (sc.toLowerCamel r.column))]
  created : ∀ v, ("CreationTimestamp"ₛ, v) ∈ as ↔ v = [] ∧ c.type = "datetime"ₛ ∧ sc.toLowerCamel c.name = "createdAt"ₛ
  updated : ∀ v, ("UpdateTimestamp"ₛ, v) ∈ as ↔ v = [] ∧ c.type = "datetime"ₛ ∧ sc.toLowerCamel c.name = "updatedAt"ₛ
  column : ColumnArgs sc c ((as.lookup "Column"ₛ).getD [])
  once : (as.map Prod.fst).Nodup
  others : ∀ a ∈ as, a.1 ∈ ["Id"ₛ, "GeneratedValue"ₛ, "Lob"ₛ, "VRelation"ₛ, "CreationTimestamp"ₛ, "UpdateTimestamp"ₛ, "Column"ₛ]

/-- The primary key of a table. -/
def keyColumns (t : Table) : List Column := t.columns.filter (·.primaryKey)

/-- The property of a column. -/
structure IsProperty (sc : Strcase) (o : KtOption) (s : Schema) (c : Column) (p : KtProperty) : Prop where
  name : p.name = sc.toLowerCamel c.name
  type : p.type = ktTypeOf c
  default : p.default = if c.notNull then ktDefault c.type else none
  annotations : PropertyAnnotations sc o s c p.annotations

/-- A property of the class of a key. -/
structure IsKeyProperty (sc : Strcase) (c : Column) (p : KtProperty) : Prop where
  name : p.name = sc.toLowerCamel c.name
  type : p.type = ktTypeOf c
  default : p.default = ktDefault c.type
  plain : p.overrides = false ∧ p.annotations = []

/-- The entity implements the interface with an `id`. -/
def Implements (sc : Strcase) (o : KtOption) (t : Table) : Prop :=
  o.idEntity ≠ [] ∧ (keyColumns t).map (fun c => sc.toLowerCamel c.name) = ["id"ₛ]

instance (sc : Strcase) (o : KtOption) (t : Table) : Decidable (Implements sc o t) := inferInstanceAs (Decidable (_ ∧ _))

/-- What a file says about a table: an entity with one property per column, in order, and a class for a key of several columns. -/
structure JpaDescribes (sc : Strcase) (o : KtOption) (s : Schema) (t : Table) (f : KtFile) : Prop where
  package : f.package = some o.package
  repositories : f.repositories = []
  entity : ∃ e rest, f.classes = e :: rest ∧ e.name = ktClassName sc o t ∧ e.head.table = some t.name ∧
    "@Entity"ₛ ∈ e.head.others ∧
    List.Forall₂ (IsProperty sc o s) t.columns e.properties ∧
    (if 2 ≤ (keyColumns t).length then
      e.head.idClass = some (ktClassName sc o t ++ "PK"ₛ) ∧
      ∃ k, rest = [k] ∧ k.name = ktClassName sc o t ++ "PK"ₛ ∧ k.super = some "Serializable"ₛ ∧ k.head = noHead ∧
        List.Forall₂ (IsKeyProperty sc) (keyColumns t) k.properties
    else e.head.idClass = none ∧ rest = [])

/-- The file has text that Kotlin accepts for a column. -/
def KtColumn (sc : Strcase) (c : Column) : Prop :=
  KtName (sc.toLowerCamel c.name) ∧ (c.notNull = true → ktDefault c.type ≠ none)

instance (sc : Strcase) (c : Column) : Decidable (KtColumn sc c) := inferInstanceAs (Decidable (_ ∧ _))

/-- The file of a table is Kotlin: its names are names, and the properties that need a default value have one. -/
def KtTable (sc : Strcase) (o : KtOption) (t : Table) : Prop :=
  KtName (ktClassName sc o t) ∧ (∀ c ∈ t.columns, KtColumn sc c) ∧
    (2 ≤ (keyColumns t).length → ∀ c ∈ keyColumns t, c.notNull = true ∧ ktDefault c.type ≠ none)

instance (sc : Strcase) (o : KtOption) (t : Table) : Decidable (KtTable sc o t) := inferInstanceAs (Decidable (_ ∧ _))

/-- What the file of a table must import. -/
def NeedsImport (sc : Strcase) (t : Table) (i : Str) : Prop :=
  i = "javax.persistence.*"ₛ ∨ (i = "java.io.Serializable"ₛ ∧ 2 ≤ (keyColumns t).length) ∨ (∃ c ∈ t.columns, ktImport c.type = some i) ∨
    (i = "org.hibernate.annotations.CreationTimestamp"ₛ ∧
      ∃ c ∈ t.columns, c.type = "datetime"ₛ ∧ sc.toLowerCamel c.name = "createdAt"ₛ) ∨
    (i = "org.hibernate.annotations.UpdateTimestamp"ₛ ∧
      ∃ c ∈ t.columns, c.type = "datetime"ₛ ∧ sc.toLowerCamel c.name = "updatedAt"ₛ)

/-- The type of the key of a table: the class of a key of several columns, or the type of the only column. -/
def ktKeyType (sc : Strcase) (o : KtOption) (t : Table) : Str :=
  match keyColumns t with
  | [c] => ktTypeOf c
  | _ => ktClassName sc o t ++ "PK"ₛ

/-- The file of the repository of a table. -/
def ktRepositoryFile (sc : Strcase) (o : KtOption) (t : Table) : KtFile :=
  ⟨some o.reposPackage, [o.package ++ ".*"ₛ, "org.springframework.data.jpa.repository.JpaRepository"ₛ,
    "org.springframework.stereotype.Repository"ₛ], [], [⟨ktClassName sc o t ++ "Repository"ₛ, ktClassName sc o t, ktKeyType sc o t⟩]⟩

/-- The unique constraint of the entity lists the unique columns. -/
def UniqueListed (o : KtOption) (t : Table) (f : KtFile) : Prop :=
  f.classes.head?.map (·.head.unique) = some (if uniqueColumns t = [] then none
    else some (t.name ++ o.uniqueNameSuffix, (uniqueColumns t).map (·.name)))

/-- A schema and options whose texts can be written as they are. -/
structure PlainJpa (o : KtOption) (s : Schema) : Prop where
  tables : ∀ t ∈ s.tables, PlainQuoted '"' t.name ∧ HasAlnum (o.removePrefixes.foldl trimPrefix t.name) ∧
    (t.className = [] ∨ Ident t.className)
  prefixes : ∀ g, (o.prefixMapper.getPrefix g).all isAlnum = true
  columns : ∀ t ∈ s.tables, ∀ c ∈ t.columns, PlainQuoted '"' c.name ∧ HasAlnum c.name ∧ ∀ r ∈ c.ref, HasAlnum r.column
  package : Word o.package
  idEntity : o.idEntity = [] ∨ Ident o.idEntity
  suffix : PlainQuoted '"' o.uniqueNameSuffix
  annotations : ∀ g, ∀ a ∈ o.annoMapper.getAnnotations g, a = [] ∨ ∃ n, Ident n ∧ a = '@' :: n

/-- The file of a table. -/
def entityPath (sc : Strcase) (o : KtOption) (out : Str) (t : Table) : List Str :=
  ((out :: split '.' o.package).filter (· ≠ [])) ++ [ktClassName sc o t ++ ".kt"ₛ]

/-- The file of the repository of a table. -/
def repositoryPath (sc : Strcase) (o : KtOption) (out : Str) (t : Table) : List Str :=
  ((out :: split '.' o.reposPackage).filter (· ≠ [])) ++ [ktClassName sc o t ++ "Repository.kt"ₛ]

/-- The text of a file after the writes: the last text that was written. -/
def fileText (writes : List (List Str × Str)) (p : List Str) : Option Str := writes.reverse.lookup p

end Octo.Spec
