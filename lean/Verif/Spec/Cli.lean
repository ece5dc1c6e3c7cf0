import Verif.Model.Cli
import Verif.Spec.Json
import Verif.Model.Strcase
import Verif.Spec.Octopus

/-! What the commands of the tool should do: documented options, the files a command may touch, and what runtime and libraries
guarantee. -/

namespace Octo.Spec
open Cli

/-! ### Documentation -/

/-- An option of the tables in docs/*.md of /repo: long name, short name, environment variable, and whether it is a switch ("Set flag
to ..."). -/
structure DocOption where
  long : Str
  short : Option Str
  env : Str
  switch : Bool := false
  deriving DecidableEq, Repr

/-- docs/init.md, mysql.md, ojson.md, staruml.md, xlsx.md, dbml.md, quickdbd.md, gorm.md, graphql.md, jpa.md, liquibase.md, plantuml.md,
protobuf.md, sqlalchemy.md.  (There is no document for `diff flyway` and `diff md`; they share the options of `diff liquibase`.) -/
def documented : Cmd → List DocOption
  | .init => [⟨"output"ₛ, some "o"ₛ, "OCTOPUS_OUTPUT"ₛ, false⟩]
  | .importMysql =>
    [⟨"author"ₛ, some "a"ₛ, "OCTOPUS_AUTHOR"ₛ, false⟩, ⟨"input"ₛ, some "i"ₛ, "OCTOPUS_INPUT"ₛ, false⟩,
     ⟨"output"ₛ, some "o"ₛ, "OCTOPUS_OUTPUT"ₛ, false⟩, ⟨"excludes"ₛ, some "x"ₛ, "OCTOPUS_EXCLUDES"ₛ, false⟩,
     ⟨"version"ₛ, some "v"ₛ, "OCTOPUS_VERSION"ₛ, false⟩]
  | .importOjson | .importStaruml | .importXlsx | .exportQuickdbd | .plantuml =>
    [⟨"input"ₛ, some "i"ₛ, "OCTOPUS_INPUT"ₛ, false⟩, ⟨"output"ₛ, some "o"ₛ, "OCTOPUS_OUTPUT"ₛ, false⟩]
  | .exportDbml =>
    [⟨"input"ₛ, some "i"ₛ, "OCTOPUS_INPUT"ₛ, false⟩, ⟨"output"ₛ, some "o"ₛ, "OCTOPUS_OUTPUT"ₛ, false⟩,
     ⟨"groups"ₛ, some "g"ₛ, "OCTOPUS_GROUPS"ₛ, false⟩]
  | .exportMysql =>
    [⟨"input"ₛ, some "i"ₛ, "OCTOPUS_INPUT"ₛ, false⟩, ⟨"output"ₛ, some "o"ₛ, "OCTOPUS_OUTPUT"ₛ, false⟩,
     ⟨"groups"ₛ, some "g"ₛ, "OCTOPUS_GROUPS"ₛ, false⟩, ⟨"uniqueNameSuffix"ₛ, some "u"ₛ, "OCTOPUS_UNIQUE_NAME_SUFFIX"ₛ, false⟩]
  | .exportXlsx =>
    [⟨"input"ₛ, some "i"ₛ, "OCTOPUS_INPUT"ₛ, false⟩, ⟨"output"ₛ, some "o"ₛ, "OCTOPUS_OUTPUT"ₛ, false⟩,
     ⟨"useNullColumn"ₛ, none, "OCTOPUS_USE_NULL_COLUMN"ₛ, true⟩]
  | .gorm =>
    [⟨"input"ₛ, some "i"ₛ, "OCTOPUS_INPUT"ₛ, false⟩, ⟨"output"ₛ, some "o"ₛ, "OCTOPUS_OUTPUT"ₛ, false⟩,
     ⟨"pointerAssociation"ₛ, some "a"ₛ, "OCTOPUS_POINTER_ASSOCIATION"ₛ, true⟩, ⟨"embed"ₛ, some "e"ₛ, "OCTOPUS_EMBED"ₛ, false⟩,
     ⟨"groups"ₛ, some "g"ₛ, "OCTOPUS_GROUPS"ₛ, false⟩, ⟨"package"ₛ, some "k"ₛ, "OCTOPUS_PACKAGE"ₛ, false⟩,
     ⟨"prefix"ₛ, some "p"ₛ, "OCTOPUS_PREFIX"ₛ, false⟩, ⟨"removePrefix"ₛ, some "r"ₛ, "OCTOPUS_REMOVE_PREFIX"ₛ, false⟩,
     ⟨"uniqueNameSuffix"ₛ, some "u"ₛ, "OCTOPUS_UNIQUE_NAME_SUFFIX"ₛ, false⟩]
  | .graphql =>
    [⟨"input"ₛ, some "i"ₛ, "OCTOPUS_INPUT"ₛ, false⟩, ⟨"output"ₛ, some "o"ₛ, "OCTOPUS_OUTPUT"ₛ, false⟩,
     ⟨"graphqlPackage"ₛ, some "p"ₛ, "OCTOPUS_GRAPHQL_PACKAGE"ₛ, false⟩]
  | .kt =>
    [⟨"input"ₛ, some "i"ₛ, "OCTOPUS_INPUT"ₛ, false⟩, ⟨"output"ₛ, some "o"ₛ, "OCTOPUS_OUTPUT"ₛ, false⟩,
     ⟨"annotation"ₛ, some "a"ₛ, "OCTOPUS_ANNOTATION"ₛ, false⟩, ⟨"groups"ₛ, some "g"ₛ, "OCTOPUS_GROUPS"ₛ, false⟩,
     ⟨"idEntity"ₛ, some "e"ₛ, "OCTOPUS_ID_ENTITY"ₛ, false⟩, ⟨"package"ₛ, some "p"ₛ, "OCTOPUS_PACKAGE"ₛ, false⟩,
     ⟨"prefix"ₛ, some "f"ₛ, "OCTOPUS_PREFIX"ₛ, false⟩, ⟨"relation"ₛ, some "l"ₛ, "OCTOPUS_RELATION"ₛ, false⟩,
     ⟨"removePrefix"ₛ, some "d"ₛ, "OCTOPUS_REMOVE_PREFIX"ₛ, false⟩, ⟨"reposPackage"ₛ, some "r"ₛ, "OCTOPUS_REPOS_PACKAGE"ₛ, false⟩,
     ⟨"uniqueNameSuffix"ₛ, some "q"ₛ, "OCTOPUS_UNIQUE_NAME_SUFFIX"ₛ, false⟩, ⟨"useUTC"ₛ, some "u"ₛ, "OCTOPUS_USE_UTC"ₛ, true⟩]
  | .liquibase =>
    [⟨"input"ₛ, some "i"ₛ, "OCTOPUS_INPUT"ₛ, false⟩, ⟨"output"ₛ, some "o"ₛ, "OCTOPUS_OUTPUT"ₛ, false⟩,
     ⟨"groups"ₛ, some "g"ₛ, "OCTOPUS_GROUPS"ₛ, false⟩, ⟨"uniqueNameSuffix"ₛ, some "u"ₛ, "OCTOPUS_UNIQUE_NAME_SUFFIX"ₛ, false⟩,
     ⟨"comments"ₛ, some "c"ₛ, "OCTOPUS_COMMENTS"ₛ, true⟩]
  | .pb =>
    [⟨"input"ₛ, some "i"ₛ, "OCTOPUS_INPUT"ₛ, false⟩, ⟨"output"ₛ, some "o"ₛ, "OCTOPUS_OUTPUT"ₛ, false⟩,
     ⟨"goPackage"ₛ, none, "OCTOPUS_GO_PACKAGE"ₛ, false⟩, ⟨"groups"ₛ, some "g"ₛ, "OCTOPUS_GROUPS"ₛ, false⟩,
     ⟨"package"ₛ, some "p"ₛ, "OCTOPUS_PACKAGE"ₛ, false⟩, ⟨"prefix"ₛ, some "f"ₛ, "OCTOPUS_PREFIX"ₛ, false⟩,
     ⟨"removePrefix"ₛ, some "d"ₛ, "OCTOPUS_REMOVE_PREFIX"ₛ, false⟩, ⟨"relationTagDecr"ₛ, none, "OCTOPUS_RELATION_TAG_DECR"ₛ, true⟩,
     ⟨"relationTagStart"ₛ, none, "OCTOPUS_RELATION_TAG_START"ₛ, false⟩]
  | .sqlalchemy =>
    [⟨"input"ₛ, some "i"ₛ, "OCTOPUS_INPUT"ₛ, false⟩, ⟨"output"ₛ, some "o"ₛ, "OCTOPUS_OUTPUT"ₛ, false⟩,
     ⟨"groups"ₛ, some "g"ₛ, "OCTOPUS_GROUPS"ₛ, false⟩, ⟨"prefix"ₛ, some "p"ₛ, "OCTOPUS_PREFIX"ₛ, false⟩,
     ⟨"removePrefix"ₛ, some "r"ₛ, "OCTOPUS_REMOVE_PREFIX"ₛ, false⟩,
     ⟨"uniqueNameSuffix"ₛ, some "u"ₛ, "OCTOPUS_UNIQUE_NAME_SUFFIX"ₛ, false⟩, ⟨"useUTC"ₛ, some "t"ₛ, "OCTOPUS_USE_UTC"ₛ, true⟩]
  | .diffFlyway | .diffLiquibase | .diffMd =>
    [⟨"author"ₛ, some "a"ₛ, "OCTOPUS_AUTHOR"ₛ, false⟩, ⟨"from"ₛ, some "f"ₛ, "OCTOPUS_FROM"ₛ, false⟩,
     ⟨"groups"ₛ, some "g"ₛ, "OCTOPUS_GROUPS"ₛ, false⟩, ⟨"output"ₛ, some "o"ₛ, "OCTOPUS_OUTPUT"ₛ, false⟩,
     ⟨"to"ₛ, some "t"ₛ, "OCTOPUS_TO"ₛ, false⟩, ⟨"uniqueNameSuffix"ₛ, some "u"ₛ, "OCTOPUS_UNIQUE_NAME_SUFFIX"ₛ, false⟩,
     ⟨"comments"ₛ, some "c"ₛ, "OCTOPUS_COMMENTS"ₛ, true⟩]

/-! ### Giving values to options -/

/-- The texts for true and false that are accepted for switches. -/
def boolTexts : Bool → List Str
  | true => ["1"ₛ, "t"ₛ, "T"ₛ, "TRUE"ₛ, "true"ₛ, "True"ₛ]
  | false => ["0"ₛ, "f"ₛ, "F"ₛ, "FALSE"ₛ, "false"ₛ, "False"ₛ]

/-- The text of a switch that is on or off. -/
def onOff : Bool → Str
  | true => "true"ₛ
  | false => "false"ₛ

/-- The arguments that give a value to an option: by any of its names, after one or two dashes, with the value behind a sign or as
next argument; a switch is on without a value. -/
inductive Form (f : Flag) : Str → List Str → Prop
  | next (d n x : Str) : d ∈ ["-"ₛ, "--"ₛ] → n ∈ f.names → f.bool = false → Form f x [d ++ n, x]
  | sign (d n x : Str) : d ∈ ["-"ₛ, "--"ₛ] → n ∈ f.names → f.bool = false → Form f x [d ++ n ++ "="ₛ ++ x]
  | on (d n : Str) : d ∈ ["-"ₛ, "--"ₛ] → n ∈ f.names → f.bool = true → Form f "true"ₛ [d ++ n]
  | switch (d n : Str) (b : Bool) (t : Str) : d ∈ ["-"ₛ, "--"ₛ] → n ∈ f.names → f.bool = true → t ∈ boolTexts b →
      Form f (onOff b) [d ++ n ++ "="ₛ ++ t]

/-- The value an option should have: the one that is given, else the one of the environment, else none (switches: off). -/
inductive Chosen (env : Str → Option Str) (given : List (Flag × Str)) (f : Flag) : Str → Prop
  | given (x : Str) : (f, x) ∈ given → Chosen env given f x
  | env (x : Str) : (∀ y, (f, y) ∉ given) → f.bool = false → env f.env = some x → Chosen env given f x
  | envSwitch (b : Bool) (t : Str) : (∀ y, (f, y) ∉ given) → f.bool = true → env f.env = some t → t ∈ boolTexts b →
      Chosen env given f (onOff b)
  | unset : (∀ y, (f, y) ∉ given) → f.bool = false → env f.env = none → Chosen env given f []
  | unsetSwitch : (∀ y, (f, y) ∉ given) → f.bool = true → (env f.env = none ∨ env f.env = some []) → Chosen env given f "false"ₛ

/-- The variables of switches can be read. -/
def GoodEnv (env : Str → Option Str) (c : Cmd) : Prop :=
  ∀ f ∈ c.flags, f.bool = true → ∀ t, env f.env = some t → t = [] ∨ ∃ b, t ∈ boolTexts b

/-- A list of arguments mentions an option: one of them starts with a name of the option after dashes. -/
def Mentions (f : Flag) (args : List Str) : Prop :=
  ∃ a ∈ args, ∃ d ∈ ["-"ₛ, "--"ₛ], ∃ n ∈ f.names, a = d ++ n ∨ (d ++ n ++ "="ₛ) <+: a

/-! ### Runtime and libraries -/

/-- What is known of runtime and libraries: sorting sorts, maps are visited entry by entry in some order, JSON is read after RFC 8259
(no document that can be read is refused or read in a different way; `readJson` does not read all documents). -/
structure Faithful (w : World) : Prop where
  sorter : SortSpec w.sorter
  json : ∀ s j, readJson s = some j → w.json s = some j
  sched : w.sched.Fair
  sheets : ∀ l, (w.sheets l).Perm l
  keys : ∀ l, (w.keys l).Perm l
  models : ∀ n l, ((w.models n).1 l).Perm l ∧ ((w.models n).2 l).Perm l

/-- Nothing is in the way of writing. -/
def Writable (w : World) : Prop := (∀ p, p.elems ≠ [] → w.writable p = true) ∧ ∀ d, w.mkdir d = true

/-! ### Commands -/

/-- The flags that name the files a command reads. -/
def inputs : Cmd → List Str
  | .init => []
  | .diffFlyway | .diffLiquibase | .diffMd => ["from"ₛ, "to"ₛ]
  | _ => ["input"ₛ]

/-- The path is the given one or below it. -/
def Below (out p : Path) : Prop := out.rooted = p.rooted ∧ ∃ r, p.elems = out.elems ++ r ∧ ".."ₛ ∉ r

/-- The names that become parts of file names have no separators, and Kotlin classes have a package. -/
def SafeNames (w : World) (v : Values) (fs : Files) : Cmd → Prop
  | .graphql => ∀ s, load w fs (v "input"ₛ) = some s → '/' ∉ s.name ∧ '/' ∉ s.version
  | .kt => v "package"ₛ ≠ [] ∧ '/' ∉ v "package"ₛ ∧ '/' ∉ v "reposPackage"ₛ ∧ '/' ∉ v "prefix"ₛ ∧
      ∀ s, load w fs (v "input"ₛ) = some s → ∀ t ∈ s.tables, '/' ∉ t.className
  | .sqlalchemy => ∀ s, load w fs (v "input"ₛ) = some s → ∀ t ∈ s.tables, '/' ∉ t.name
  | _ => True

/-- A file that is taken for a schema: `*.json` or `*.ojson`. -/
def IsOctopus (f : Str) : Prop := getFileFormat f = "octopus1"ₛ ∨ getFileFormat f = "octopus2"ₛ

instance (f : Str) : Decidable (IsOctopus f) := inferInstanceAs (Decidable (_ ∨ _))

/-- The file was saved by the tool and contains this schema. -/
def Stored (w : World) (fs : Files) (f : Str) (s : Schema) : Prop :=
  IsOctopus f ∧ ∃ (s₀ : Schema) (text : Str), DistinctTables s₀ ∧
    s₀.toJson w.sorter = some text ∧ fs.at f = some (.text text) ∧ s = (s₀.normalize w.sorter).1

/-- The schema of docs/init.md, with the canonical names of the types. -/
def initSchema : Schema :=
  { version := "1.0.0"ₛ
    tables := [
      { name := "group"ₛ, description := "Group table"ₛ
        columns := [
          { name := "id"ₛ, type := "int64"ₛ, description := "unique id"ₛ, primaryKey := true, autoIncremental := true },
          { name := "name"ₛ, type := "varchar"ₛ, size := 40, description := "group name"ₛ, uniqueKey := true }] },
      { name := "user"ₛ, description := "User table"ₛ
        columns := [
          { name := "id"ₛ, type := "int64"ₛ, description := "unique id"ₛ, primaryKey := true, autoIncremental := true },
          { name := "name"ₛ, type := "varchar"ₛ, size := 40, description := "user login name"ₛ, uniqueKey := true },
          { name := "group_id"ₛ, type := "int64"ₛ, description := "group ID"ₛ, ref := some ⟨"group"ₛ, "id"ₛ, "n:1"ₛ⟩ }] }] }

/-- A column of version 1 whose description is lost. -/
def v1Column (c : Ojson.Column) : Column :=
  { name := c.name, type := c.type, size := c.size, scale := c.scale, notNull := c.notNull, primaryKey := c.primaryKey
    uniqueKey := c.uniqueKey, autoIncremental := c.autoIncremental, defaultValue := c.defaultValue
    ref := c.ref.map fun r => ⟨r.table, r.column, []⟩ }

/-- A table of version 1 with such columns. -/
def v1Table (t : Ojson.Table) : Table :=
  { name := t.name, columns := t.columns.map v1Column, description := t.description, group := t.group, className := t.className }

/-- A schema of version 1 with such tables. -/
def v1Schema (s : Ojson.Schema) : Schema := { author := s.author, name := s.name, version := s.version, tables := s.tables.map v1Table }

/-- The option has an effect: two runs that differ only in its value can have different results. -/
def HasEffect (c : Cmd) (opt : Str) : Prop :=
  ∃ (w : World) (v : Values) (x : Str) (fs : Files), Faithful w ∧ w.sc = strcase ∧ Writable w ∧
    action w c (fun n => if n = opt then x else v n) fs ≠ action w c v fs

end Octo.Spec
