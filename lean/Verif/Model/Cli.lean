import Verif.Model.Json
import Verif.Model.Ojson
import Verif.Model.StarumlJson
import Verif.Model.Xlsx
import Verif.Model.Mysql
import Verif.Model.MysqlImport
import Verif.Model.Dbml
import Verif.Model.Quickdbd
import Verif.Model.Plantuml
import Verif.Model.Diff
import Verif.Model.DiffOut
import Verif.Model.Liquibase
import Verif.Model.Protobuf
import Verif.Model.Gorm
import Verif.Model.Jpa
import Verif.Model.Sqlalchemy
import Verif.Model.Graphql

/-! Model of the command line: main.go and the files cli.go of all packages.

The parser of arguments (github.com/urfave/cli v2.3.0 and package flag of Go) is third party and modelled from its documentation:
flags of the form `-name value`, `-name=value` and `-name` for booleans, with one or two dashes, up to the first argument that is no
flag; environment variables for flags that are not given; required flags.  Completion of shells is left out. -/

namespace Octo.Cli

/-! ### Flags -/

/-- `cli.StringFlag` and `cli.BoolFlag`: name, aliases, environment variable. -/
structure Flag where
  name : Str
  aliases : List Str := []
  env : Str
  required : Bool := false
  bool : Bool := false
  deriving DecidableEq, Repr

def Flag.names (f : Flag) : List Str := f.name :: f.aliases

/-- The flag for help that the library adds to every command. -/
def helpFlag : Flag := { name := "help"ₛ, aliases := ["h"ₛ], env := [], bool := true }

/-- `strconv.ParseBool`. -/
def parseBool (s : Str) : Option Bool :=
  if s ∈ ["1"ₛ, "t"ₛ, "T"ₛ, "TRUE"ₛ, "true"ₛ, "True"ₛ] then some true
  else if s ∈ ["0"ₛ, "f"ₛ, "F"ₛ, "FALSE"ₛ, "false"ₛ, "False"ₛ] then some false
  else none

/-- The name in an argument that starts with one or two dashes; `none` for an argument that is no flag. -/
def flagText : Str → Option Str
  | '-' :: '-' :: s => some s
  | '-' :: c :: s => some (c :: s)
  | _ => none

/-- Splits `name=value`; the sign is not looked for at the first position. -/
def splitValue (s : Str) : Str × Option Str :=
  match s with
  | [] => ([], none)
  | c :: r =>
    match r.dropWhile (· ≠ '=') with
    | [] => (s, none)
    | _ :: v => (c :: r.takeWhile (· ≠ '='), some v)

/-- `flag.FlagSet.Parse`: the flags that are given, with their values; `none` is an error. -/
def parseArgs (flags : List Flag) : List Str → Option (List (Str × Str))
  | [] => some []
  | a :: rest =>
    match flagText a with
    | none => some []
    | some s =>
      if s = [] then some []
      else if s.head? = some '-' ∨ s.head? = some '=' then none
      else
        let kv := splitValue s
        match flags.find? (fun f => decide (kv.1 ∈ f.names)) with
        | none => none
        | some f =>
          if f.bool then
            match kv.2 with
            | none => (parseArgs flags rest).map ((kv.1, "true"ₛ) :: ·)
            | some v => match parseBool v with
              | none => none
              | some b => (parseArgs flags rest).map ((kv.1, if b then "true"ₛ else "false"ₛ) :: ·)
          else
            match kv.2 with
            | some v => (parseArgs flags rest).map ((kv.1, v) :: ·)
            | none => match rest with
              | [] => none
              | v :: rest => (parseArgs flags rest).map ((kv.1, v) :: ·)

/-- The names under which a flag is given. -/
def givenNames (given : List (Str × Str)) (f : Flag) : List Str := f.names.filter fun n => given.any (·.1 == n)

/-- The value given last. -/
def givenValue (given : List (Str × Str)) (f : Flag) : Option Str :=
  (given.reverse.find? fun p => decide (p.1 ∈ f.names)).map Prod.snd

/-- The value from the environment, `Flag.Apply`: an empty variable counts for strings only. -/
def envValue (env : Str → Option Str) (f : Flag) : Option Str :=
  match env f.env with
  | none => none
  | some v => if f.bool then (if v = [] then none else (parseBool v).map fun b => if b then "true"ₛ else "false"ₛ) else some v

/-- An environment variable of a boolean flag that cannot be read. -/
def badEnv (env : Str → Option Str) (f : Flag) : Bool :=
  match env f.env with
  | none => false
  | some v => f.bool && v != [] && (parseBool v).isNone

/-- The text of the value of every flag; flags that are not declared have none. -/
abbrev Values := Str → Str

/-- `Context.String` and `Context.Bool` (as text) after parsing. -/
def values (flags : List Flag) (env : Str → Option Str) (given : List (Str × Str)) : Values := fun n =>
  match flags.find? (fun f => decide (n ∈ f.names)) with
  | none => []
  | some f => ((givenValue given f).or (envValue env f)).getD (if f.bool then "false"ₛ else [])

/-- `Context.Bool`: text that is no boolean counts as false. -/
def Values.bool (v : Values) (n : Str) : Bool := parseBool (v n) = some true

inductive Parsed
  | help
  | usage
  | run (v : Values)

/-- `Command.Run`, up to the action. -/
def parse (flags : List Flag) (env : Str → Option Str) (args : List Str) : Parsed :=
  if flags.any (badEnv env) then .usage
  else match parseArgs (helpFlag :: flags) args with
    | none => .usage
    | some given =>
      if (helpFlag :: flags).any (fun f => decide ((givenNames given f).length > 1)) then .usage
      else if givenValue given helpFlag = some "true"ₛ then .help
      else if flags.any (fun f => f.required && ((givenValue given f).or (envValue env f)).isNone) then .usage
      else .run (values flags env given)

/-! ### Commands -/

/-- The commands of main.go 30-158. -/
inductive Cmd
  | init
  | importMysql | importOjson | importStaruml | importXlsx
  | exportDbml | exportQuickdbd | exportMysql | exportXlsx
  | gorm | graphql | kt | liquibase | plantuml | pb | sqlalchemy
  | diffFlyway | diffLiquibase | diffMd
  deriving DecidableEq, Repr

/-- The words that select a command, main.go 30-158. -/
def Cmd.words : Cmd → List Str
  | .init => ["init"ₛ]
  | .importMysql => ["import"ₛ, "mysql"ₛ]
  | .importOjson => ["import"ₛ, "ojson"ₛ]
  | .importStaruml => ["import"ₛ, "staruml"ₛ]
  | .importXlsx => ["import"ₛ, "xlsx"ₛ]
  | .exportDbml => ["export"ₛ, "dbml"ₛ]
  | .exportQuickdbd => ["export"ₛ, "quickdbd"ₛ]
  | .exportMysql => ["export"ₛ, "mysql"ₛ]
  | .exportXlsx => ["export"ₛ, "xlsx"ₛ]
  | .gorm => ["generate"ₛ, "gorm"ₛ]
  | .graphql => ["generate"ₛ, "graphql"ₛ]
  | .kt => ["generate"ₛ, "kt"ₛ]
  | .liquibase => ["generate"ₛ, "liquibase"ₛ]
  | .plantuml => ["generate"ₛ, "plantuml"ₛ]
  | .pb => ["generate"ₛ, "pb"ₛ]
  | .sqlalchemy => ["generate"ₛ, "sqlalchemy"ₛ]
  | .diffFlyway => ["diff"ₛ, "flyway"ₛ]
  | .diffLiquibase => ["diff"ₛ, "liquibase"ₛ]
  | .diffMd => ["diff"ₛ, "md"ₛ]

def Cmd.all : List Cmd :=
  [.init, .importMysql, .importOjson, .importStaruml, .importXlsx, .exportDbml, .exportQuickdbd, .exportMysql, .exportXlsx, .gorm,
   .graphql, .kt, .liquibase, .plantuml, .pb, .sqlalchemy, .diffFlyway, .diffLiquibase, .diffMd]

/-- A string flag with an alias. -/
def str (name al env : Str) (required : Bool := false) : Flag := ⟨name, [al], env, required, false⟩
/-- A boolean flag with an alias. -/
def boo (name al env : Str) : Flag := ⟨name, [al], env, false, true⟩

def inputFlag : Flag := str "input"ₛ "i"ₛ "OCTOPUS_INPUT"ₛ true
def outputFlag : Flag := str "output"ₛ "o"ₛ "OCTOPUS_OUTPUT"ₛ true
def groupsFlag : Flag := str "groups"ₛ "g"ₛ "OCTOPUS_GROUPS"ₛ
def suffixFlag (al : Str) : Flag := str "uniqueNameSuffix"ₛ al "OCTOPUS_UNIQUE_NAME_SUFFIX"ₛ
def prefixFlag (al : Str) : Flag := str "prefix"ₛ al "OCTOPUS_PREFIX"ₛ
def removePrefixFlag (al : Str) : Flag := str "removePrefix"ₛ al "OCTOPUS_REMOVE_PREFIX"ₛ
def packageFlag (al : Str) : Flag := str "package"ₛ al "OCTOPUS_PACKAGE"ₛ
def commentsFlag : Flag := boo "comments"ₛ "c"ₛ "OCTOPUS_COMMENTS"ₛ

/-- The flags of `diff`, format/diff/cli.go 110-156. -/
def diffFlags : List Flag :=
  [str "author"ₛ "a"ₛ "OCTOPUS_AUTHOR"ₛ, str "from"ₛ "f"ₛ "OCTOPUS_FROM"ₛ true, groupsFlag, outputFlag, str "to"ₛ "t"ₛ "OCTOPUS_TO"ₛ true,
   suffixFlag "u"ₛ, commentsFlag]

/-- The flags that the commands declare: format/octopus/cli.go 68-76 (the default text is shown only, it is not a value),
format/mysql/cli.go 38-71 and 95-122, format/ojson/cli.go 25-40, format/staruml/cli.go 28-43, format/xlsx/cli.go 30-45 and 62-82,
format/dbml/cli.go 37-58, format/quickdbd/cli.go 34-49, format/gorm/cli.go 65-122, format/graphql/cli.go 36-57,
format/jpa/cli.go 45-120, format/liquibase/cli.go 33-66, format/plantuml/cli.go 50-65, format/protobuf/cli.go 52-107,
format/sqlalchemy/cli.go 39-84. -/
def Cmd.flags : Cmd → List Flag
  | .init => [str "output"ₛ "o"ₛ "OCTOPUS_OUTPUT"ₛ]
  | .importMysql =>
    [str "author"ₛ "a"ₛ "OCTOPUS_AUTHOR"ₛ, inputFlag, outputFlag, str "excludes"ₛ "x"ₛ "OCTOPUS_EXCLUDES"ₛ,
     str "version"ₛ "v"ₛ "OCTOPUS_VERSION"ₛ]
  | .importOjson | .importStaruml | .importXlsx => [inputFlag, outputFlag]
  | .exportDbml => [inputFlag, outputFlag, groupsFlag]
  | .exportQuickdbd => [inputFlag, outputFlag]
  | .exportMysql => [inputFlag, outputFlag, groupsFlag, suffixFlag "u"ₛ]
  | .exportXlsx => [inputFlag, outputFlag, ⟨"useNullColumn"ₛ, [], "OCTOPUS_USE_NULL_COLUMN"ₛ, false, true⟩]
  | .gorm =>
    [inputFlag, outputFlag, boo "pointerAssociation"ₛ "a"ₛ "OCTOPUS_POINTER_ASSOCIATION"ₛ, str "embed"ₛ "e"ₛ "OCTOPUS_EMBED"ₛ, groupsFlag,
     packageFlag "k"ₛ, prefixFlag "p"ₛ, removePrefixFlag "r"ₛ, suffixFlag "u"ₛ]
  | .graphql => [inputFlag, outputFlag, str "graphqlPackage"ₛ "p"ₛ "OCTOPUS_GRAPHQL_PACKAGE"ₛ]
  | .kt =>
    [inputFlag, outputFlag, str "annotation"ₛ "a"ₛ "OCTOPUS_ANNOTATION"ₛ, groupsFlag, str "idEntity"ₛ "e"ₛ "OCTOPUS_ID_ENTITY"ₛ,
     packageFlag "p"ₛ, prefixFlag "f"ₛ, str "relation"ₛ "l"ₛ "OCTOPUS_RELATION"ₛ, removePrefixFlag "d"ₛ,
     str "reposPackage"ₛ "r"ₛ "OCTOPUS_REPOS_PACKAGE"ₛ, suffixFlag "q"ₛ, boo "useUTC"ₛ "u"ₛ "OCTOPUS_USE_UTC"ₛ]
  | .liquibase => [inputFlag, outputFlag, groupsFlag, suffixFlag "u"ₛ, commentsFlag]
  | .plantuml => [inputFlag, outputFlag]
  | .pb =>
    [inputFlag, outputFlag, ⟨"goPackage"ₛ, [], "OCTOPUS_GO_PACKAGE"ₛ, false, false⟩, groupsFlag, packageFlag "p"ₛ, prefixFlag "f"ₛ,
     removePrefixFlag "d"ₛ, ⟨"relationTagDecr"ₛ, [], "OCTOPUS_RELATION_TAG_DECR"ₛ, false, true⟩,
     str "relationTagStart"ₛ "s"ₛ "OCTOPUS_RELATION_TAG_START"ₛ]
  | .sqlalchemy =>
    [inputFlag, outputFlag, groupsFlag, prefixFlag "p"ₛ, removePrefixFlag "r"ₛ, suffixFlag "u"ₛ, str "useUTC"ₛ "t"ₛ "OCTOPUS_USE_UTC"ₛ]
  | .diffFlyway | .diffLiquibase | .diffMd => diffFlags

/-! ### Files -/

/-- The content of a file.  What other programs read or write in formats that are not modelled as text is kept as it is: spreadsheets
and YAML changelogs (for these see Model/LqYaml.lean). -/
inductive Content
  | text (s : Str)
  | book (sheets : List Xlsx.Sheet)
  | changelog (sets : List Lq.LqChangeSet)

/-- A path after `path.Clean` (Go standard library): whether it starts at the root, and its elements; `..` can only be at the start
of a path that does not start at the root. -/
structure Path where
  rooted : Bool
  elems : List Str
  deriving DecidableEq, Repr

/-- A step of `path.Clean`, on the elements so far in reverse order. -/
def cleanStep (rooted : Bool) (acc : List Str) (e : Str) : List Str :=
  if e = [] ∨ e = "."ₛ then acc
  else if e = ".."ₛ then
    match acc with
    | [] => if rooted then [] else [".."ₛ]
    | a :: r => if a = ".."ₛ then ".."ₛ :: acc else r
  else e :: acc

/-- The file that a text names: `path.Clean` of the text.  Links are not modelled. -/
def pathOf (s : Str) : Path :=
  let rooted := s.head? == some '/'
  ⟨rooted, ((split '/' s).foldl (cleanStep rooted) []).reverse⟩

/-- The path of `path.Join`; `Jpa.pathJoin` leaves out the empty elements. -/
def joined (elems : List Str) : Path := pathOf (join "/"ₛ elems)

/-- The files, by path.  Directories are not modelled. -/
abbrev Files := Path → Option Content

def Files.set (fs : Files) (p : Path) (c : Content) : Files := fun q => if q = p then some c else fs q

/-- The file that a text names. -/
def Files.at (fs : Files) (p : Str) : Option Content := fs (pathOf p)

/-- `ioutil.ReadFile`, as text. -/
def Files.text (fs : Files) (p : Str) : Option Str :=
  match fs.at p with
  | some (.text s) => some s
  | _ => none

/-- The runtime and third-party libraries, as far as they are not fixed by the code: sorting, map iteration orders, parsers, and
which files can be written and directories made. -/
structure World where
  sorter : List Table → List Table
  sorter1 : List Ojson.Table → List Ojson.Table
  json : Str → Option Json
  sql : Str → Option (List MysqlImport.Stmt)
  float : Str → Option Str
  accepts : Str → Bool
  sheets : List (Str × List Xlsx.Row) → List (Str × List Xlsx.Row)
  sched : Sched
  keys : List Str → List Str
  models : Nat → (Gorm.Models → Gorm.Models) × (Gorm.Models → Gorm.Models)
  sc : Strcase
  plural : Str → Str
  writable : Path → Bool
  mkdir : Path → Bool

/-- How a run ends: `help` and `usage` before the action, `fatal` is `log.Fatal`. -/
inductive Status
  | ok | help | usage | error | fatal | panic
  deriving DecidableEq, Repr

structure Result where
  files : Files
  status : Status

/-- Writes a file. -/
def write (w : World) (fs : Files) (p : Path) (c : Content) : Result :=
  if w.writable p then ⟨fs.set p c, .ok⟩ else ⟨fs, .error⟩

/-- Writes several files one after the other, and ends as given. -/
def writeAll (w : World) (last : Status) : Files → List (Path × Content) → Result
  | fs, [] => ⟨fs, last⟩
  | fs, p :: ps => if w.writable p.1 then writeAll w last (fs.set p.1 p.2) ps else ⟨fs, .error⟩

/-- `util.Mkdir`, util/io.go 47-52: there is no directory with the empty name. -/
def mkdir (w : World) (dir : Str) : Bool := dir != [] && w.mkdir (pathOf dir)

/-- `octopus.LoadSchema`, format/octopus/io.go 8-23. -/
def load (w : World) (fs : Files) (filename : Str) : Option Schema :=
  let format := getFileFormat filename
  loadSchema w.sorter (format == "octopus1"ₛ || format == "octopus2"ₛ) (((fs.text filename).bind w.json).bind Json.toSchema)

/-- `Schema.ToFile`, format/octopus/table.go 153-159, and the same steps in format/staruml/cli.go 20-25 and format/xlsx/cli.go 22-27. -/
def save (w : World) (fs : Files) (s : Schema) (filename : Str) : Result :=
  match s.toJson w.sorter with
  | none => ⟨fs, .error⟩
  | some text => write w fs (pathOf filename) (.text text)

/-- Runs an action on the schema of the file named by a flag. -/
def withSchema (w : World) (fs : Files) (filename : Str) (k : Schema → Result) : Result :=
  match load w fs filename with
  | none => ⟨fs, .error⟩
  | some s => k s

/-! ### Actions -/

/-- The schema of `InitAction`, format/octopus/cli.go 9-66. -/
def sample : Schema :=
  { version := "1.0.0"ₛ
    tables := [
      { name := "user"ₛ, description := "User table"ₛ
        columns := [
          { name := "id"ₛ, type := "bigint"ₛ, description := "unique id"ₛ, primaryKey := true, autoIncremental := true },
          { name := "name"ₛ, type := "varchar"ₛ, size := 40, description := "user login name"ₛ, uniqueKey := true },
          { name := "group_id"ₛ, type := "bigint"ₛ, description := "group ID"ₛ, ref := some ⟨"group"ₛ, "id"ₛ, "n:1"ₛ⟩ }] },
      { name := "group"ₛ, description := "Group table"ₛ
        columns := [
          { name := "id"ₛ, type := "bigint"ₛ, description := "unique id"ₛ, primaryKey := true, autoIncremental := true },
          { name := "name"ₛ, type := "varchar"ₛ, size := 40, description := "group name"ₛ, uniqueKey := true }] }] }

/-- `mysql.ImportAction`, format/mysql/cli.go 21-36. -/
def importMysqlAction (w : World) (v : Values) (fs : Files) : Result :=
  match (fs.text (v "input"ₛ)).bind w.sql with
  | none => ⟨fs, .error⟩
  | some stmts =>
    match MysqlImport.importSql (split ',' (v "excludes"ₛ)) (v "author"ₛ) (v "version"ₛ) stmts with
    | none => ⟨fs, .panic⟩
    | some s => save w fs s (v "output"ₛ)

/-- `ojson.ImportAction`, format/ojson/cli.go 12-23. -/
def importOjsonAction (w : World) (v : Values) (fs : Files) : Result :=
  match Ojson.importJSON w.sorter1 ((fs.text (v "input"ₛ)).bind w.json) with
  | .error => ⟨fs, .error⟩
  | .panic => ⟨fs, .panic⟩
  | .ok s => save w fs s (v "output"ₛ)

/-- `staruml.ImportAction`, format/staruml/cli.go 13-26. -/
def importStarumlAction (w : World) (v : Values) (fs : Files) : Result :=
  match Staruml.importJson ((fs.text (v "input"ₛ)).bind w.json) with
  | .error => ⟨fs, .error⟩
  | .panic => ⟨fs, .panic⟩
  | .ok s => save w fs s (v "output"ₛ)

/-- `xlsx.ImportAction`, format/xlsx/cli.go 15-28. -/
def importXlsxAction (w : World) (v : Values) (fs : Files) : Result :=
  match fs.at (v "input"ₛ) with
  | some (.book sheets) =>
    match Xlsx.importWorkbook w.sheets sheets with
    | none => ⟨fs, .error⟩
    | some s => save w fs s (v "output"ₛ)
  | _ => ⟨fs, .error⟩

/-- `dbml.ExportAction`, format/dbml/cli.go 16-35. -/
def exportDbmlAction (w : World) (v : Values) (fs : Files) : Result :=
  withSchema w fs (v "input"ₛ) fun s => write w fs (pathOf (v "output"ₛ)) (.text (Dbml.exportText (getTableFilterFn (v "groups"ₛ)) s))

/-- `quickdbd.ExportAction`, format/quickdbd/cli.go 15-32. -/
def exportQuickdbdAction (w : World) (v : Values) (fs : Files) : Result :=
  withSchema w fs (v "input"ₛ) fun s => write w fs (pathOf (v "output"ₛ)) (.text (Quickdbd.exportText s))

/-- `mysql.ExportAction`, format/mysql/cli.go 73-93. -/
def exportMysqlAction (w : World) (v : Values) (fs : Files) : Result :=
  withSchema w fs (v "input"ₛ) fun s =>
    write w fs (pathOf (v "output"ₛ)) (.text (Mysql.exportSchema (getTableFilterFn (v "groups"ₛ)) (v "uniqueNameSuffix"ₛ) s))

/-- `xlsx.ExportAction`, format/xlsx/cli.go 47-60. -/
def exportXlsxAction (w : World) (v : Values) (fs : Files) : Result :=
  withSchema w fs (v "input"ₛ) fun s =>
    match Xlsx.exportSchema w.accepts (v.bool "useNullColumn"ₛ) s with
    | none => ⟨fs, .error⟩
    | some sheets => write w fs (pathOf (v "output"ₛ)) (.book sheets)

/-- The output file of GORM and PlantUML, format/gorm/cli.go 44-54 and format/plantuml/cli.go 28-39: the output itself when it has one
of the extensions, else a file in that directory, which is made first. -/
def writeIn (w : World) (fs : Files) (exts : List Str) (out name : Str) (text : Str) : Result :=
  if lower (fileExt out) ∈ exts then write w fs (pathOf out) (.text text)
  else if mkdir w out then write w fs (joined (Jpa.pathJoin [out, name])) (.text text)
  else ⟨fs, .error⟩

/-- `gorm.Action`, format/gorm/cli.go 25-63. -/
def gormAction (w : World) (v : Values) (fs : Files) : Result :=
  withSchema w fs (v "input"ₛ) fun s =>
    match newPrefixMapper (v "prefix"ₛ) with
    | none => ⟨fs, .panic⟩
    | some m =>
      let o : Gorm.GormOption :=
        { prefixMapper := m, tableFilter := getTableFilterFn (v "groups"ₛ), embed := v "embed"ₛ, package := v "package"ₛ
          pointerAssociation := v.bool "pointerAssociation"ₛ, removePrefixes := split ',' (v "removePrefix"ₛ)
          uniqueNameSuffix := v "uniqueNameSuffix"ₛ }
      writeIn w fs [".go"ₛ] (v "output"ₛ) "output.go"ₛ (Gorm.generate w.sc w.models Gorm.defaultModels o s).1

/-- `graphql.Action`, format/graphql/cli.go 19-34. -/
def graphqlAction (w : World) (v : Values) (fs : Files) : Result :=
  withSchema w fs (v "input"ₛ) fun s =>
    match newPrefixMapper (v "prefix"ₛ) with
    | none => ⟨fs, .panic⟩
    | some m =>
      let o : Graphql.GqlOption :=
        { prefixMapper := m, tableFilter := getTableFilterFn (v "groups"ₛ), removePrefixes := split ',' (v "removePrefix"ₛ) }
      let file := Graphql.generate w.sc w.plural o s (v "output"ₛ)
      if mkdir w (v "output"ₛ) then write w fs (joined file.1) (.text file.2) else ⟨fs, .error⟩

/-- `util.MkdirPackage`, util/io.go 12-21: nothing without a package. -/
def mkdirPackage (w : World) (out pkg : Str) : Bool := pkg == [] || w.mkdir (joined (Jpa.packageDir out pkg))

/-- The end of a run of the Kotlin generator. -/
def ktStatus : Jpa.Ending → Status
  | .done => .ok
  | .fatal => .fatal
  | .panic => .panic

/-- The files of a run of the Kotlin generator. -/
def ktFiles (r : Jpa.Run) : List (Path × Content) := r.writes.map fun p => (joined p.1, .text p.2)

/-- `jpa.KotlinAction`, format/jpa/cli.go 25-43, with `Generate`, format/jpa/kotlin-gen.go 292-355. -/
def ktAction (w : World) (v : Values) (fs : Files) : Result :=
  withSchema w fs (v "input"ₛ) fun s =>
    match newAnnotationMapper (v "annotation"ₛ), newPrefixMapper (v "prefix"ₛ) with
    | some a, some m =>
      let o : Jpa.KtOption :=
        { annoMapper := a, prefixMapper := m, tableFilter := getTableFilterFn (v "groups"ₛ), idEntity := v "idEntity"ₛ
          package := v "package"ₛ, relation := v "relation"ₛ, removePrefixes := split ',' (v "removePrefix"ₛ)
          reposPackage := v "reposPackage"ₛ, uniqueNameSuffix := v "uniqueNameSuffix"ₛ }
      let classes := Jpa.newClasses w.sc o s
      if mkdirPackage w (v "output"ₛ) o.package then
        let entities := Jpa.generateEntities w.sc o classes (v "output"ₛ)
        let r := writeAll w (ktStatus entities.ending) fs (ktFiles entities)
        if r.status = .ok ∧ o.reposPackage ≠ [] then
          if mkdirPackage w (v "output"ₛ) o.reposPackage then
            let repositories := Jpa.generateRepositories o classes (v "output"ₛ)
            writeAll w (ktStatus repositories.ending) r.files (ktFiles repositories)
          else ⟨r.files, .error⟩
        else r
      else ⟨fs, .error⟩
    | _, _ => ⟨fs, .panic⟩

/-- `liquibase.Action`, format/liquibase/cli.go 16-31, with `Generate`, format/liquibase/generator.go 512-529. -/
def liquibaseAction (w : World) (v : Values) (fs : Files) : Result :=
  withSchema w fs (v "input"ₛ) fun s =>
    match Lq.generateAll w.float
      { tableFilter := getTableFilterFn (v "groups"ₛ), uniqueNameSuffix := v "uniqueNameSuffix"ₛ, useComments := v.bool "comments"ₛ } s with
    | none => ⟨fs, .error⟩
    | some sets => write w fs (pathOf (v "output"ₛ)) (.changelog sets)

/-- `plantuml.Action`, format/plantuml/cli.go 17-48. -/
def plantumlAction (w : World) (v : Values) (fs : Files) : Result :=
  withSchema w fs (v "input"ₛ) fun s =>
    writeIn w fs [".wsd"ₛ, ".pu"ₛ, ".puml"ₛ, ".plantuml"ₛ, ".iuml"ₛ] (v "output"ₛ) "output.plantuml"ₛ (Plantuml.generate s)

/-- `protobuf.Action`, format/protobuf/cli.go 24-50. -/
def pbAction (w : World) (v : Values) (fs : Files) : Result :=
  withSchema w fs (v "input"ₛ) fun s =>
    match Protobuf.cliOption (v "prefix"ₛ) (v "groups"ₛ) (v "removePrefix"ₛ) (v "package"ₛ) (v "goPackage"ₛ)
        (v "relationTagStart"ₛ) (v.bool "relationTagDecr"ₛ) with
    | none => ⟨fs, .panic⟩
    | some o => match Protobuf.generate w.sc o s with
      | none => ⟨fs, .panic⟩
      | some text => write w fs (pathOf (v "output"ₛ)) (.text text)

/-- `filepath.Dir`, without cleaning the path. -/
def dirOf (p : Str) : Str :=
  match p.reverse.dropWhile (· ≠ '/') with
  | [] => "."ₛ
  | [_] => "/"ₛ
  | _ :: r => r.reverse

/-- `sqlalchemy.Action`, format/sqlalchemy/cli.go 20-37, with `Generate`, format/sqlalchemy/generator.go 37-214. -/
def sqlalchemyAction (w : World) (v : Values) (fs : Files) : Result :=
  withSchema w fs (v "input"ₛ) fun s =>
    match newPrefixMapper (v "prefix"ₛ) with
    | none => ⟨fs, .panic⟩
    | some m =>
      let o : Sqlalchemy.SaOption :=
        { prefixMapper := m, tableFilter := getTableFilterFn (v "groups"ₛ), removePrefixes := split ',' (v "removePrefix"ₛ)
          uniqueNameSuffix := v "uniqueNameSuffix"ₛ, useUTC := v.bool "useUTC"ₛ }
      if mkdir w (if Sqlalchemy.single (v "output"ₛ) then dirOf (v "output"ₛ) else v "output"ₛ) then
        writeAll w .ok fs ((Sqlalchemy.generate w.sc o s (v "output"ₛ)).map fun p => (joined p.1, .text p.2))
      else ⟨fs, .error⟩

/-- Runs an action on the two schemas to compare. -/
def withSchemas (w : World) (v : Values) (fs : Files) (k : Schema → Schema → Result) : Result :=
  withSchema w fs (v "from"ₛ) fun a => withSchema w fs (v "to"ₛ) fun b => k a b

/-- The option of `FlywayAction` and `MarkdownAction`, format/diff/cli.go 40-47 and 89-96. -/
def diffOption (v : Values) (a b : Schema) : DiffOption :=
  { tableFilter := getTableFilterFn (v "groups"ₛ), diffFrom := a, diffTo := b, author := v "author"ₛ
    uniqueNameSuffix := v "uniqueNameSuffix"ₛ, useComments := v.bool "comments"ₛ }

/-- `FlywayAction`, format/diff/cli.go 33-59. -/
def diffFlywayAction (w : World) (v : Values) (fs : Files) : Result :=
  withSchemas w v fs fun a b =>
    write w fs (pathOf (v "output"ₛ)) (.text (flyway (v "uniqueNameSuffix"ₛ) (getDiff (diffOption v a b) w.sched)))

/-- `LiquibaseAction`, format/diff/cli.go 61-80: the option has no suffix for the names of unique constraints. -/
def diffLiquibaseAction (w : World) (v : Values) (fs : Files) : Result :=
  withSchemas w v fs fun a b =>
    match Lq.generate w.float
      { tableFilter := getTableFilterFn (v "groups"ₛ), diffFrom := a, diffTo := b, author := v "author"ₛ
        useComments := v.bool "comments"ₛ } w.sched with
    | none => ⟨fs, .error⟩
    | some sets => write w fs (pathOf (v "output"ₛ)) (.changelog sets)

/-- `MarkdownAction`, format/diff/cli.go 82-108. -/
def diffMdAction (w : World) (v : Values) (fs : Files) : Result :=
  withSchemas w v fs fun a b =>
    write w fs (pathOf (v "output"ₛ)) (.text (markdown w.keys a.version b.version (getDiff (diffOption v a b) w.sched)))

/-- The actions of the commands, main.go 30-158; `InitAction` is format/octopus/cli.go 9-66. -/
def action (w : World) : Cmd → Values → Files → Result
  | .init => fun v fs => save w fs sample (v "output"ₛ)
  | .importMysql => importMysqlAction w
  | .importOjson => importOjsonAction w
  | .importStaruml => importStarumlAction w
  | .importXlsx => importXlsxAction w
  | .exportDbml => exportDbmlAction w
  | .exportQuickdbd => exportQuickdbdAction w
  | .exportMysql => exportMysqlAction w
  | .exportXlsx => exportXlsxAction w
  | .gorm => gormAction w
  | .graphql => graphqlAction w
  | .kt => ktAction w
  | .liquibase => liquibaseAction w
  | .plantuml => plantumlAction w
  | .pb => pbAction w
  | .sqlalchemy => sqlalchemyAction w
  | .diffFlyway => diffFlywayAction w
  | .diffLiquibase => diffLiquibaseAction w
  | .diffMd => diffMdAction w

/-- Runs a command with its arguments. -/
def run (w : World) (env : Str → Option Str) (c : Cmd) (args : List Str) (fs : Files) : Result :=
  match parse c.flags env args with
  | .help => ⟨fs, .help⟩
  | .usage => ⟨fs, .usage⟩
  | .run v => action w c v fs

/-- The arguments after the words of a command. -/
def dropWords : List Str → List Str → Option (List Str)
  | [], args => some args
  | w :: ws, a :: args => if w = a then dropWords ws args else none
  | _ :: _, [] => none

/-- `main`, main.go 160-189, on the arguments after the name of the program; `none` when they name no command, and only help is shown. -/
def main (w : World) (env : Str → Option Str) (args : List Str) (fs : Files) : Result :=
  match Cmd.all.findSome? (fun c => (dropWords c.words args).map fun rest => (c, rest)) with
  | some (c, rest) => run w env c rest fs
  | none => ⟨fs, .help⟩

end Octo.Cli
