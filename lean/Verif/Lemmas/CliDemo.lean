import Verif.Spec.Cli
import Verif.Lemmas.Octopus

/-! A world and files in which the options of the commands have an effect. -/

namespace Octo.Cli
open Spec

/-- Runtime and libraries of the demonstration: everything can be written, and maps are visited in order. -/
def demoWorld : World where
  sorter := tableSort
  sorter1 := id
  json := readJson
  sql := fun s => if s = "sql"ₛ then
    some [.createTable "t"ₛ [⟨"id"ₛ, { tp := .longlong }, []⟩] [], .createTable "u"ₛ [⟨"id"ₛ, { tp := .longlong }, []⟩] []] else none
  float := fun _ => none
  accepts := fun _ => true
  sheets := id
  sched := ⟨id, fun _ => id⟩
  keys := id
  models := fun _ => (id, id)
  sc := strcase
  plural := id
  writable := fun _ => true
  mkdir := fun _ => true

theorem demo_faithful : Faithful demoWorld where
  sorter := tableSort_spec
  json := fun _ _ h => h
  sched := ⟨fun _ => List.Perm.refl _, fun _ _ => List.Perm.refl _⟩
  sheets := fun _ => List.Perm.refl _
  keys := fun _ => List.Perm.refl _
  models := fun _ _ => ⟨List.Perm.refl _, List.Perm.refl _⟩

theorem demo_writable : Writable demoWorld := ⟨fun _ _ => rfl, fun _ => rfl⟩

/-- A schema. -/
def demoA : Schema :=
  { author := "me"ₛ, name := "s"ₛ, version := "1"ₛ
    tables := [
      { name := "a_t"ₛ, group := "g"ₛ
        columns := [
          { name := "id"ₛ, type := "int64"ₛ, primaryKey := true, notNull := true },
          { name := "x"ₛ, type := "int32"ₛ, uniqueKey := true, description := "d"ₛ },
          { name := "y"ₛ, type := "int32"ₛ, uniqueKey := true }] },
      { name := "u"ₛ, group := "h"ₛ
        columns := [
          { name := "id"ₛ, type := "int64"ₛ, primaryKey := true },
          { name := "t"ₛ, type := "int64"ₛ, ref := some ⟨"a_t"ₛ, "id"ₛ, "n:1"ₛ⟩ },
          { name := "created_at"ₛ, type := "datetime"ₛ },
          { name := "k"ₛ, type := "int32"ₛ, uniqueKey := true },
          { name := "l"ₛ, type := "int32"ₛ, uniqueKey := true }] }] }

/-- The schema without the second table, with other columns. -/
def demoB : Schema :=
  { author := "me"ₛ, name := "s"ₛ, version := "2"ₛ
    tables := [
      { name := "a_t"ₛ, group := "g"ₛ
        columns := [
          { name := "id"ₛ, type := "int64"ₛ, primaryKey := true },
          { name := "x"ₛ, type := "int32"ₛ, uniqueKey := true }] }] }

/-- The files. -/
def demoFiles : Files := fun p =>
  if p = pathOf "a.json"ₛ then (demoA.toJson tableSort).map .text
  else if p = pathOf "b.json"ₛ then (demoB.toJson tableSort).map .text
  else if p = pathOf "a.sql"ₛ then some (.text "sql"ₛ)
  else if p = pathOf "a.xlsx"ₛ then some (.book [])
  else if p = pathOf "a.mdj"ₛ then some (.text "{\"_type\":\"Project\",\"ownedElements\":[{\"_type\":\"ERDDataModel\"}]}"ₛ)
  else if p = pathOf "a.ojson"ₛ then some (.text "{}"ₛ)
  else none

/-- The values before the change of an option. -/
def demoValues (c : Cmd) : Values := fun n =>
  if n = "input"ₛ then
    match c with
    | .importMysql => "a.sql"ₛ
    | .importOjson => "a.ojson"ₛ
    | .importStaruml => "a.mdj"ₛ
    | .importXlsx => "a.xlsx"ₛ
    | _ => "a.json"ₛ
  else if n = "from"ₛ then "b.json"ₛ
  else if n = "to"ₛ then "a.json"ₛ
  else if n = "output"ₛ then
    match c with
    | .gorm => "o.go"ₛ
    | .plantuml => "o.wsd"ₛ
    | .sqlalchemy => "o.py"ₛ
    | _ => "o"ₛ
  else if n = "package"ₛ then "p"ₛ
  else if n = "reposPackage"ₛ then "p"ₛ
  else []

/-- The other value. -/
def demoChange (n : Str) : Str :=
  if n = "embed"ₛ then "M:id"ₛ
  else if n = "removePrefix"ₛ then "a_"ₛ
  else if n = "excludes"ₛ then "t"ₛ
  else if n = "relation"ₛ then "VRelation"ₛ
  else if n ∈ ["comments"ₛ, "useUTC"ₛ, "pointerAssociation"ₛ, "useNullColumn"ₛ] then "true"ₛ
  else "z"ₛ

/-- What is compared of a file. -/
inductive Seen
  | text (s : Str)
  | book (l : List Xlsx.Sheet)
  | changelog (l : List Lq.LqChangeSet)
  deriving DecidableEq

def see : Content → Seen
  | .text s => .text s
  | .book l => .book l
  | .changelog l => .changelog l

/-- Where the result is looked at. -/
def demoPaths : Cmd → List Path
  | .gorm => [pathOf "o.go"ₛ]
  | .plantuml => [pathOf "o.wsd"ₛ]
  | .sqlalchemy => [pathOf "o.py"ₛ]
  | .graphql => [pathOf "o/s-1.graphqls"ₛ]
  | .kt => [pathOf "o/p/AT.kt"ₛ, pathOf "o/p/U.kt"ₛ, pathOf "o/p/ATRepository.kt"ₛ]
  | _ => [pathOf "o"ₛ]

def glance (c : Cmd) (r : Result) : Status × List (Option Seen) := (r.status, (demoPaths c).map fun p => (r.files p).map see)

/-- The demonstration for an option. -/
def shows (c : Cmd) (n : Str) : Bool :=
  decide (glance c (action demoWorld c (fun m => if m = n then demoChange n else demoValues c m) demoFiles) ≠
    glance c (action demoWorld c (demoValues c) demoFiles))

/-- The declared options that no command uses. -/
def inert : List (Cmd × Str) :=
  [(.exportDbml, "groups"ₛ), (.graphql, "graphqlPackage"ₛ), (.kt, "useUTC"ₛ), (.pb, "relationTagDecr"ₛ), (.pb, "relationTagStart"ₛ),
   (.diffFlyway, "author"ₛ), (.diffMd, "author"ₛ), (.diffMd, "uniqueNameSuffix"ₛ), (.diffLiquibase, "uniqueNameSuffix"ₛ)]

theorem shows_all : ∀ c ∈ Cmd.all, ∀ f ∈ c.flags, (c, f.name) ∉ inert → shows c f.name = true := by decide +kernel

theorem mem_all (c : Cmd) : c ∈ Cmd.all := by cases c <;> decide

theorem effect_of_shows {c : Cmd} {n : Str} (h : shows c n = true) : HasEffect c n := by
  refine ⟨demoWorld, demoValues c, demoChange n, demoFiles, demo_faithful, rfl, demo_writable, ?_⟩
  intro e
  unfold shows at h
  rw [e] at h
  exact absurd rfl (of_decide_eq_true h)

end Octo.Cli
