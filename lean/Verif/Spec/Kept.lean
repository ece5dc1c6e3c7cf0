import Verif.Model.Cli
import Verif.Spec.Json

/-! What the commands that read a schema take from it, as a table after docs/*.md and README.md of /repo: names, types and groups, and
for each output some of the remaining data. -/

namespace Octo.Spec
open Cli

/-- The data of a schema apart from the names and groups of the tables and the names and types of the columns. -/
inductive Info
  | author | schemaName | version
  | tableDescription | className | indices
  | description | size | scale | notNull | primaryKey | uniqueKey | autoIncrement | default | onUpdate | values
  | reference | relationship
  deriving DecidableEq, Repr

def Info.all : List Info :=
  [.author, .schemaName, .version, .tableDescription, .className, .indices, .description, .size, .scale, .notNull, .primaryKey,
   .uniqueKey, .autoIncrement, .default, .onUpdate, .values, .reference, .relationship]

/-- A column without some of its data. -/
def Info.column : Info → Column → Column
  | .description, c => { c with description := [] }
  | .size, c => { c with size := 0 }
  | .scale, c => { c with scale := 0 }
  | .notNull, c => { c with notNull := false }
  | .primaryKey, c => { c with primaryKey := false }
  | .uniqueKey, c => { c with uniqueKey := false }
  | .autoIncrement, c => { c with autoIncremental := false }
  | .default, c => { c with defaultValue := [] }
  | .onUpdate, c => { c with onUpdate := [] }
  | .values, c => { c with values := [] }
  | .reference, c => { c with ref := none }
  | .relationship, c => { c with ref := c.ref.map fun r => { r with relationship := [] } }
  | _, c => c

/-- A table without some of its data. -/
def Info.table (i : Info) (t : Table) : Table :=
  let t := { t with columns := t.columns.map i.column }
  match i with
  | .tableDescription => { t with description := [] }
  | .className => { t with className := [] }
  | .indices => { t with indices := [] }
  | _ => t

/-- A schema without some of its data. -/
def without (i : Info) (s : Schema) : Schema :=
  let s := { s with tables := s.tables.map i.table }
  match i with
  | .author => { s with author := [] }
  | .schemaName => { s with name := [] }
  | .version => { s with version := [] }
  | _ => s

/-- The commands that read one schema. -/
def oneSchema : List Cmd :=
  [.exportDbml, .exportQuickdbd, .exportMysql, .exportXlsx, .gorm, .graphql, .kt, .liquibase, .plantuml, .pb, .sqlalchemy]

/-- What each of them shows, for some options. -/
def shownBy : Cmd → List Info
  | .exportDbml => [.description, .size, .scale, .notNull, .primaryKey, .uniqueKey, .default, .reference, .relationship]
  | .exportQuickdbd =>
    [.tableDescription, .description, .notNull, .primaryKey, .uniqueKey, .autoIncrement, .default, .reference, .relationship]
  | .exportMysql =>
    [.indices, .description, .size, .scale, .notNull, .primaryKey, .uniqueKey, .autoIncrement, .default, .onUpdate, .values]
  | .exportXlsx =>
    [.author, .schemaName, .version, .tableDescription, .className, .indices, .description, .size, .scale, .notNull, .primaryKey,
     .uniqueKey, .autoIncrement, .default, .onUpdate, .reference]
  | .gorm => [.className, .indices, .size, .scale, .notNull, .primaryKey, .uniqueKey, .autoIncrement, .reference, .relationship]
  | .graphql => [.schemaName, .version, .className, .notNull, .primaryKey]
  | .kt => [.className, .size, .scale, .notNull, .primaryKey, .uniqueKey, .autoIncrement, .reference]
  | .liquibase =>
    [.author, .tableDescription, .description, .size, .scale, .notNull, .primaryKey, .uniqueKey, .autoIncrement, .default]
  | .plantuml => [.notNull, .primaryKey, .uniqueKey, .reference, .relationship]
  | .pb => [.reference]
  | .sqlalchemy => [.className, .size, .scale, .notNull, .primaryKey, .uniqueKey, .autoIncrement]
  | _ => Info.all

/-- A file is a document of a schema. -/
def Holds (fs : Files) (f : Str) (s : Schema) : Prop :=
  ∃ t j, fs.at f = some (.text t) ∧ readJson t = some j ∧ Json.toSchema j = some s

/-- Two runs end in the same way and write the same files with the same contents. -/
def SameRun (fs fs' : Files) (r r' : Result) : Prop :=
  r.status = r'.status ∧ ∀ p, r.files p = r'.files p ∨ (r.files p = fs p ∧ r'.files p = fs' p)

/-- The columns of the schema have no values that a type needs. -/
def NoMembers (s : Schema) : Prop := ∀ t ∈ s.tables, ∀ c ∈ t.columns, lower c.type ≠ "set"ₛ ∧ lower c.type ≠ "enum"ₛ

end Octo.Spec
