import Verif.Spec.Cli
import Verif.Spec.CliOrder

/-! When commands end in the middle of their work. -/

namespace Octo.Spec
open Cli

/-- The tables of the groups of an option. -/
def InGroups (groups : Str) (t : Table) : Prop := groups = [] ∨ t.group ∈ split ',' groups

/-- An option that has entries with and without a colon. -/
def MixedOption (o : Str) : Prop := ':' ∈ o ∧ ∃ e ∈ split ',' o, ':' ∉ e

/-- A table of the groups refers to a table that does not exist. -/
def DanglingReference (groups : Str) (s : Schema) : Prop :=
  ∃ t ∈ s.tables, InGroups groups t ∧ ∃ c ∈ t.columns, ∃ r, c.ref = some r ∧ ∀ u ∈ s.tables, u.name ≠ r.table

/-- A table of the groups refers to a table that does not exist in the groups. -/
def LeavingReference (groups : Str) (s : Schema) : Prop :=
  ∃ t ∈ s.tables, InGroups groups t ∧ ∃ c ∈ t.columns, ∃ r, c.ref = some r ∧ ∀ u ∈ s.tables, InGroups groups u → u.name ≠ r.table

/-- A table of the groups has no primary key. -/
def Keyless (groups : Str) (s : Schema) : Prop := ∃ t ∈ s.tables, InGroups groups t ∧ ∀ c ∈ t.columns, c.primaryKey = false

/-- `generate kt` gives up: it has to write a reference to a class that it does not generate. -/
def KtStops (v : Values) (s : Schema) : Prop := v "relation"ₛ = "VRelation"ₛ ∧ LeavingReference (v "groups"ₛ) s

/-- The command crashes for the schema. -/
def Crashes (v : Values) (s : Schema) : Cmd → Prop
  | .gorm | .graphql | .sqlalchemy => MixedOption (v "prefix"ₛ)
  | .pb => MixedOption (v "prefix"ₛ) ∨ DanglingReference (v "groups"ₛ) s
  | .kt => MixedOption (v "prefix"ₛ) ∨ MixedOption (v "annotation"ₛ) ∨
      (v "reposPackage"ₛ ≠ [] ∧ Keyless (v "groups"ₛ) s ∧ ¬KtStops v s)
  | _ => False

/-- The classes of the tables of the groups have names. -/
def ClassesNamed (sc : Strcase) (v : Values) (s : Schema) : Prop :=
  ∀ m, newPrefixMapper (v "prefix"ₛ) = some m → ∀ t ∈ s.tables, InGroups (v "groups"ₛ) t → t.className = [] →
    m.getPrefix t.group ++ sc.toCamel ((split ',' (v "removePrefix"ₛ)).foldl trimPrefix t.name) ≠ []

end Octo.Spec
