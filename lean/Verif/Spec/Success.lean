import Verif.Spec.Targets
import Verif.Spec.Octopus

/-! When commands succeed. -/

namespace Octo.Spec
open Cli

/-- The directory of a file. -/
def Parent (file d : Str) : Prop :=
  (d = "."ₛ ∧ '/' ∉ file) ∨ ∃ n, '/' ∉ n ∧ ((d ≠ [] ∧ file = d ++ "/"ₛ ++ n) ∨ (d = "/"ₛ ∧ file = "/"ₛ ++ n))

/-- The directory of a package. -/
def packageIn (out pkg : Str) : Str := out ++ "/"ₛ ++ pkg.map (fun c => if c = '.' then '/' else c)

/-- The directories that a command makes. -/
def Makes (v : Values) (d : Str) : Cmd → Prop
  | .gorm => ¬EndsIn [".go"ₛ] (v "output"ₛ) ∧ d = v "output"ₛ
  | .plantuml => ¬EndsIn plantumlExts (v "output"ₛ) ∧ d = v "output"ₛ
  | .graphql => d = v "output"ₛ
  | .sqlalchemy => (EndsIn [".py"ₛ] (v "output"ₛ) ∧ Parent (v "output"ₛ) d) ∨ (¬EndsIn [".py"ₛ] (v "output"ₛ) ∧ d = v "output"ₛ)
  | .kt => (v "package"ₛ ≠ [] ∧ d = packageIn (v "output"ₛ) (v "package"ₛ)) ∨
      (v "reposPackage"ₛ ≠ [] ∧ d = packageIn (v "output"ₛ) (v "reposPackage"ₛ))
  | _ => False

/-- The text of a whole number of 64 bits. -/
def IntText (s : Str) : Prop :=
  ∃ ds : Str, ds ≠ [] ∧ (∀ c ∈ ds, isDigit c = true) ∧
    ((s = '-' :: ds ∧ digitsVal ds ≤ 2 ^ 63) ∨ ((s = ds ∨ s = '+' :: ds) ∧ digitsVal ds < 2 ^ 63))

/-- A default value that is no number of the kind that the type asks for. -/
def BadDefault (float : Str → Option Str) (c : Column) : Prop :=
  c.defaultValue ≠ [] ∧
    ((lower c.type ∈ ["long"ₛ, "bigint"ₛ, "int"ₛ, "smallint"ₛ] ∧ ¬IntText c.defaultValue) ∨
     (lower c.type ∈ ["decimal"ₛ, "float"ₛ, "double"ₛ, "number"ₛ] ∧ float c.defaultValue = none))

/-- The sheet of the tables of a group. -/
def sheetOf (g : Str) : Str := if g = [] then "Common"ₛ else g

/-- The schema is fit for the command. -/
def Fit (w : World) (v : Values) (s : Schema) : Cmd → Prop
  | .exportXlsx => w.accepts "Meta"ₛ = true ∧ (∀ t ∈ s.tables, w.accepts (sheetOf t.group) = true) ∧
      (∀ t ∈ s.tables, t.group ≠ "Meta"ₛ) ∧ ∀ t ∈ s.tables, ∀ u ∈ s.tables, sheetOf t.group = sheetOf u.group → t.group = u.group
  | .liquibase => ∀ t ∈ s.tables, InGroups (v "groups"ₛ) t → ∀ c ∈ t.columns, ¬BadDefault w.float c
  | .gorm | .graphql | .sqlalchemy => ¬MixedOption (v "prefix"ₛ)
  | .pb => ¬MixedOption (v "prefix"ₛ) ∧ ¬DanglingReference (v "groups"ₛ) s
  | .kt => ¬MixedOption (v "prefix"ₛ) ∧ ¬MixedOption (v "annotation"ₛ) ∧ ¬KtStops v s ∧
      (v "reposPackage"ₛ = [] ∨ ¬Keyless (v "groups"ₛ) s)
  | _ => True

end Octo.Spec
