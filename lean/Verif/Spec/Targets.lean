import Verif.Spec.Crash
import Verif.Spec.Jpa

/-! Which files a command writes, after docs/*.md of /repo. -/

namespace Octo.Spec
open Cli

/-- The text ends in one of the extensions, in any case of the letters. -/
def EndsIn (exts : List Str) (out : Str) : Prop := ∃ x y, out = x ++ y ∧ lower y ∈ exts

/-- The extensions of PlantUML files, docs/plantuml.md 15-23. -/
def plantumlExts : List Str := [".wsd"ₛ, ".pu"ₛ, ".puml"ₛ, ".plantuml"ₛ, ".iuml"ₛ]

/-- A file in the directory of a package, as Kotlin expects it; in the working directory without a package. -/
def inPackage (out pkg name : Str) : Str :=
  if pkg = [] then name else out ++ "/"ₛ ++ pkg.map (fun c => if c = '.' then '/' else c) ++ "/"ₛ ++ name

/-- The name of the Kotlin class of a table. -/
def ktClass (sc : Strcase) (m : PrefixMapper) (v : Values) (t : Table) : Str :=
  if t.className = [] then m.getPrefix t.group ++ sc.toCamel ((split ',' (v "removePrefix"ₛ)).foldl trimPrefix t.name) else t.className

/-- The files that a successful command writes: the one that is named; for a directory the files in it. -/
def Writes (w : World) (v : Values) (fs : Files) (f : Str) : Cmd → Prop
  | .gorm => (EndsIn [".go"ₛ] (v "output"ₛ) ∧ f = v "output"ₛ) ∨ (¬EndsIn [".go"ₛ] (v "output"ₛ) ∧ f = v "output"ₛ ++ "/output.go"ₛ)
  | .plantuml => (EndsIn plantumlExts (v "output"ₛ) ∧ f = v "output"ₛ) ∨
      (¬EndsIn plantumlExts (v "output"ₛ) ∧ f = v "output"ₛ ++ "/output.plantuml"ₛ)
  | .graphql => ∃ s, load w fs (v "input"ₛ) = some s ∧ f = v "output"ₛ ++ "/"ₛ ++ (s.name ++ "-"ₛ ++ s.version ++ ".graphqls"ₛ)
  | .sqlalchemy => (EndsIn [".py"ₛ] (v "output"ₛ) ∧ f = v "output"ₛ) ∨
      (¬EndsIn [".py"ₛ] (v "output"ₛ) ∧ ∃ s, load w fs (v "input"ₛ) = some s ∧ ∃ t ∈ s.tables, InGroups (v "groups"ₛ) t ∧
        f = v "output"ₛ ++ "/"ₛ ++ (t.name ++ ".py"ₛ))
  | .kt => ∃ s m, load w fs (v "input"ₛ) = some s ∧ newPrefixMapper (v "prefix"ₛ) = some m ∧ ∃ t ∈ s.tables, InGroups (v "groups"ₛ) t ∧
      (f = inPackage (v "output"ₛ) (v "package"ₛ) (ktClass w.sc m v t ++ ".kt"ₛ) ∨
       (v "reposPackage"ₛ ≠ [] ∧ f = inPackage (v "output"ₛ) (v "reposPackage"ₛ) (ktClass w.sc m v t ++ "Repository.kt"ₛ)))
  | _ => f = v "output"ₛ

end Octo.Spec
