import Verif.Spec.Targets

/-! What a command that fails leaves behind. -/

namespace Octo.Spec
open Cli

/-- The same surroundings, in which every file can be written and every directory be made. -/
def allowed (w : World) : World := { w with writable := fun _ => true, mkdir := fun _ => true }

/-- The file of a table for `generate sqlalchemy` with a directory. -/
def saFile (v : Values) (t : Table) : Path := pathOf (v "output"ₛ ++ "/"ₛ ++ (t.name ++ ".py"ₛ))

/-- The file of the class of a table. -/
def ktFile (w : World) (v : Values) (m : PrefixMapper) (t : Table) : Path :=
  pathOf (inPackage (v "output"ₛ) (v "package"ₛ) (ktClass w.sc m v t ++ ".kt"ₛ))

/-- The file of the repository of a table. -/
def repositoryFile (w : World) (v : Values) (m : PrefixMapper) (t : Table) : Path :=
  pathOf (inPackage (v "output"ₛ) (v "reposPackage"ₛ) (ktClass w.sc m v t ++ "Repository.kt"ₛ))

/-- Different tables have different files. -/
def Apart (w : World) (v : Values) (fs : Files) : Cmd → Prop
  | .sqlalchemy => ∀ s, load w fs (v "input"ₛ) = some s →
      s.tables.Pairwise fun t u => InGroups (v "groups"ₛ) t → InGroups (v "groups"ₛ) u → saFile v t ≠ saFile v u
  | .kt => ∀ s m, load w fs (v "input"ₛ) = some s → newPrefixMapper (v "prefix"ₛ) = some m →
      (s.tables.Pairwise fun t u => InGroups (v "groups"ₛ) t → InGroups (v "groups"ₛ) u → ktFile w v m t ≠ ktFile w v m u) ∧
      (v "reposPackage"ₛ ≠ [] →
        (s.tables.Pairwise fun t u => InGroups (v "groups"ₛ) t → InGroups (v "groups"ₛ) u → repositoryFile w v m t ≠ repositoryFile w v m u) ∧
        ∀ t ∈ s.tables, ∀ u ∈ s.tables, InGroups (v "groups"ₛ) t → InGroups (v "groups"ₛ) u → ktFile w v m t ≠ repositoryFile w v m u)
  | _ => True

end Octo.Spec
