import Verif.Spec.LqMoves

/-! Histories of a schema: a list of later versions, and the changelogs of `oct diff liquibase` from each version to the next. -/

namespace Octo.Spec
open Octo.Lq

/-- A later version of a schema, with the author given to the command and the iteration orders of its run. -/
structure Release where
  schema : Schema
  author : Str
  sched : Sched

/-- The last version. -/
def latest : Schema → List Release → Schema
  | s, [] => s
  | _, r :: rs => latest r.schema rs

/-- The changelogs from each version to the next one. -/
def Logs (pf : Str → Option Str) (uc : Bool) (suffix : Str) : Schema → List Release → List (List LqChangeSet) → Prop
  | _, [], [] => True
  | s, r :: rs, l :: ls =>
    generate pf { diffFrom := s, diffTo := r.schema, author := r.author, uniqueNameSuffix := suffix, useComments := uc } r.sched = some l ∧
      Logs pf uc suffix r.schema rs ls
  | _, _, _ => False

/-- A step that the diff handles: the new version has tables of different names that changelogs can express, and no table that is in
both versions goes through one of the corner cases or gets other unique columns. -/
structure SmoothStep (env : LqEnv) (pf : Str → Option Str) (uc : Bool) (suffix : Str) (s s' : Schema) : Prop where
  names : (s'.tables.map (·.name)).Nodup
  clean : ∀ t ∈ s'.tables, CleanTable pf t
  free : ∀ t ∈ s'.tables, ¬env.system (t.name ++ suffix)
  smooth : ∀ t ∈ s'.tables, ∀ o ∈ s.tables, o.name = t.name → SmoothChange env uc t o
  unique : ∀ t ∈ s'.tables, ∀ o ∈ s.tables, o.name = t.name → SameUnique t o

/-- A history all of whose steps the diff handles. -/
def History (env : LqEnv) (pf : Str → Option Str) (uc : Bool) (suffix : Str) : Schema → List Release → Prop
  | _, [] => True
  | s, r :: rs => r.sched.Fair ∧ SmoothStep env pf uc suffix s r.schema ∧ History env pf uc suffix r.schema rs

/-- A step that the diff handles on this database product; no table gets other unique columns. -/
structure MovingStep (env : LqEnv) (pf : Str → Option Str) (uc : Bool) (suffix : Str) (s s' : Schema) : Prop where
  names : (s'.tables.map (·.name)).Nodup
  clean : ∀ t ∈ s'.tables, CleanTable pf t
  free : ∀ t ∈ s'.tables, ¬env.system (t.name ++ suffix)
  moves : ∀ t ∈ s'.tables, ∀ o ∈ s.tables, o.name = t.name → LqTableMoves env uc t o
  unique : ∀ t ∈ s'.tables, ∀ o ∈ s.tables, o.name = t.name → ¬SameUnique t o → UniqueMoves uc t o

/-- A history all of whose steps the diff handles on this database product. -/
def MovingHistory (env : LqEnv) (pf : Str → Option Str) (uc : Bool) (suffix : Str) : Schema → List Release → Prop
  | _, [] => True
  | s, r :: rs => r.sched.Fair ∧ MovingStep env pf uc suffix s r.schema ∧ MovingHistory env pf uc suffix r.schema rs

/-- Two databases with the same tables, columns, keys and unique constraints, apart from constraints that the database has named. -/
def SameLqDb (sys : Str → Prop) (d d' : Db LqAttr) : Prop :=
  ∀ n, (d n = none ∧ d' n = none) ∨ ∃ T T', d n = some T ∧ d' n = some T' ∧ T.cols = T'.cols ∧ T.pk = T'.pk ∧
    ∀ k, ¬sys k → T.uniques k = T'.uniques k

end Octo.Spec
