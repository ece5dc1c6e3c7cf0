import Verif.Model.Liquibase

/-! Two schemas that differ in nothing but descriptions, for the property about changelogs written without
comments (docs/liquibase.md 17 and 121: `--comments` "Set flag to generate column comments").  The two runs compared below resolve the
map iterations in the same way. -/

namespace Octo.Spec

/-- Columns equal up to their descriptions. -/
structure SameColumnBut (c c' : Column) : Prop where
  same : c' = { c with description := c'.description }

/-- Tables equal up to the descriptions of their columns and up to `g` of their own descriptions: with
`g = id` the table descriptions are the same, with a constant `g` they are arbitrary. -/
structure SameTableBut (g : Str → Str) (t t' : Table) : Prop where
  name : t'.name = t.name
  columns : List.Forall₂ SameColumnBut t.columns t'.columns
  description : g t'.description = g t.description

/-- Schemas equal in this sense, as far as changelogs are concerned. -/
structure SameSchemaBut (g : Str → Str) (s s' : Schema) : Prop where
  author : s'.author = s.author
  tables : List.Forall₂ (SameTableBut g) s.tables s'.tables

/-- Filters that do not look at descriptions (those of the command line look at groups). -/
def SameFilter (g : Str → Str) (s s' : Schema) (f f' : Option (Table → Bool)) : Prop :=
  ∀ p ∈ s.tables.zip s'.tables, SameTableBut g p.1 p.2 → passes f p.1 = passes f' p.2

/-- Schedules that visit related entries in the same order. -/
structure SameOrder (g : Str → Str) (sched sched' : Sched) : Prop where
  columns : ∀ n l l', List.Forall₂ (fun p p' => SameColumnBut p.1 p'.1 ∧ SameColumnBut p.2 p'.2) l l' →
    List.Forall₂ (fun p p' => SameColumnBut p.1 p'.1 ∧ SameColumnBut p.2 p'.2) (sched.columns n l)
      (sched'.columns n l')
  tables : ∀ l l', List.Forall₂ (fun p p' => SameTableBut g p.1 p'.1 ∧ SameTableBut g p.2 p'.2) l l' →
    List.Forall₂ (fun p p' => SameTableBut g p.1 p'.1 ∧ SameTableBut g p.2 p'.2) (sched.tables l) (sched'.tables l')

/-- The change with `g` applied to the remarks of a created table. -/
def remarksBy (g : Str → Str) : Lq.LqChange → Lq.LqChange
  | .createTable n r cs => .createTable n (g r) cs
  | c => c

/-- The same for all changes of all change sets. -/
def setsBy (g : Str → Str) (sets : List Lq.LqChangeSet) : List Lq.LqChangeSet :=
  sets.map fun s => { s with changes := s.changes.map (remarksBy g) }

end Octo.Spec
