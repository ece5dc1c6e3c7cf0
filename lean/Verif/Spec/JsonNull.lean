import Verif.Model.JsonNull
import Verif.Spec.Octopus

/-! Schemas with and without nil pointers. -/

namespace Octo.Spec
open Ptr

/-- A table without nil pointers, as a table with pointers. -/
def ofPlainTable (t : Octo.Table) : Ptr.Table :=
  { name := t.name, columns := t.columns.map some, description := t.description, group := t.group, className := t.className,
    indices := t.indices.map some }

/-- A schema without nil pointers, as a schema with pointers. -/
def ofPlain (s : Octo.Schema) : Ptr.Schema :=
  { author := s.author, name := s.name, version := s.version, tables := s.tables.map fun t => some (ofPlainTable t) }

/-- No nil pointer in a table. -/
def NoNilTable (t : Ptr.Table) : Prop := none ∉ t.columns ∧ none ∉ t.indices

/-- No nil pointer anywhere. -/
def NoNil (s : Ptr.Schema) : Prop := none ∉ s.tables ∧ ∀ t, some t ∈ s.tables → NoNilTable t

/-- The order of tables, by group and then by name. -/
def ptrLess (a b : Ptr.Table) : Bool := tableLess { name := a.name, group := a.group } { name := b.name, group := b.group }

/-- What sorting guarantees: a permutation without inversions. -/
def PtrSortSpec (sorter : List Ptr.Table → List Ptr.Table) : Prop :=
  ∀ l, (sorter l).Perm l ∧ (sorter l).Pairwise (fun a b => ptrLess b a = false)

/-- An acceptable column that is there. -/
def GoodPtr (c : Option Column) : Prop := ∃ x, c = some x ∧ ValidColumn x

/-- A nil column that is reached before any column that is not acceptable. -/
def ReachesNil (ts : List Ptr.Table) : Prop :=
  ∃ before t after cs cs', ts = before ++ t :: after ∧ t.columns = cs ++ none :: cs' ∧ (∀ u ∈ before, ∀ c ∈ u.columns, GoodPtr c) ∧
    ∀ c ∈ cs, GoodPtr c

/-- Forgetting that there are pointers; nil pointers are dropped. -/
def plainTable (t : Ptr.Table) : Octo.Table :=
  { name := t.name, columns := t.columns.filterMap id, description := t.description, group := t.group, className := t.className,
    indices := t.indices.filterMap id }

/-- The sort of tables with pointers, on tables without. -/
def plainSorter (sorter : List Ptr.Table → List Ptr.Table) (l : List Octo.Table) : List Octo.Table :=
  (sorter (l.map ofPlainTable)).map plainTable

end Octo.Spec
