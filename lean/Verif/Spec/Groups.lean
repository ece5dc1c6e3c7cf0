import Verif.Model.Cli

/-! The part of a schema that belongs to some groups. -/

namespace Octo.Spec

/-- The schema with the tables of some groups only. -/
def restrict (gs : List Str) (s : Schema) : Schema := { s with tables := s.tables.filter fun t => decide (t.group ∈ gs) }

/-- The text names these groups: they are separated by commas. -/
def NamesGroups (text : Str) (gs : List Str) : Prop := text ≠ [] ∧ text = join [','] gs ∧ ∀ g ∈ gs, ',' ∉ g

/-- No table of the groups refers to a table of another group. -/
def ClosedGroups (gs : List Str) (s : Schema) : Prop :=
  ∀ t ∈ s.tables, t.group ∈ gs → ∀ c ∈ t.columns, ∀ r, c.ref = some r → ∀ u ∈ s.tables, u.name = r.table → u.group ∈ gs

end Octo.Spec
