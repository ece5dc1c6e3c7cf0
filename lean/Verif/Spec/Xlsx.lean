import Verif.Model.Octopus
import Verif.Spec.TypeText

/-! Specification of the spreadsheet format, from docs/xlsx.md of /repo. -/

namespace Octo.Spec

/-- Text without white space at either end. -/
def Tight (s : Str) : Prop := trimSpace s = s

/-- Text that can be the value of an attribute: no comma, no white space at the end. -/
def AttrText (s : Str) : Prop := ',' ∉ s ∧ ∀ x, s.getLast? = some x → isSpace x = false

instance (s : Str) : Decidable (Tight s) := inferInstanceAs (Decidable (trimSpace s = s))

instance (s : Str) : Decidable (AttrText s) :=
  decidable_of_iff (',' ∉ s ∧ (s.getLast?.all fun x => !isSpace x) = true) (by
    unfold AttrText
    cases s.getLast? <;> simp)

/-- The relationship markers, docs/xlsx.md, "`table/ref.` column". -/
def refMarkers : List (Char × Str) := [('>', "n:1"ₛ), ('<', "1:n"ₛ), ('-', "1:1"ₛ)]

/-- The relationship that a table name, as it stands in the cell, stands for; `n:1` is the default. -/
def cellRelationship (table : Str) : Str := ((table.head?.bind fun x => refMarkers.lookup x)).getD "n:1"ₛ

/-- The references that a spreadsheet can represent: two names without a dot that survive removing the white space around the cell,
and the relationship that the importer makes up from the first character. -/
structure SheetRef (r : Reference) : Prop where
  table : r.table ≠ [] ∧ '.' ∉ r.table ∧ ∀ x, r.table.head? = some x → isSpace x = false
  column : r.column ≠ [] ∧ '.' ∉ r.column ∧ ∀ x, r.column.getLast? = some x → isSpace x = false
  relationship : r.relationship = cellRelationship r.table

/-- The columns that a spreadsheet can represent. -/
structure SheetColumn (c : Column) : Prop where
  named : c.name ≠ [] ∧ Tight c.name
  plain : c.size = 0 → c.scale = 0 ∧ ¬SizedText c.type ∧ c.type ≠ "table"ₛ ∧ Tight c.type
  sized : c.size ≠ 0 → c.type ≠ [] ∧ ∀ x ∈ c.type, isAlpha x = true
  keys : ¬(c.primaryKey = true ∧ c.uniqueKey = true)
  default : AttrText c.defaultValue
  onUpdate : c.onUpdate = [] ∨ c.onUpdate = c.defaultValue
  description : Tight c.description
  values : c.values = []
  ref : ∀ r, c.ref = some r → SheetRef r

/-- The tables that a spreadsheet can represent. -/
structure SheetTable (t : Table) : Prop where
  named : t.name ≠ [] ∧ Tight t.name
  className : AttrText t.className
  description : Tight t.description
  columns : ∀ c ∈ t.columns, SheetColumn c
  indexNames : (t.indices.map Index.name).Nodup
  indices : ∀ i ∈ t.indices, Tight i.name ∧ i.columns ≠ [] ∧ ∀ c ∈ i.columns, c ≠ [] ∧ Tight c

/-- The groups that get a sheet of their own under their own name. -/
def SheetGroup (accepts : Str → Bool) (g : Str) : Prop := g ≠ [] ∧ g ≠ "Meta"ₛ ∧ accepts g = true

/-- The table names on a sheet: docs/xlsx.md, "The 1st row of the table block should be `table` type". -/
def sheetTableNames (rows : List (List Str)) : List Str :=
  rows.filterMap fun
    | name :: [] :: type :: _ => if type = "table"ₛ then some name else none
    | _ => none

/-- A cell without the white space around it. -/
def tightCell (r : List Str) (i : Nat) : Str := trimSpace (r.getD i [])

/-- A row of type `table`. -/
def isTableRow (r : List Str) : Bool := tightCell r 2 == "table"ₛ

/-- The tables of a sheet: the table rows, each with the rows up to the next one. -/
def sheetBlocks : List (List Str) → List (List Str × List (List Str))
  | [] => []
  | r :: rs => if isTableRow r then (r, rs.takeWhile fun x => !isTableRow x) :: sheetBlocks rs else sheetBlocks rs

/-- The columns of a block: the rows with a column name whose key is not `I`. -/
def columnEntries (rows : List (List Str)) : List Str :=
  (rows.filter fun r => tightCell r 1 != [] && tightCell r 3 != "I"ₛ).map fun r => tightCell r 1

/-- The index entries of a block: index name and column name of the rows with key `I`. -/
def indexEntries (rows : List (List Str)) : List (Str × Str) :=
  (rows.filter fun r => tightCell r 1 != [] && tightCell r 3 == "I"ₛ).map fun r => (tightCell r 0, tightCell r 1)

/-- The columns of the index with a name. -/
def entriesOf (l : List (Str × Str)) (n : Str) : List Str := (l.filter fun e => e.1 == n).map Prod.snd

end Octo.Spec
