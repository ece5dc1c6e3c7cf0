import Verif.Model.Octopus

/-! Model of package `plantuml`, format/plantuml/generator.go. -/

namespace Octo.Plantuml

/-- `getRelationshipType`, format/plantuml/generator.go 79-90. -/
def relationshipType (r : Reference) : Str :=
  if r.relationship = "n:1"ₛ then "}o-||"ₛ
  else if r.relationship = "1:n"ₛ then "||-o{"ₛ
  else if r.relationship = "1:1"ₛ then "||-||"ₛ
  else "}o-||"ₛ

/-- `getColumnDef`, format/plantuml/generator.go 58-77. -/
def columnDef (c : Column) : Str :=
  (if c.notNull then "* "ₛ else []) ++ c.name ++ ": "ₛ ++ c.type ++ (if c.primaryKey then " <<PK>>"ₛ else []) ++
  (if c.uniqueKey then " <<UQ>>"ₛ else []) ++ (if c.ref ≠ none then " <<FK>>"ₛ else [])

/-- The loop over the columns, format/plantuml/generator.go 27-32; the argument is `separatorAdded`. -/
def columnLines : Bool → List Column → List Str
  | _, [] => []
  | added, c :: cs =>
    if !c.primaryKey && !added then "    --"ₛ :: ("    "ₛ ++ columnDef c) :: columnLines true cs
    else ("    "ₛ ++ columnDef c) :: columnLines added cs

/-- The edge of a column, format/plantuml/generator.go 35-38. -/
def edge (table : Str) (c : Column) : Option Str :=
  c.ref.map fun r => table ++ " "ₛ ++ relationshipType r ++ " "ₛ ++ r.table

/-- The lines of a table, format/plantuml/generator.go 24-40. -/
def tableLines (t : Table) : List Str :=
  ("entity "ₛ ++ t.name ++ " {"ₛ) :: (columnLines false t.columns ++ ["}"ₛ])

/-- `Generate`, format/plantuml/generator.go 18-48. -/
def generate (s : Schema) : Str :=
  join "\n"ₛ (["@startuml"ₛ] ++ s.tables.flatMap tableLines ++ s.tables.flatMap (fun t => t.columns.filterMap (edge t.name)) ++
    ["@enduml"ₛ])

end Octo.Plantuml
