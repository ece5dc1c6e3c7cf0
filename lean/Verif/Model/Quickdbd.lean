import Verif.Model.Octopus

/-! Model of package `quickdbd`, format/quickdbd/exporter.go. -/

namespace Octo.Quickdbd

/-- `getRelationshipType`, format/quickdbd/exporter.go 72-83. -/
def relationshipType (r : Reference) : Str :=
  if r.relationship = "n:1"ₛ then ">-"ₛ
  else if r.relationship = "1:n"ₛ then "-<"ₛ
  else if r.relationship = "1:1"ₛ then "-"ₛ
  else ">-"ₛ

/-- `getTableDef`, format/quickdbd/exporter.go 34-40. -/
def tableDef (t : Table) : Str := if t.description = [] then t.name else t.name ++ " # "ₛ ++ t.description

/-- The parameter of a reference, format/quickdbd/exporter.go 61-64. -/
def refParam (c : Column) : List Str :=
  match c.ref with
  | none => []
  | some r => ["FK "ₛ ++ relationshipType r ++ " "ₛ ++ r.table ++ "."ₛ ++ r.column]

/-- `params` of `getColumnDef`, format/quickdbd/exporter.go 43-67. -/
def params (c : Column) : List Str :=
  [c.type] ++ (if c.primaryKey then ["PK"ₛ] else []) ++ (if c.uniqueKey then ["UNIQUE"ₛ] else []) ++
  (if c.autoIncremental then ["AUTOINCREMENT"ₛ] else []) ++ (if !c.notNull then ["NULLABLE"ₛ] else []) ++
  (if c.defaultValue = [] then [] else ["default="ₛ ++ c.defaultValue]) ++
  refParam c ++
  (if c.description = [] then [] else ["# "ₛ ++ c.description])

/-- `getColumnDef`, format/quickdbd/exporter.go 42-70. -/
def columnDef (c : Column) : Str := c.name ++ " "ₛ ++ join " "ₛ (params c)

/-- The length of a Go string, in bytes. -/
def byteLen (s : Str) : Nat := (s.map Char.utf8Size).sum

/-- The lines of a table, format/quickdbd/exporter.go 21-27. -/
def tableLines (t : Table) : List Str :=
  [tableDef t, List.replicate (byteLen t.name) '-'] ++ t.columns.map columnDef ++ [[]]

/-- `Export`, format/quickdbd/exporter.go 18-32. -/
def exportText (s : Schema) : Str := join "\n"ₛ (s.tables.flatMap tableLines)

end Octo.Quickdbd
