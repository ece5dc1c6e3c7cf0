import Verif.Model.Util
import Verif.Model.Octopus

/-! Model of package `dbml`, format/dbml/exporter.go. -/

namespace Octo.Dbml

/-- `getRelationshipType`, format/dbml/exporter.go 103-114. -/
def relationshipType (r : Reference) : Str :=
  if r.relationship = "n:1"ₛ then ">"ₛ
  else if r.relationship = "1:n"ₛ then "<"ₛ
  else if r.relationship = "1:1"ₛ then "-"ₛ
  else ">"ₛ

/-- The text of the default value, format/dbml/exporter.go 53-59. -/
def defaultParam (c : Column) : List Str :=
  if c.defaultValue = [] then []
  else
    let v := if isStringType c.type then "'"ₛ ++ c.defaultValue ++ "'"ₛ else c.defaultValue
    ["default: "ₛ ++ v]

/-- The reference as a setting of the column, format/dbml/exporter.go 60-65. -/
def refParam (defined : List Str) (c : Column) : List Str :=
  match c.ref with
  | none => []
  | some r => if r.table ∈ defined then ["ref: "ₛ ++ relationshipType r ++ " "ₛ ++ r.table ++ "."ₛ ++ r.column] else []

/-- The reference as a line at the end, format/dbml/exporter.go 66-71. -/
def deferredRef (defined : List Str) (table : Str) (c : Column) : List Str :=
  match c.ref with
  | none => []
  | some r => if r.table ∈ defined then []
    else ["Ref: "ₛ ++ table ++ "."ₛ ++ c.name ++ " "ₛ ++ relationshipType r ++ " "ₛ ++ r.table ++ "."ₛ ++ r.column]

/-- `params`, format/dbml/exporter.go 39-75; `defined` are the keys of `definedTables`. -/
def params (defined : List Str) (c : Column) : List Str :=
  (if c.primaryKey then ["pk"ₛ] else []) ++ (if c.uniqueKey then ["unique"ₛ] else []) ++
  (if c.notNull then ["not null"ₛ] else []) ++ defaultParam c ++ refParam defined c ++
  (if c.description = [] then [] else ["note: \""ₛ ++ c.description ++ "\""ₛ])

/-- `columnType`, format/dbml/exporter.go 77-84. -/
def columnType (c : Column) : Str :=
  if c.size > 0 then
    if c.scale > 0 then c.type ++ "("ₛ ++ itoa c.size.toNat ++ ","ₛ ++ itoa c.scale.toNat ++ ")"ₛ
    else c.type ++ "("ₛ ++ itoa c.size.toNat ++ ")"ₛ
  else c.type

/-- The line of a column, format/dbml/exporter.go 86-90. -/
def columnLine (defined : List Str) (c : Column) : Str :=
  if params defined c = [] then "  "ₛ ++ c.name ++ " "ₛ ++ columnType c
  else "  "ₛ ++ c.name ++ " "ₛ ++ columnType c ++ " ["ₛ ++ join ", "ₛ (params defined c) ++ "]"ₛ

/-- The loop over the tables, format/dbml/exporter.go 35-96: `result` and `deferredRefs`. -/
def tablesLoop (defined : List Str) : List Table → List Str × List Str
  | [] => ([], [])
  | t :: ts =>
    let r := tablesLoop (t.name :: defined) ts
    (("Table "ₛ ++ t.name ++ " {"ₛ) :: (t.columns.map (columnLine defined) ++ "}"ₛ :: [] :: r.1),
     t.columns.flatMap (deferredRef defined t.name) ++ r.2)

/-- `exportToString`, format/dbml/exporter.go 30-101.  The option is not looked at. -/
def exportText (_filter : Option (Table → Bool)) (s : Schema) : Str :=
  let r := tablesLoop [] s.tables
  join "\n"ₛ (r.1 ++ [join "\n"ₛ r.2])

end Octo.Dbml
