import Verif.Model.Json

/-! Model of loading a schema with the pointers of format/octopus/table.go: the slices of tables, columns and indices hold pointers, and
`encoding/json` stores nil for an element that is null.  `Model/Json.lean` and everything built on it treat such documents as
malformed; `Props/JsonNull.lean` shows that both agree on all other documents. -/

namespace Octo.Ptr

/-- `Table`, format/octopus/table.go 20-27, with its pointers: `none` is nil. -/
structure Table where
  name : Str := []
  columns : List (Option Column) := []
  description : Str := []
  group : Str := []
  className : Str := []
  indices : List (Option Index) := []
  deriving DecidableEq, Repr

/-- `Schema`, format/octopus/table.go 102-107, with its pointers. -/
structure Schema where
  author : Str := []
  name : Str := []
  version : Str := []
  tables : List (Option Table) := []
  deriving DecidableEq, Repr

/-- Decoding an element of a slice of pointers: null becomes nil. -/
def toElem {α : Type} (f : Json → Option α) (j : Json) : Option (Option α) := Json.toPtr f (some j)

open Json in
/-- Decoding a table, struct tags of format/octopus/table.go 20-27. -/
def toTable : Json → Option Table
  | .obj l => do
    let name ← toStr (field l "name")
    let columns ← toList (toElem toColumn) (field l "columns")
    let description ← toStr (field l "desc")
    let group ← toStr (field l "group")
    let className ← toStr (field l "className")
    let indices ← toList (toElem toIndex) (field l "indices")
    return { name, columns, description, group, className, indices }
  | _ => none

open Json in
/-- Decoding a schema, struct tags of format/octopus/table.go 102-107. -/
def toSchema : Json → Option Schema
  | .null => some {}
  | .obj l => do
    let author ← toStr (field l "author")
    let name ← toStr (field l "name")
    let version ← toStr (field l "version")
    let tables ← toList (toElem toTable) (field l "tables")
    return { author, name, version, tables }
  | _ => none

/-- The column loop of `Normalize`, format/octopus/table.go 185-191; `none` is a crash: line 186 writes to the column. -/
def normCols : List (Option Column) → Option (List (Option Column) × Option ColErr)
  | [] => some ([], none)
  | none :: _ => none
  | some c :: cs =>
    match Column.validate true c.normalizeType with
    | (c', some e) => some (some c' :: cs, some e)
    | (c', none) => (normCols cs).map fun r => (some c' :: r.1, r.2)

/-- The table loop of `Normalize`, format/octopus/table.go 184-193, on tables that are not nil. -/
def normTables : List Table → Option (List Table × Option (Str × ColErr))
  | [] => some ([], none)
  | t :: ts =>
    match normCols t.columns with
    | none => none
    | some (cs, some e) => some ({ t with columns := cs } :: ts, some (t.name, e))
    | some (cs, none) => (normTables ts).map fun r => ({ t with columns := cs } :: r.1, r.2)

/-- `Normalize`, format/octopus/table.go 181-194; `none` is a crash.  A nil table crashes in `Less` (lines 87-95) when there are two
tables or more, because every element of a slice takes part in some comparison of a sort, and in line 185 when it is the only one. -/
def normalize (sorter : List Table → List Table) (s : Schema) : Option (Schema × Option (Str × ColErr)) :=
  if none ∈ s.tables then none
  else (normTables (sorter (s.tables.filterMap id))).map fun r => ({ s with tables := r.1.map some }, r.2)

/-- The ways in which loading a file can end. -/
inductive Loaded
  | failed
  | crashed
  | schema (s : Schema)
  deriving DecidableEq, Repr

/-- `LoadSchema`, format/octopus/io.go 8-23, for the document of a file (`none` when it cannot be read or is not JSON). -/
def load (sorter : List Table → List Table) (doc : Option Json) : Loaded :=
  match doc.bind toSchema with
  | none => .failed
  | some s => match normalize sorter s with
    | none => .crashed
    | some (s', _) => .schema s'

end Octo.Ptr
