import Verif.Spec.Dbml

/-! A reader of QuickDBD documents, and what a document should say about a schema. -/

namespace Octo.Spec

structure QdColumn where
  name : Str
  type : Str
  pk : Bool := false
  unique : Bool := false
  autoInc : Bool := false
  nullable : Bool := false
  default : Option Str := none
  fk : Option (Str × Str × Str) := none
  comment : Option Str := none
  deriving DecidableEq, Repr

structure QdTable where
  name : Str
  comment : Option Str
  columns : List QdColumn
  deriving DecidableEq, Repr

/-- The connections of QuickDBD. -/
def qdConnections : List Str := ["-"ₛ, "-<"ₛ, ">-"ₛ, ">-<"ₛ, "-0"ₛ, "0-"ₛ, "0-0"ₛ, "-0<"ₛ, ">0-"ₛ]

/-- The words after name and type. -/
def readQdWords (c : QdColumn) : List Str → Option QdColumn
  | [] => some c
  | k :: r =>
    if k = "PK"ₛ then readQdWords { c with pk := true } r
    else if k = "UNIQUE"ₛ then readQdWords { c with unique := true } r
    else if k = "AUTOINCREMENT"ₛ then readQdWords { c with autoInc := true } r
    else if k = "NULLABLE"ₛ then readQdWords { c with nullable := true } r
    else if hasPrefix k "default="ₛ then readQdWords { c with default := some (k.drop 8) } r
    else if k = "FK"ₛ then match r with
      | rel :: tgt :: r =>
        if rel ∈ qdConnections then match readDotted tgt with
          | some (t, k) => readQdWords { c with fk := some (rel, t, k) } r
          | none => none
        else none
      | _ => none
    else none
  termination_by l => l.length
  decreasing_by all_goals (simp_wf; try omega)

/-- The line of a column; what follows `#` is a comment. -/
def readQdColumn (l : Str) : Option QdColumn :=
  match tokens (splitN2 '#' l).1 with
  | n :: t :: r => readQdWords { name := n, type := t, comment := (splitN2 '#' l).2.map trimSpace } r
  | _ => none

/-- The line of a table. -/
def readQdHeader (l : Str) : Option QdTable :=
  match tokens (splitN2 '#' l).1 with
  | [n] => some ⟨n, (splitN2 '#' l).2.map trimSpace, []⟩
  | _ => none

/-- Where the reader is: between tables, after the line of a table, or among its columns. -/
inductive QdState
  | top
  | named (t : QdTable)
  | inside (t : QdTable)

def readQdLines : QdState → List Str → Option (List QdTable)
  | .top, [] => some []
  | .named _, [] => none
  | .inside t, [] => some [t]
  | .top, l :: ls => if l = [] then readQdLines .top ls else (readQdHeader l).bind fun t => readQdLines (.named t) ls
  | .named t, l :: ls => if l ≠ [] ∧ l.all (· == '-') then readQdLines (.inside t) ls else none
  | .inside t, l :: ls =>
    if l = [] then (readQdLines .top ls).map (t :: ·)
    else (readQdColumn l).bind fun c => readQdLines (.inside { t with columns := t.columns ++ [c] }) ls

/-- Reads a QuickDBD document. -/
def readQd (s : Str) : Option (List QdTable) := readQdLines .top (split '\n' s)

/-! ### What a document says -/

/-- The kind of connection of a reference. -/
def qdRel (relationship : Str) : Str :=
  ([("n:1"ₛ, ">-"ₛ), ("1:n"ₛ, "-<"ₛ), ("1:1"ₛ, "-"ₛ)].lookup relationship).getD ">-"ₛ

/-- A text that may be missing. -/
def optText (s : Str) : Option Str := if s = [] then none else some s

/-- What the document says about a column. -/
structure QdDescribes (c : Column) (d : QdColumn) : Prop where
  name : d.name = c.name
  type : d.type = c.type
  keys : d.pk = c.primaryKey ∧ d.unique = c.uniqueKey ∧ d.autoInc = c.autoIncremental
  nullable : d.nullable = !c.notNull
  default : d.default = optText c.defaultValue
  fk : d.fk = c.ref.map fun r => (qdRel r.relationship, r.table, r.column)
  comment : d.comment = (optText c.description).map trimSpace

/-- A column whose texts can be written as they are. -/
structure PlainQdColumn (c : Column) : Prop where
  name : Ident c.name
  type : Ident c.type
  default : c.defaultValue = [] ∨ (Word c.defaultValue ∧ '#' ∉ c.defaultValue)
  description : '\n' ∉ c.description
  ref : ∀ r, c.ref = some r → Ident r.table ∧ Ident r.column

/-- A table whose texts can be written as they are. -/
def PlainQdTable (t : Table) : Prop := Ident t.name ∧ '\n' ∉ t.description ∧ ∀ c ∈ t.columns, PlainQdColumn c

end Octo.Spec
