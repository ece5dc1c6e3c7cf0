import Verif.Spec.Dbml

/-! A reader of PlantUML entity diagrams, and what a diagram should say about a schema. -/

namespace Octo.Spec

structure PuColumn where
  name : Str
  type : Str
  mandatory : Bool
  pk : Bool
  unique : Bool
  fk : Bool
  deriving DecidableEq, Repr

/-- An entity: the columns above and below the separator. -/
structure PuEntity where
  name : Str
  above : List PuColumn
  below : List PuColumn
  deriving DecidableEq, Repr

structure PuDoc where
  entities : List PuEntity
  edges : List (Str × Str × Str)
  deriving DecidableEq, Repr

/-- A column, from its tokens without the star. -/
def readPuBody (mandatory : Bool) : List Str → Option PuColumn
  | n :: t :: tags =>
    if n.getLast? = some ':' ∧ tags.all (fun x => x == "<<PK>>"ₛ || x == "<<UQ>>"ₛ || x == "<<FK>>"ₛ) then
      some ⟨n.dropLast, t, mandatory, tags.contains "<<PK>>"ₛ, tags.contains "<<UQ>>"ₛ, tags.contains "<<FK>>"ₛ⟩
    else none
  | _ => none

/-- A column, from its tokens. -/
def readPuColumn : List Str → Option PuColumn
  | [] => none
  | k :: r => if k = "*"ₛ then readPuBody true r else readPuBody false (k :: r)

/-- The kinds of edges. -/
def puRels : List Str := ["}o-||"ₛ, "||-o{"ₛ, "||-||"ₛ]

/-- The entity that is being read. -/
inductive PuState
  | top
  | above (n : Str) (l : List PuColumn)
  | below (n : Str) (l m : List PuColumn)

def readPuLines : PuState → List Str → Option PuDoc
  | .top, [l] => if l = "@enduml"ₛ then some ⟨[], []⟩ else none
  | .top, l :: ls => match tokens l with
    | [a, b, c] =>
      if a = "entity"ₛ ∧ c = "{"ₛ then readPuLines (.above b []) ls
      else if b ∈ puRels then (readPuLines .top ls).map fun d => ⟨d.entities, (a, b, c) :: d.edges⟩
      else none
    | _ => none
  | .above n l, x :: ls =>
    if tokens x = ["}"ₛ] then (readPuLines .top ls).map fun d => ⟨⟨n, l, []⟩ :: d.entities, d.edges⟩
    else if tokens x = ["--"ₛ] then readPuLines (.below n l []) ls
    else (readPuColumn (tokens x)).bind fun c => readPuLines (.above n (l ++ [c])) ls
  | .below n l m, x :: ls =>
    if tokens x = ["}"ₛ] then (readPuLines .top ls).map fun d => ⟨⟨n, l, m⟩ :: d.entities, d.edges⟩
    else (readPuColumn (tokens x)).bind fun c => readPuLines (.below n l (m ++ [c])) ls
  | _, [] => none

/-- Reads a PlantUML diagram. -/
def readPu (s : Str) : Option PuDoc :=
  match split '\n' s with
  | h :: ls => if h = "@startuml"ₛ then readPuLines .top ls else none
  | [] => none

/-! ### What a diagram says -/

/-- The kind of edge of a reference. -/
def puRel (relationship : Str) : Str :=
  ([("n:1"ₛ, "}o-||"ₛ), ("1:n"ₛ, "||-o{"ₛ), ("1:1"ₛ, "||-||"ₛ)].lookup relationship).getD "}o-||"ₛ

/-- What the diagram says about a column. -/
structure PuDescribes (c : Column) (d : PuColumn) : Prop where
  name : d.name = c.name
  type : d.type = c.type
  mandatory : d.mandatory = c.notNull
  keys : d.pk = c.primaryKey ∧ d.unique = c.uniqueKey
  fk : d.fk = c.ref.isSome

/-- The edges of a schema. -/
def schemaEdges (s : Schema) : List (Str × Str × Str) :=
  s.tables.flatMap fun t => t.columns.filterMap fun c => c.ref.map fun r => (t.name, puRel r.relationship, r.table)

/-- A table whose texts can be written as they are. -/
def PlainPuTable (t : Table) : Prop :=
  Ident t.name ∧ ∀ c ∈ t.columns, Ident c.name ∧ Ident c.type ∧ ∀ r, c.ref = some r → Ident r.table

/-- No key column comes after a column that is no key. -/
def KeysFirst (t : Table) : Prop :=
  ∀ pre c post, t.columns = pre ++ c :: post → c.primaryKey = true → ∀ d ∈ pre, d.primaryKey = true

end Octo.Spec
