import Verif.Spec.Sql
import Verif.Spec.Ident
import Verif.Spec.MysqlDdl
import Verif.Model.Octopus

/-! A reader of DBML documents, and what a DBML document should say about a schema. -/

namespace Octo.Spec

/-- A default value: a quoted text, a number or constant, or an expression in back-quotes. -/
inductive DbmlValue
  | text (s : Str)
  | raw (s : Str)
  | expr (s : Str)
  deriving DecidableEq, Repr

/-- A setting of a column. -/
inductive DbmlSetting
  | pk
  | unique
  | notNull
  | default (v : DbmlValue)
  | ref (rel table column : Str)
  | note (s : Str)
  deriving DecidableEq, Repr

structure DbmlColumn where
  name : Str
  type : Str
  size : Nat
  scale : Nat
  settings : List DbmlSetting
  deriving DecidableEq, Repr

structure DbmlTable where
  name : Str
  columns : List DbmlColumn
  deriving DecidableEq, Repr

/-- A relation: from a column of a table, with its kind, to a column of a table. -/
structure DbmlRef where
  table : Str
  column : Str
  rel : Str
  toTable : Str
  toColumn : Str
  deriving DecidableEq, Repr

structure DbmlDoc where
  tables : List DbmlTable
  refs : List DbmlRef
  deriving DecidableEq, Repr

/-- The inside of a text quoted by `q`: a backslash escapes the next character. -/
def unescape (q : Char) : Str → Option Str
  | [] => some []
  | c :: r =>
    if c = '\\' then match r with
      | [] => none
      | d :: r => (unescape q r).map (d :: ·)
    else if c = q then none
    else (unescape q r).map (c :: ·)

/-- A text in quotes. -/
def unquote (q : Char) (s : Str) : Option Str := (unwrap q q s).bind (unescape q)

/-- A value. -/
def readDbmlValue (s : Str) : Option DbmlValue :=
  match unwrap '\'' '\'' s with
  | some x => (unescape '\'' x).map .text
  | none => match unwrap '`' '`' s with
    | some x => some (.expr x)
    | none => if isNumber s || s == "true"ₛ || s == "false"ₛ || s == "null"ₛ then some (.raw s) else none

/-- `table.column`. -/
def readDotted (s : Str) : Option (Str × Str) :=
  match splitN2 '.' s with
  | (a, some b) => some (a, b)
  | (_, none) => none

/-- The kinds of relation. -/
def isDbmlRel (s : Str) : Bool := s == ">"ₛ || s == "<"ₛ || s == "-"ₛ || s == "<>"ₛ

/-- A setting, from its tokens. -/
def readDbmlSetting : List Str → Option DbmlSetting
  | [k] => if k = "pk"ₛ then some .pk else if k = "unique"ₛ then some .unique else none
  | [k, a] =>
    if k = "not"ₛ then (if a = "null"ₛ then some .notNull else none)
    else if k = "default:"ₛ then (readDbmlValue a).map .default
    else if k = "note:"ₛ then ((unquote '"' a).or (unquote '\'' a)).map .note
    else none
  | [k, rel, b] =>
    if k = "ref:"ₛ ∧ isDbmlRel rel then (readDotted b).map fun p => .ref rel p.1 p.2 else none
  | _ => none

/-- The arguments of the type `b`, with the closing parenthesis. -/
def readDbmlArgs (b r : Str) : Option (Str × Nat × Nat) :=
  if r.getLast? = some ')' then match split ',' r.dropLast with
    | [n] => if n.all isDigit then some (b, digitsVal n, 0) else none
    | [n, m] => if n.all isDigit && m.all isDigit then some (b, digitsVal n, digitsVal m) else none
    | _ => none
  else none

/-- A type with its arguments. -/
def readDbmlType (s : Str) : Option (Str × Nat × Nat) :=
  match splitN2 '(' s with
  | (b, none) => some (b, 0, 0)
  | (b, some r) => readDbmlArgs b r

/-- The settings of a column, with the closing bracket. -/
def readDbmlSettings (r : Str) : Option (List DbmlSetting) :=
  if r.getLast? = some ']' then (parts (· == ',') r.dropLast).mapM fun p => readDbmlSetting (tokens p) else none

/-- The head of a column: name and type. -/
def readDbmlHead (h : Str) (settings : List DbmlSetting) : Option DbmlColumn :=
  match tokens h with
  | [n, t] => (readDbmlType t).map fun ty => ⟨n, ty.1, ty.2.1, ty.2.2, settings⟩
  | _ => none

/-- The line of a column. -/
def readDbmlColumn (l : Str) : Option DbmlColumn :=
  match splitN2 '[' l with
  | (h, none) => readDbmlHead h []
  | (h, some r) => (readDbmlSettings r).bind (readDbmlHead h)

/-- A line outside of tables. -/
inductive DbmlTop
  | blank
  | table (n : Str)
  | ref (r : DbmlRef)

def readDbmlTop (l : Str) : Option DbmlTop :=
  match tokens l with
  | [] => some .blank
  | [k, n, b] => if k = "Table"ₛ ∧ b = "{"ₛ then some (.table n) else none
  | [k, a, rel, b] =>
    if k = "Ref:"ₛ ∧ isDbmlRel rel then
      match readDotted a, readDotted b with
      | some a, some b => some (.ref ⟨a.1, a.2, rel, b.1, b.2⟩)
      | _, _ => none
    else none
  | _ => none

/-- The lines of a document; the first argument is the table that is being read. -/
def readDbmlLines : Option (Str × List DbmlColumn) → List Str → Option DbmlDoc
  | none, [] => some ⟨[], []⟩
  | some _, [] => none
  | none, l :: ls => match readDbmlTop l with
    | none => none
    | some .blank => readDbmlLines none ls
    | some (.table n) => readDbmlLines (some (n, [])) ls
    | some (.ref r) => (readDbmlLines none ls).map fun d => ⟨d.tables, r :: d.refs⟩
  | some (n, cs), l :: ls =>
    if tokens l = ["}"ₛ] then (readDbmlLines none ls).map fun d => ⟨⟨n, cs⟩ :: d.tables, d.refs⟩
    else match readDbmlColumn l with
      | none => none
      | some c => readDbmlLines (some (n, cs ++ [c])) ls

/-- Reads a DBML document. -/
def readDbml (s : Str) : Option DbmlDoc := readDbmlLines none (split '\n' s)

/-! ### What a document says -/

/-- The relation that a setting of a column declares. -/
def refOfSetting (table column : Str) : DbmlSetting → Option DbmlRef
  | .ref rel a b => some ⟨table, column, rel, a, b⟩
  | _ => none

/-- The references written as settings. -/
def DbmlDoc.inlineRefs (d : DbmlDoc) : List DbmlRef :=
  d.tables.flatMap fun t => t.columns.flatMap fun c => c.settings.filterMap (refOfSetting t.name c.name)

/-- The kind of relation of a reference. -/
def dbmlRel (relationship : Str) : Str :=
  ([("n:1"ₛ, ">"ₛ), ("1:n"ₛ, "<"ₛ), ("1:1"ₛ, "-"ₛ)].lookup relationship).getD ">"ₛ

/-- The relation that a column of a table states. -/
def refOfColumn (table : Str) (c : Column) : Option DbmlRef :=
  c.ref.map fun r => ⟨table, c.name, dbmlRel r.relationship, r.table, r.column⟩

/-- The references of a schema. -/
def schemaRefs (s : Schema) : List DbmlRef := s.tables.flatMap fun t => t.columns.filterMap (refOfColumn t.name)

/-- What the document says about a column, apart from references. -/
structure DbmlDescribes (c : Column) (d : DbmlColumn) : Prop where
  name : d.name = c.name
  type : d.type = c.type
  size : d.size = c.size.toNat
  scale : d.size ≠ 0 → d.scale = c.scale.toNat
  pk : .pk ∈ d.settings ↔ c.primaryKey = true
  unique : .unique ∈ d.settings ↔ c.uniqueKey = true
  notNull : .notNull ∈ d.settings ↔ c.notNull = true
  default : ∀ v, .default v ∈ d.settings ↔ c.defaultValue ≠ [] ∧
    v = if c.type = "char"ₛ ∨ c.type = "varchar"ₛ then .text c.defaultValue else .raw c.defaultValue
  note : ∀ n, .note n ∈ d.settings ↔ c.description ≠ [] ∧ n = c.description

/-- A text that can stand between the quotes `q` on a line. -/
def PlainQuoted (q : Char) (s : Str) : Prop := q ∉ s ∧ '\\' ∉ s ∧ '\n' ∉ s

instance (q : Char) (s : Str) : Decidable (PlainQuoted q s) := inferInstanceAs (Decidable (_ ∧ _))

/-- A default value that is valid without further treatment. -/
def PlainDbmlDefault (c : Column) : Prop :=
  c.defaultValue = [] ∨
  if c.type = "char"ₛ ∨ c.type = "varchar"ₛ then PlainQuoted '\'' c.defaultValue
  else isNumber c.defaultValue = true ∨ c.defaultValue ∈ ["true"ₛ, "false"ₛ, "null"ₛ]

instance (c : Column) : Decidable (PlainDbmlDefault c) := inferInstanceAs (Decidable (_ ∨ _))

/-- A column whose texts can be written as they are. -/
structure PlainDbmlColumn (c : Column) : Prop where
  name : Ident c.name
  type : c.type ∈ colTypes
  default : PlainDbmlDefault c
  description : PlainQuoted '"' c.description
  ref : ∀ r, c.ref = some r → Ident r.table ∧ Ident r.column

/-- A table whose texts can be written as they are. -/
def PlainDbmlTable (t : Table) : Prop := Ident t.name ∧ ∀ c ∈ t.columns, PlainDbmlColumn c

end Octo.Spec
