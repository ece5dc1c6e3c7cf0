import Verif.Spec.Dbml
import Verif.Model.Protobuf
import Mathlib.Data.List.Forall2

/-! A reader of proto3 files, and what a file should say about a schema. -/

namespace Octo.Spec

structure ProtoField where
  type : Str
  name : Str
  tag : Nat
  deriving DecidableEq, Repr

structure ProtoMessage where
  name : Str
  fields : List ProtoField
  deriving DecidableEq, Repr

structure ProtoFile where
  packages : List Str
  options : List (Str × Str)
  imports : List Str
  messages : List ProtoMessage
  deriving DecidableEq, Repr

/-- A statement without its semicolon. -/
def unsemi (s : Str) : Option Str := if s.getLast? = some ';' then some s.dropLast else none

/-- A field, from its tokens. -/
def readProtoField : List Str → Option ProtoField
  | [t, n, e, v] =>
    if e = "="ₛ then (unsemi v).bind fun d => if isDigits d then some ⟨t, n, digitsVal d⟩ else none else none
  | _ => none

/-- A line outside of messages. -/
inductive ProtoTop
  | blank
  | package (n : Str)
  | option (k v : Str)
  | imp (n : Str)
  | message (n : Str)
  deriving DecidableEq

/-- A line outside of messages, from its tokens. -/
def readProtoTop : List Str → Option ProtoTop
  | [] => some .blank
  | [k, a] =>
    if k = "package"ₛ then (unsemi a).map .package
    else if k = "import"ₛ then ((unsemi a).bind (unquote '"')).map .imp
    else none
  | [k, a, b] => if k = "message"ₛ ∧ b = "{"ₛ then some (.message a) else none
  | [k, a, b, c] => if k = "option"ₛ ∧ b = "="ₛ then ((unsemi c).bind (unquote '"')).map (.option a) else none
  | _ => none

/-- A line outside of messages, added to the rest of the file. -/
def ProtoTop.addTo (f : ProtoFile) : ProtoTop → ProtoFile
  | .package n => { f with packages := n :: f.packages }
  | .option k v => { f with options := (k, v) :: f.options }
  | .imp n => { f with imports := n :: f.imports }
  | _ => f

/-- The lines of a file; the first argument is the message that is being read. -/
def readProtoLines : Option (Str × List ProtoField) → List Str → Option ProtoFile
  | none, [] => some ⟨[], [], [], []⟩
  | some _, [] => none
  | none, l :: ls => match readProtoTop (tokens l) with
    | none => none
    | some (.message n) => readProtoLines (some (n, [])) ls
    | some t => (readProtoLines none ls).map fun f => t.addTo f
  | some (n, fs), l :: ls =>
    if tokens l = ["}"ₛ] then
      (readProtoLines none ls).map fun f => { f with messages := ⟨n, fs⟩ :: f.messages }
    else match readProtoField (tokens l) with
      | none => none
      | some x => readProtoLines (some (n, fs ++ [x])) ls

/-- Reads a proto3 file. -/
def readProto (s : Str) : Option ProtoFile :=
  match split '\n' s with
  | h :: ls => if tokens h = ["syntax"ₛ, "="ₛ, "\"proto3\";"ₛ] then readProtoLines none ls else none
  | [] => none

/-! ### What a file says -/

/-- Field numbers that protobuf allows: 1 to 2^29 - 1, without the reserved range. -/
def LegalTag (n : Nat) : Prop := 1 ≤ n ∧ n ≤ 536870911 ∧ ¬(19000 ≤ n ∧ n ≤ 19999)

instance (n : Nat) : Decidable (LegalTag n) := inferInstanceAs (Decidable (_ ∧ _))

/-- The scalar types of protobuf. -/
def protoScalars : List Str :=
  ["double"ₛ, "float"ₛ, "int32"ₛ, "int64"ₛ, "uint32"ₛ, "uint64"ₛ, "sint32"ₛ, "sint64"ₛ, "fixed32"ₛ, "fixed64"ₛ,
   "sfixed32"ₛ, "sfixed64"ₛ, "bool"ₛ, "string"ₛ, "bytes"ₛ]

/-- The type of a field for a supported column type. -/
def protoTypes : List (Str × Str) :=
  [("char"ₛ, "string"ₛ), ("varchar"ₛ, "string"ₛ), ("text8"ₛ, "string"ₛ), ("text16"ₛ, "string"ₛ), ("text24"ₛ, "string"ₛ),
   ("text32"ₛ, "string"ₛ), ("boolean"ₛ, "bool"ₛ), ("int8"ₛ, "int32"ₛ), ("int16"ₛ, "int32"ₛ), ("int24"ₛ, "int32"ₛ),
   ("int32"ₛ, "int32"ₛ), ("int64"ₛ, "int64"ₛ), ("decimal"ₛ, "double"ₛ), ("float"ₛ, "float"ₛ), ("double"ₛ, "double"ₛ),
   ("datetime"ₛ, "google.protobuf.Timestamp"ₛ)]

/-- The name of the message of a table: the prefix of its group and its name in camel case, without the prefixes to remove. -/
def protoName (sc : Strcase) (o : Protobuf.PbOption) (t : Table) : Str :=
  (o.prefixMapper.map fun m => m.getPrefix t.group).getD [] ++ sc.toCamel (o.removePrefixes.foldl trimPrefix t.name)

/-- Letters and digits. -/
def isAlnum (c : Char) : Bool := isAlpha c || isDigit c

/-- A non-empty text of letters and digits. -/
def Alnum (s : Str) : Prop := s ≠ [] ∧ s.all isAlnum = true

instance (s : Str) : Decidable (Alnum s) := inferInstanceAs (Decidable (_ ∧ _))

/-- A text with a letter or digit. -/
def HasAlnum (s : Str) : Prop := s.any isAlnum = true

instance (s : Str) : Decidable (HasAlnum s) := inferInstanceAs (Decidable (_ = _))

/-- Conversion to camel case yields letters and digits. -/
def CleanCase (sc : Strcase) : Prop := ∀ s, HasAlnum s → Alnum (sc.toCamel s) ∧ Alnum (sc.toLowerCamel s)

/-- A schema and options whose texts can be written as they are. -/
structure PlainProto (o : Protobuf.PbOption) (s : Schema) : Prop where
  tables : ∀ t ∈ s.tables, HasAlnum (o.removePrefixes.foldl trimPrefix t.name)
  prefixes : ∀ m, o.prefixMapper = some m → ∀ g, (m.getPrefix g).all isAlnum = true
  columns : ∀ t ∈ s.tables, ∀ c ∈ t.columns, HasAlnum c.name ∧ Ident c.type
  package : o.package = [] ∨ Word o.package
  goPackage : PlainQuoted '"' o.goPackage

/-- The tables that the filter selects. -/
def Selected (o : Protobuf.PbOption) (s : Schema) : List Table :=
  s.tables.filter fun t => (o.tableFilter.map fun f => f t).getD true

/-- The references of a table, in column order. -/
def tableRefs (t : Table) : List Reference := t.columns.filterMap (·.ref)

/-- The type of a field for a column type; unsupported types are taken over. -/
def protoTypeOf (t : Str) : Str := (protoTypes.lookup (lower t)).getD t

/-- The first table with a name. -/
def IsTarget (s : Schema) (name : Str) (t : Table) : Prop :=
  ∃ pre post, s.tables = pre ++ t :: post ∧ t.name = name ∧ ∀ u ∈ pre, u.name ≠ name

/-- The name of the field of a column. -/
def protoFieldName (sc : Strcase) (c : Column) : Str := sc.toLowerCamel c.name

/-- The name of the field of a reference to a table. -/
def protoRelName (sc : Strcase) (o : Protobuf.PbOption) (t : Table) : Str := sc.toLowerCamel (protoName sc o t)

/-- What a file says about a table: one field per column, in order, and then one field per reference, in order. -/
structure ProtoDescribes (sc : Strcase) (o : Protobuf.PbOption) (s : Schema) (t : Table) (m : ProtoMessage) : Prop where
  name : m.name = protoName sc o t
  columns : List.Forall₂ (fun (c : Column) (f : ProtoField) => f.name = protoFieldName sc c ∧ f.type = protoTypeOf c.type)
    t.columns (m.fields.take t.columns.length)
  relations : List.Forall₂ (fun (r : Reference) (f : ProtoField) => ∃ u, IsTarget s r.table u ∧ f.type = protoName sc o u ∧
    f.name = protoRelName sc o u) (tableRefs t) (m.fields.drop t.columns.length)

/-- Every type that is used is a scalar type, or imported, or a message of the file. -/
def TypesDefined (f : ProtoFile) : Prop :=
  ∀ m ∈ f.messages, ∀ x ∈ m.fields, x.type ∈ protoScalars ∨
    (x.type = "google.protobuf.Timestamp"ₛ ∧ "google/protobuf/timestamp.proto"ₛ ∈ f.imports) ∨
    ∃ n ∈ f.messages, n.name = x.type

/-- A protobuf identifier: a letter, and then letters, digits and underscores. -/
def ProtoIdent (s : Str) : Prop := (s.head?.any isAlpha) = true ∧ (s.all fun c => isAlnum c || c == '_') = true

instance (s : Str) : Decidable (ProtoIdent s) := inferInstanceAs (Decidable (_ ∧ _))

/-- The first letter or digit of a name is a letter. -/
def StartsWithLetter (s : Str) : Prop := ((s.find? isAlnum).any isAlpha) = true

instance (s : Str) : Decidable (StartsWithLetter s) := inferInstanceAs (Decidable (_ = _))

end Octo.Spec
