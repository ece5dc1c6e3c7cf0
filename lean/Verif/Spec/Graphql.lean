import Verif.Spec.Gorm
import Verif.Model.Graphql

/-! A reader of GraphQL schema documents, and what a document should say about a schema. -/

namespace Octo.Spec
open Graphql

/-! ### Documents -/

/-- A type of GraphQL. -/
inductive GqlType
  | named (n : Str)
  | list (t : GqlType)
  | nonNull (t : GqlType)
  deriving DecidableEq, Repr

/-- A definition of a document: an object type, or the schema when there is no name. -/
structure GqlDef where
  name : Option Str
  fields : List (Str × GqlType)
  deriving DecidableEq, Repr

/-- A name of GraphQL. -/
def GqlName (s : Str) : Prop := Ident s ∧ ¬ StartsWithDigit s

instance (s : Str) : Decidable (GqlName s) := inferInstanceAs (Decidable (_ ∧ _))

/-- The token of the letters that have been read. -/
def gqlWord (cur : Str) : List Str := if cur = [] then [] else [cur]

/-- The tokens of a text: names and single characters, without blanks, line ends and commas. The first argument has the letters of
the name that is being read. -/
def gqlLex (cur : Str) : Str → List Str
  | [] => gqlWord cur
  | c :: cs =>
    if isIdent c then gqlLex (cur ++ [c]) cs
    else gqlWord cur ++ (if isBlank c = true ∨ c = ',' then [] else [[c]]) ++ gqlLex [] cs

/-- The place of a token in a document. -/
inductive GqlPlace
  /-- outside of definitions -/
  | top
  /-- after `type` -/
  | type
  /-- after the name of a type, or after `schema` -/
  | opening (name : Option Str)
  /-- in the braces, before a field -/
  | body (d : GqlDef)
  /-- after the name of a field -/
  | field (d : GqlDef) (n : Str)
  /-- before the type of a field -/
  | colon (d : GqlDef) (n : Str)
  /-- after the bracket of a list -/
  | bracket (d : GqlDef) (n : Str)
  /-- after the type of the items of a list -/
  | item (d : GqlDef) (n : Str) (t : GqlType)
  /-- after the type of a field -/
  | typed (d : GqlDef) (n : Str) (t : GqlType)

/-- The definitions that have been read, and the place. -/
abbrev GqlState := List GqlDef × GqlPlace

/-- A token before a field; a definition has at least one field. -/
def gqlBody (defs : List GqlDef) (d : GqlDef) (tok : Str) : Option GqlState :=
  if tok = "}"ₛ then if d.fields = [] then none else some (defs ++ [d], .top)
  else if GqlName tok then some (defs, .field d tok) else none

/-- The type is marked as non-null. -/
def GqlType.isNonNull : GqlType → Bool
  | .nonNull _ => true
  | _ => false

/-- Reads a token. -/
def gqlStep : GqlState → Str → Option GqlState
  | (defs, .top), tok =>
    if tok = "schema"ₛ then some (defs, .opening none) else if tok = "type"ₛ then some (defs, .type) else none
  | (defs, .type), tok => if GqlName tok then some (defs, .opening (some tok)) else none
  | (defs, .opening n), tok => if tok = "{"ₛ then some (defs, .body ⟨n, []⟩) else none
  | (defs, .body d), tok => gqlBody defs d tok
  | (defs, .field d n), tok => if tok = ":"ₛ then some (defs, .colon d n) else none
  | (defs, .colon d n), tok =>
    if tok = "["ₛ then some (defs, .bracket d n) else if GqlName tok then some (defs, .typed d n (.named tok)) else none
  | (defs, .bracket d n), tok => if GqlName tok then some (defs, .item d n (.named tok)) else none
  | (defs, .item d n t), tok =>
    if tok = "]"ₛ then some (defs, .typed d n (.list t))
    else if tok = "!"ₛ ∧ t.isNonNull = false then some (defs, .item d n (.nonNull t)) else none
  | (defs, .typed d n t), tok =>
    if tok = "!"ₛ ∧ t.isNonNull = false then some (defs, .typed d n (.nonNull t))
    else gqlBody defs { d with fields := d.fields ++ [(n, t)] } tok

/-- The definitions, when the text ends outside of them. -/
def gqlEnd : GqlState → Option (List GqlDef)
  | (defs, .top) => some defs
  | _ => none

/-- Reads a document of object types with fields without arguments and with types that are names or lists of names. -/
def readGql (s : Str) : Option (List GqlDef) := ((gqlLex [] s).foldlM gqlStep ([], .top)).bind gqlEnd

/-! ### What a document says -/

/-- The tables that the filter selects. -/
def GqlSelected (o : GqlOption) (s : Schema) : List Table :=
  s.tables.filter fun t => (o.tableFilter.map fun f => f t).getD true

/-- The name of the type of a table: its class name, or the prefix of its group and its name in camel case. -/
def gqlTypeName (sc : Strcase) (o : GqlOption) (t : Table) : Str :=
  if t.className = [] then o.prefixMapper.getPrefix t.group ++ sc.toCamel (o.removePrefixes.foldl trimPrefix t.name)
  else t.className

/-- The scalar types for the column types; other column types are texts. -/
def gqlScalarOf : List (Str × Str) :=
  [("boolean"ₛ, "Boolean"ₛ), ("int8"ₛ, "Int"ₛ), ("int16"ₛ, "Int"ₛ), ("int24"ₛ, "Int"ₛ), ("int32"ₛ, "Int"ₛ), ("int64"ₛ, "Int"ₛ),
   ("decimal"ₛ, "Float"ₛ), ("float"ₛ, "Float"ₛ), ("double"ₛ, "Float"ₛ)]

/-- The column is the only one of the primary key. -/
def OnlyKey (t : Table) (c : Column) : Prop := c.primaryKey = true ∧ (t.columns.filter (·.primaryKey)).length = 1

instance (t : Table) (c : Column) : Decidable (OnlyKey t c) := inferInstanceAs (Decidable (_ ∧ _))

/-- The type without the mark. -/
def GqlType.bare : GqlType → GqlType
  | .nonNull t => t
  | t => t

/-- A field describes a column of a table: it has the name of the column in camel case; it is marked as non-null exactly when the column
is not null or the only one of the key; its type is `ID` for the only column of the key, and the scalar of the column type otherwise. -/
structure IsGqlField (sc : Strcase) (t : Table) (c : Column) (f : Str × GqlType) : Prop where
  name : f.1 = sc.toLowerCamel c.name
  nonNull : f.2.isNonNull = true ↔ c.notNull = true ∨ OnlyKey t c
  type : f.2.bare = .named (if OnlyKey t c then "ID"ₛ else (gqlScalarOf.lookup (lower c.type)).getD "String"ₛ)

/-- A definition describes a table: it has its name and one field per column, in order. -/
structure GqlDescribes (sc : Strcase) (o : GqlOption) (t : Table) (d : GqlDef) : Prop where
  name : d.name = some (gqlTypeName sc o t)
  fields : List.Forall₂ (IsGqlField sc t) t.columns d.fields

/-- The name of the query for a table: its type name in camel case, in plural. -/
def gqlQuery (sc : Strcase) (plural : Str → Str) (o : GqlOption) (t : Table) : Str := plural (sc.toLowerCamel (gqlTypeName sc o t))

/-- The names of a table are names of GraphQL, and it has columns. -/
structure GqlTable (sc : Strcase) (plural : Str → Str) (o : GqlOption) (t : Table) : Prop where
  type : ¬ StartsWithDigit (gqlTypeName sc o t)
  query : ¬ StartsWithDigit (gqlQuery sc plural o t)
  columns : t.columns ≠ []
  fields : ∀ c ∈ t.columns, ¬ StartsWithDigit (sc.toLowerCamel c.name)

instance (sc : Strcase) (plural : Str → Str) (o : GqlOption) (t : Table) : Decidable (GqlTable sc plural o t) :=
  decidable_of_iff (¬ StartsWithDigit (gqlTypeName sc o t) ∧ ¬ StartsWithDigit (gqlQuery sc plural o t) ∧ t.columns ≠ [] ∧
      ∀ c ∈ t.columns, ¬ StartsWithDigit (sc.toLowerCamel c.name))
    ⟨fun ⟨a, b, c, d⟩ => ⟨a, b, c, d⟩, fun ⟨a, b, c, d⟩ => ⟨a, b, c, d⟩⟩

/-- The plural of a word of letters and digits is a word of letters and digits. -/
def CleanPlural (plural : Str → Str) : Prop := ∀ s, Alnum s → Alnum (plural s)

/-- A schema and options whose texts can be written as they are. -/
structure PlainGql (o : GqlOption) (s : Schema) : Prop where
  tables : ∀ t ∈ s.tables, HasAlnum (o.removePrefixes.foldl trimPrefix t.name) ∧
    (t.className = [] ∨ Ident t.className ∧ HasAlnum t.className)
  prefixes : ∀ g, (o.prefixMapper.getPrefix g).all isAlnum = true
  columns : ∀ t ∈ s.tables, ∀ c ∈ t.columns, HasAlnum c.name

/-! ### Values -/

/-- The bits of the integer column types. -/
def intBits : List (Str × Nat) := [("int8"ₛ, 8), ("int16"ₛ, 16), ("int24"ₛ, 24), ("int32"ₛ, 32), ("int64"ₛ, 64)]

/-- A number of a signed integer with some bits. -/
def InBits (bits : Nat) (v : Int) : Prop := -2 ^ (bits - 1) ≤ v ∧ v < 2 ^ (bits - 1)

/-- A number that an integer column can have. -/
def IntValue (c : Column) (v : Int) : Prop := ∃ bits, intBits.lookup (lower c.type) = some bits ∧ InBits bits v

/-- A number that `Int` of GraphQL can represent: it has 32 bits. -/
def GqlInt (v : Int) : Prop := InBits 32 v

/-! ### Valid documents -/

/-- The scalars of GraphQL. -/
def gqlBuiltin : List Str := ["Int"ₛ, "Float"ₛ, "String"ₛ, "Boolean"ₛ, "ID"ₛ]

/-- The name of the innermost type. -/
def GqlType.base : GqlType → Str
  | .named n => n
  | .list t => t.base
  | .nonNull t => t.base

/-- A document is valid: there is one schema definition; the names of types differ and are no scalars; the fields of a definition have
different names; every type that is used is a scalar or defined; no name starts with two underscores. -/
structure ValidGql (ds : List GqlDef) : Prop where
  schema : (ds.filter (·.name.isNone)).length = 1
  types : (ds.filterMap (·.name)).Nodup
  scalars : ∀ n ∈ ds.filterMap (·.name), n ∉ gqlBuiltin
  fields : ∀ d ∈ ds, (d.fields.map Prod.fst).Nodup
  defined : ∀ d ∈ ds, ∀ f ∈ d.fields, f.2.base ∈ gqlBuiltin ∨ f.2.base ∈ ds.filterMap (·.name)
  reserved : ∀ n, n ∈ ds.filterMap (·.name) ∨ (∃ d ∈ ds, n ∈ d.fields.map Prod.fst) → ¬ ['_', '_'] <+: n

end Octo.Spec
