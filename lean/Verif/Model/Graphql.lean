import Verif.Model.Jpa

/-! Model of package `graphql`, format/graphql/generator.go. -/

namespace Octo
namespace Graphql

/-- `Option`, format/graphql/generator.go 29-33. The prefix mapper is not nil: cli.go always sets it. -/
structure GqlOption where
  prefixMapper : PrefixMapper
  tableFilter : Option (Table → Bool)
  removePrefixes : List Str

/-- `Field`, format/graphql/generator.go 23-27. -/
structure GqlField where
  column : Column
  name : Str
  type : Str

/-- The switch of `NewField`, format/graphql/generator.go 83-117. -/
def baseType (c : Column) : Str :=
  let columnType := lower c.type
  if columnType ∈ ["datetime"ₛ, "date"ₛ, "time"ₛ, "char"ₛ, "varchar"ₛ] then "String"ₛ
  else if columnType = "boolean"ₛ then "Boolean"ₛ
  else if columnType ∈ ["int8"ₛ, "int16"ₛ, "int24"ₛ, "int32"ₛ, "int64"ₛ] then "Int"ₛ
  else if columnType ∈ ["decimal"ₛ, "float"ₛ, "double"ₛ] then "Float"ₛ
  else "String"ₛ

/-- `NewField`, format/graphql/generator.go 80-126, without the log message. -/
def newField (sc : Strcase) (c : Column) : GqlField :=
  { column := c
    name := sc.toLowerCamel c.name
    type := if c.notNull then baseType c ++ "!"ₛ else baseType c }

/-- `Class`, format/graphql/generator.go 16-21, without `PKFields`, which is never set. -/
structure GqlClass where
  name : Str
  fields : List GqlField

/-- The name of a class, format/graphql/generator.go 44-56. -/
def className (sc : Strcase) (o : GqlOption) (t : Table) : Str :=
  if t.className = [] then
    let name := sc.toCamel (o.removePrefixes.foldl trimPrefix t.name)
    if o.prefixMapper.getPrefix t.group ≠ [] then o.prefixMapper.getPrefix t.group ++ name else name
  else t.className

/-- `NewClass`, format/graphql/generator.go 40-78. The fields are pointers: the only field of the key is changed after it has been
added to the fields of the class. -/
def newClass (sc : Strcase) (o : GqlOption) (t : Table) : GqlClass :=
  let fields := t.columns.map (newField sc)
  let pkFields := fields.filter (·.column.primaryKey)
  { name := className sc o t
    fields := if pkFields.length = 1 then fields.map fun f => if f.column.primaryKey then { f with type := "ID!"ₛ } else f else fields }

/-- `strings.Repeat(indent, indentLevel)+line`, format/graphql/generator.go 137-143. -/
def indented (level : Nat) (line : Str) : Str := (List.replicate level "  "ₛ).flatten ++ line

/-- The lines of a class, format/graphql/generator.go 170-177. -/
def classLines (k : GqlClass) : List Str :=
  indented 0 ("type "ₛ ++ k.name ++ " {"ₛ) :: k.fields.map (fun f => indented 1 (f.name ++ ": "ₛ ++ f.type)) ++ [indented 0 "}"ₛ, indented 0 []]

/-- The lines of the file, format/graphql/generator.go 136-178. The first element has line ends of its own. `plural` is
`pluralize.Client.Plural` (third party). -/
def contents (sc : Strcase) (plural : Str → Str) (o : GqlOption) (s : Schema) : List Str :=
  let classes := (s.tables.filter (passes o.tableFilter)).map (newClass sc o)
  [indented 0 "schema {\n    query: Query\n}\n"ₛ, indented 0 "type Query {"ₛ] ++
  classes.map (fun k => indented 1 (plural (sc.toLowerCamel k.name) ++ ": ["ₛ ++ k.name ++ "]"ₛ)) ++
  [indented 0 "}"ₛ, indented 0 []] ++ classes.flatMap classLines

/-- `Generator.Generate`, format/graphql/generator.go 128-190: the path and the text of the file. Errors of the file system are not
modelled. -/
def generate (sc : Strcase) (plural : Str → Str) (o : GqlOption) (s : Schema) (out : Str) : List Str × Str :=
  (Jpa.pathJoin [out, s.name ++ "-"ₛ ++ s.version ++ ".graphqls"ₛ], join "\n"ₛ (contents sc plural o s))

end Graphql
end Octo
