import Verif.Model.Octopus
import Verif.Model.Common
import Verif.Model.Strcase

/-! Model of package `protobuf`, format/protobuf/generator.go and cli.go. -/

namespace Octo.Protobuf

/-- `PbField`, format/protobuf/generator.go 30-38, without rule, comment and default, which the template does not use. -/
structure PbField where
  type : Str
  name : Str
  tag : Int
  imp : Str
  deriving DecidableEq, Repr

/-- `PbRelation`, format/protobuf/generator.go 40-45. -/
structure PbRelation where
  type : Str
  name : Str
  tag : Int
  repeated : Bool
  deriving DecidableEq, Repr

/-- `PbMessage`, format/protobuf/generator.go 23-28. -/
structure PbMessage where
  name : Str
  fields : List PbField
  relations : List PbRelation
  imports : List Str
  deriving DecidableEq, Repr

/-- `Option`, format/protobuf/generator.go 47-56; `FilePath` is not used. -/
structure PbOption where
  prefixMapper : Option PrefixMapper
  tableFilter : Option (Table → Bool)
  removePrefixes : List Str
  package : Str
  goPackage : Str
  relationTagStart : Int
  relationTagDecr : Bool

/-- `getMessageName`, format/protobuf/generator.go 157-171. -/
def messageName (sc : Strcase) (o : PbOption) (t : Table) : Str :=
  let name := sc.toCamel (o.removePrefixes.foldl trimPrefix t.name)
  match o.prefixMapper with
  | none => name
  | some m => if m.getPrefix t.group ≠ [] then m.getPrefix t.group ++ name else name

/-- The type of a field and its import, format/protobuf/generator.go 236-274. -/
def fieldType (type : Str) : Str × Str :=
  let columnType := lower type
  if columnType ∈ ["char"ₛ, "varchar"ₛ, "text8"ₛ, "text16"ₛ, "text24"ₛ, "text32"ₛ] then ("string"ₛ, [])
  else if columnType = "boolean"ₛ then ("bool"ₛ, [])
  else if columnType = "int64"ₛ then ("int64"ₛ, [])
  else if columnType ∈ ["int8"ₛ, "int16"ₛ, "int24"ₛ, "int32"ₛ] then ("int32"ₛ, [])
  else if columnType = "decimal"ₛ then ("double"ₛ, [])
  else if columnType = "float"ₛ then ("float"ₛ, [])
  else if columnType = "double"ₛ then ("double"ₛ, [])
  else if columnType = "datetime"ₛ then ("google.protobuf.Timestamp"ₛ, "google/protobuf/timestamp.proto"ₛ)
  else (type, [])

/-- `newPbField`, format/protobuf/generator.go 232-287. -/
def newPbField (sc : Strcase) (tag : Nat) (c : Column) : PbField :=
  ⟨(fieldType c.type).1, (utilToLowerCamel sc c.name).1, tag, (fieldType c.type).2⟩

/-- The relation of a reference, format/protobuf/generator.go 189-201; `none` is the nil dereference of a reference to a
missing table. The memoizer is a pure cache (property C13), so the name is computed directly. -/
def newRelation (sc : Strcase) (s : Schema) (o : PbOption) (r : Reference) : Option PbRelation :=
  (s.tableByName r.table).map fun t =>
    ⟨messageName sc o t, sc.toLowerCamel (messageName sc o t), -1, r.relationship == "1:n"ₛ⟩

/-- The first relation tag, format/protobuf/generator.go 204-217. Overflow of `int` is not modelled. -/
def relTagStart (o : PbOption) (maxTag relationCount : Nat) : Int :=
  if o.relationTagDecr then
    if o.relationTagStart - relationCount + 1 ≤ maxTag then maxTag + relationCount else o.relationTagStart
  else if o.relationTagStart < 0 ∨ o.relationTagStart ≤ maxTag then maxTag + 1 else o.relationTagStart

/-- `newPbMessage`, format/protobuf/generator.go 173-230; `none` is a panic. -/
def newPbMessage (sc : Strcase) (s : Schema) (o : PbOption) (t : Table) : Option PbMessage :=
  ((t.columns.filterMap (·.ref)).mapM (newRelation sc s o)).map fun relations =>
    let fields := t.columns.zipIdx.map fun p => newPbField sc (p.2 + 1) p.1
    let start := relTagStart o t.columns.length relations.length
    { name := messageName sc o t
      fields := fields
      relations := relations.zipIdx.map fun p => { p.1 with tag := start + p.2 }
      imports := ((fields.map (·.imp)).filter (· ≠ [])).foldl StringSet.add StringSet.empty |>.slice }

/-- The tables that pass the filter, format/protobuf/generator.go 83-88. -/
def selected (o : PbOption) (s : Schema) : List Table :=
  s.tables.filter (passes o.tableFilter)

/-- A number as `text/template` prints it. -/
def showInt (n : Int) : Str := if n < 0 then '-' :: itoa n.natAbs else itoa n.natAbs

/-- The line of a field or relation, format/protobuf/generator.go 116 and 119. -/
def fieldText (type name : Str) (tag : Int) : Str := "\n  "ₛ ++ type ++ " "ₛ ++ name ++ " = "ₛ ++ showInt tag ++ ";"ₛ

/-- The part of the template for a message, format/protobuf/generator.go 113-122. -/
def messageText (m : PbMessage) : Str :=
  "\nmessage "ₛ ++ m.name ++ " {"ₛ ++ m.fields.flatMap (fun f => fieldText f.type f.name f.tag) ++
  m.relations.flatMap (fun r => fieldText r.type r.name r.tag) ++ "\n}\n"ₛ

/-- `generateProto`, format/protobuf/generator.go 93-154: the expansion of the template by `text/template`. -/
def protoText (o : PbOption) (ms : List PbMessage) : Str :=
  "syntax = \"proto3\";\n\n"ₛ ++ (if o.package = [] then [] else "package "ₛ ++ o.package ++ ";"ₛ) ++ "\n"ₛ ++
  (if o.goPackage = [] then [] else "\noption go_package = \""ₛ ++ o.goPackage ++ "\";\n"ₛ) ++
  (ms.foldl (fun s m => s.addAll m.imports) StringSet.empty).slice.flatMap (fun i => "\nimport \""ₛ ++ i ++ "\";\n"ₛ) ++
  ms.flatMap messageText

/-- `Generate`, format/protobuf/generator.go 76-91; `none` is a panic. -/
def generate (sc : Strcase) (o : PbOption) (s : Schema) : Option Str :=
  ((selected o s).mapM (newPbMessage sc s o)).map (protoText o)

/-- The option that `Action` builds from the command line, format/protobuf/cli.go 30-42: the two flags for relation tags are
declared (lines 96-106) but not used. `none` is the panic of the prefix option. -/
def cliOption (prefixes groups removePrefixes package goPackage : Str) (_relationTagStart : Str) (_relationTagDecr : Bool) :
    Option PbOption :=
  (newPrefixMapper prefixes).map fun m =>
    { prefixMapper := some m, tableFilter := getTableFilterFn groups, removePrefixes := split ',' removePrefixes, package := package,
      goPackage := goPackage, relationTagStart := -1, relationTagDecr := false }

end Octo.Protobuf
