import Verif.Basic.Str

/-! Specification objects for package `format/common`. -/

namespace Octo.Spec

/-- Text of an option `g1:v1,g2:v2,...`. -/
def optionText (kvs : List (Str × Str)) : Str := join [','] (kvs.map fun kv => kv.1 ++ [':'] ++ kv.2)

/-- Value of the last entry for a group. -/
def lastValue {ν : Type} (kvs : List (Str × ν)) (g : Str) : Option ν :=
  kvs.foldl (fun acc kv => if kv.1 = g then some kv.2 else acc) none

/-- Documented file extensions (without dot) and their formats. -/
def fileFormats : List (Str × Str) :=
  [("graphql"ₛ, "graphql"ₛ), ("graphqls"ₛ, "graphql"ₛ), ("json"ₛ, "octopus2"ₛ), ("mdj"ₛ, "staruml2"ₛ),
   ("ojson"ₛ, "octopus1"ₛ), ("plantuml"ₛ, "plantuml"ₛ), ("schema"ₛ, "schema-converter"ₛ), ("xlsx"ₛ, "xlsx"ₛ)]

/-- Format of an extension: nothing for unknown ones. -/
def formatOfExt (ext : Str) : Str := (fileFormats.lookup (lower ext)).getD []

end Octo.Spec
