import Verif.Basic.GoMap

/-! Model of package `format/common` of /repo. -/

namespace Octo

/-- Splits one option token `k:v` (`strings.SplitN(token, ":", 2)` followed by `kv[0]`, `kv[1]`);
`none` is the index-out-of-range panic of `kv[1]`. -/
def optionToken (tok : Str) : Option (Str × Str) :=
  match splitN2 ':' tok with
  | (k, some v) => some (k, v)
  | (_, none) => none

/-- Splits all tokens; `none` when one of them panics. -/
def optionTokens : List Str → Option (List (Str × Str))
  | [] => some []
  | t :: ts => match optionToken t with
    | none => none
    | some kv => (optionTokens ts).map (kv :: ·)

/-- `PrefixMapper`, format/common/prefix.go 5-9. -/
structure PrefixMapper where
  pfx : Str
  prefixMap : List (Str × Str)
  useMap : Bool

/-- `NewPrefixMapper`, format/common/prefix.go 11-29; `none` is a panic (line 19). -/
def newPrefixMapper (p : Str) : Option PrefixMapper :=
  if containsSub p ":"ₛ then
    (optionTokens (split ',' p)).map fun kvs =>
      let m := mapOf kvs
      { pfx := p, prefixMap := m, useMap := decide (m.length > 0) }
  else some { pfx := p, prefixMap := [], useMap := false }

/-- `GetPrefix`, format/common/prefix.go 31-40. -/
def PrefixMapper.getPrefix (m : PrefixMapper) (group : Str) : Str :=
  if m.useMap then (mapGet m.prefixMap group).getD [] else m.pfx

/-- `AnnotationMapper`, format/common/annotation.go 5-9. -/
structure AnnotationMapper where
  anno : Str
  annoMap : List (Str × List Str)
  useMap : Bool

/-- `NewAnnotationMapper`, format/common/annotation.go 11-29; `none` is a panic (line 19). -/
def newAnnotationMapper (p : Str) : Option AnnotationMapper :=
  if containsSub p ":"ₛ then
    (optionTokens (split ',' p)).map fun kvs =>
      let m := mapOf (kvs.map fun kv => (kv.1, split ';' kv.2))
      { anno := p, annoMap := m, useMap := decide (m.length > 0) }
  else some { anno := p, annoMap := [], useMap := false }

/-- `GetAnnotations`, format/common/annotation.go 31-40. -/
def AnnotationMapper.getAnnotations (m : AnnotationMapper) (group : Str) : List Str :=
  if m.useMap then (mapGet m.annoMap group).getD [] else [m.anno]

/-- `filepath.Ext` (Go standard library, Unix): the suffix from the last dot of the last path
element, or nothing. -/
def fileExt (path : Str) : Str :=
  let stop := fun c : Char => c ≠ '/' && c ≠ '.'
  match path.reverse.dropWhile stop with
  | '.' :: _ => '.' :: (path.reverse.takeWhile stop).reverse
  | _ => []

/-- `GetFileFormat`, format/common/formats.go 32-54. -/
def getFileFormat (filename : Str) : Str :=
  let ext := lower (fileExt filename)
  if ext = ".graphql"ₛ then "graphql"ₛ
  else if ext = ".graphqls"ₛ then "graphql"ₛ
  else if ext = ".json"ₛ then "octopus2"ₛ
  else if ext = ".mdj"ₛ then "staruml2"ₛ
  else if ext = ".ojson"ₛ then "octopus1"ₛ
  else if ext = ".plantuml"ₛ then "plantuml"ₛ
  else if ext = ".schema"ₛ then "schema-converter"ₛ
  else if ext = ".xlsx"ₛ then "xlsx"ₛ
  else []

/-- `GetFileFormatIfNotSet`, format/common/formats.go 56-62. -/
def getFileFormatIfNotSet (fileFormat filename : Str) : Str :=
  if fileFormat ≠ [] then fileFormat else getFileFormat filename

end Octo
