import Verif.Spec.Targets
import Verif.Spec.Gorm
import Verif.Spec.Graphql
import Verif.Spec.Protobuf
import Verif.Spec.Sqlalchemy

/-! What the options of the generators mean, after docs/*.md and README.md of /repo. -/

namespace Octo.Spec
open Cli

/-- A filter selects the tables of the groups. -/
def Selects (filter : Option (Table → Bool)) (groups : Str) : Prop :=
  ∀ t, (filter.map fun f => f t).getD true = true ↔ InGroups groups t

/-- The options of `generate gorm`. -/
structure GormMeans (v : Values) (o : Gorm.GormOption) : Prop where
  groups : Selects o.tableFilter (v "groups"ₛ)
  prefixes : newPrefixMapper (v "prefix"ₛ) = some o.prefixMapper
  removed : o.removePrefixes = split ',' (v "removePrefix"ₛ)
  suffix : o.uniqueNameSuffix = v "uniqueNameSuffix"ₛ
  embed : o.embed = v "embed"ₛ
  package : o.package = v "package"ₛ
  pointers : o.pointerAssociation = true ↔ v.bool "pointerAssociation"ₛ = true

/-- The options of `generate graphql`. -/
structure GraphqlMeans (v : Values) (o : Graphql.GqlOption) : Prop where
  groups : Selects o.tableFilter (v "groups"ₛ)
  prefixes : newPrefixMapper (v "prefix"ₛ) = some o.prefixMapper
  removed : o.removePrefixes = split ',' (v "removePrefix"ₛ)

/-- The options of `generate pb`; the two options for numbers are C78. -/
structure PbMeans (v : Values) (o : Protobuf.PbOption) : Prop where
  groups : Selects o.tableFilter (v "groups"ₛ)
  prefixes : newPrefixMapper (v "prefix"ₛ) = o.prefixMapper
  removed : o.removePrefixes = split ',' (v "removePrefix"ₛ)
  package : o.package = v "package"ₛ
  goPackage : o.goPackage = v "goPackage"ₛ

/-- The options of `generate sqlalchemy`. -/
structure SaMeans (v : Values) (o : Sqlalchemy.SaOption) : Prop where
  groups : Selects o.tableFilter (v "groups"ₛ)
  prefixes : newPrefixMapper (v "prefix"ₛ) = some o.prefixMapper
  removed : o.removePrefixes = split ',' (v "removePrefix"ₛ)
  suffix : o.uniqueNameSuffix = v "uniqueNameSuffix"ₛ
  utc : o.useUTC = true ↔ v.bool "useUTC"ₛ = true

/-- The options of `generate kt`. -/
structure KtMeans (v : Values) (o : Jpa.KtOption) : Prop where
  groups : Selects o.tableFilter (v "groups"ₛ)
  prefixes : newPrefixMapper (v "prefix"ₛ) = some o.prefixMapper
  annotations : newAnnotationMapper (v "annotation"ₛ) = some o.annoMapper
  removed : o.removePrefixes = split ',' (v "removePrefix"ₛ)
  suffix : o.uniqueNameSuffix = v "uniqueNameSuffix"ₛ
  package : o.package = v "package"ₛ
  repositories : o.reposPackage = v "reposPackage"ₛ
  idEntity : o.idEntity = v "idEntity"ₛ
  relation : o.relation = v "relation"ₛ

end Octo.Spec
