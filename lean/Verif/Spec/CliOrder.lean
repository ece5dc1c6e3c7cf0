import Verif.Spec.Cli

/-! When two files hold the same schema. -/

namespace Octo.Spec
open Cli

/-- Commands that read schemas. -/
def ReadsSchema (c : Cmd) : Prop := c ∉ [.init, .importMysql, .importOjson, .importStaruml, .importXlsx]

/-- Two files hold the same schema: both are JSON documents of schemas with the same author, name, version and tables, possibly in a
different order. -/
def SameTables (a b : Option Content) : Prop :=
  ∃ t t' j j' s s', a = some (.text t) ∧ b = some (.text t') ∧ readJson t = some j ∧ readJson t' = some j' ∧
    Json.toSchema j = some s ∧ Json.toSchema j' = some s' ∧
    (s.author = s'.author ∧ s.name = s'.name ∧ s.version = s'.version) ∧ s.tables.Perm s'.tables ∧ DistinctTables s

end Octo.Spec
