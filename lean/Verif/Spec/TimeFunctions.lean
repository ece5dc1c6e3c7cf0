import Verif.Spec.MysqlDb

/-!
# Which functions MySQL accepts in column definitions

Written after the MySQL manual, "Automatic Initialization and Updating for TIMESTAMP and DATETIME": `DEFAULT` with a function that is not in
parentheses, and `ON UPDATE`, take the current time only (`CURRENT_TIMESTAMP` or one of its synonyms; all but `NOW` also without `()`), and
only for these two types, of which the tool writes `datetime`.
-/

namespace Octo.Spec

/-- The synonyms that can be written without `()`. -/
def bareNow : List Str := ["current_timestamp"ₛ, "localtime"ₛ, "localtimestamp"ₛ]

/-- The current time. -/
def IsNow : SqlValue → Prop
  | .call f => lower f ∈ "now"ₛ :: bareNow
  | .bare s => lower s ∈ bareNow
  | .string _ => False

/-- A function call. -/
def SqlValue.isCall : SqlValue → Bool
  | .call _ => true
  | _ => false

/-- MySQL accepts the functions of a table definition. -/
def TimesAccepted (t : DdlTable) : Prop := ∀ c ∈ t.columns,
  (∀ v, c.default = some v → v.isCall = true → readType c.type = some ("datetime"ₛ, []) ∧ IsNow v) ∧
  ∀ v, c.onUpdate = some v → readType c.type = some ("datetime"ₛ, []) ∧ IsNow v

/-- A column that is set to the current time if to a function at all, and updated to the current time if at all. -/
structure TimedColumn (c : Column) : Prop where
  default : hasPrefix c.defaultValue "fn::"ₛ = true → c.type = "datetime"ₛ ∧ lower (c.defaultValue.drop 4) ∈ "now"ₛ :: bareNow
  onUpdate : c.onUpdate ≠ [] → c.type = "datetime"ₛ ∧
    if hasPrefix c.onUpdate "fn::"ₛ then lower (c.onUpdate.drop 4) ∈ "now"ₛ :: bareNow else lower c.onUpdate ∈ bareNow

end Octo.Spec
