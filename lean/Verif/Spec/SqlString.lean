import Verif.Model.Octopus

/-! Reader for MySQL string literals, after the section "String Literals" of the MySQL manual (default SQL mode). -/

namespace Octo.Spec

/-- What a backslash sequence stands for; `\%` and `\_` keep the backslash. -/
def sqlEscape (c : Char) : Str :=
  if c = '0' then [Char.ofNat 0] else if c = 'b' then [Char.ofNat 8] else if c = 'n' then ['\n'] else if c = 'r' then ['\r']
  else if c = 't' then ['\t'] else if c = 'Z' then [Char.ofNat 26] else if c = '%' ∨ c = '_' then ['\\', c] else [c]

/-- Reads a literal from behind its opening quote: its value, and the text behind its closing quote. -/
def sqlString : Str → Option (Str × Str)
  | [] => none
  | ['\''] => some ([], [])
  | '\'' :: c :: r => if c = '\'' then (sqlString r).map fun (v, rest) => ('\'' :: v, rest) else some ([], c :: r)
  | ['\\'] => none
  | '\\' :: c :: r => (sqlString r).map fun (v, rest) => (sqlEscape c ++ v, rest)
  | c :: r => (sqlString r).map fun (v, rest) => (c :: v, rest)

/-- A text that stands for itself between quotes: it has no quote, and every backslash is followed by a wildcard. -/
def SelfLiteral : Str → Prop
  | [] => True
  | '\'' :: _ => False
  | ['\\'] => False
  | '\\' :: c :: r => (c = '%' ∨ c = '_') ∧ SelfLiteral r
  | _ :: r => SelfLiteral r

/-- The free texts of a column that are written as string literals: its members, its default value and on-update value if they are no
functions, and its description. -/
def writtenTexts (c : Column) : List Str :=
  (if c.type = "enum"ₛ ∨ c.type = "set"ₛ then c.values else []) ++
  (if (c.type = "char"ₛ ∨ c.type = "varchar"ₛ) then
    ([c.defaultValue, c.onUpdate].filter fun v => decide (v ≠ []) && !hasPrefix v "fn::"ₛ) else []) ++
  (if c.description = [] then [] else [c.description])

end Octo.Spec
