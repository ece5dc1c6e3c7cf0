import Verif.Basic.Str

/-! Plain identifiers. -/

namespace Octo.Spec

/-- A character of an identifier. -/
def isIdent (c : Char) : Bool := isAlpha c || isDigit c || c == '_'

/-- A non-empty text of letters, digits and underscores. -/
def Ident (s : Str) : Prop := s ≠ [] ∧ s.all isIdent = true

instance (s : Str) : Decidable (Ident s) := inferInstanceAs (Decidable (_ ∧ _))

/-- A non-empty text of digits. -/
def isDigits (s : Str) : Bool := !s.isEmpty && s.all isDigit

/-- Digits, and optionally a point and digits. -/
def isUnsigned (s : Str) : Bool :=
  match splitN2 '.' s with
  | (a, none) => isDigits a
  | (a, some b) => isDigits a && isDigits b

/-- A decimal number with an optional sign. -/
def isNumber : Str → Bool
  | '-' :: r => isUnsigned r
  | r => isUnsigned r

end Octo.Spec
