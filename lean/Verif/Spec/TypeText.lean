import Verif.Basic.Str

/-! Texts of types with a size, from the comments and tests of util/types.go of /repo. -/

namespace Octo.Spec

/-- What may stand between the two numbers of a type: white space and commas. -/
def isNumberGap (c : Char) : Bool := c ∈ [' ', '\t', '\n', '\r', Char.ofNat 12, ',']

/-- Somewhere in the text there is a letter followed by a number, and possibly a second one, in parentheses. -/
def SizedText (s : Str) : Prop :=
  ∃ p x d1 gap d2 q, s = p ++ x :: '(' :: (d1 ++ gap ++ d2 ++ ')' :: q) ∧ isAlpha x = true ∧ d1 ≠ [] ∧
    (∀ c ∈ d1, isDigit c = true) ∧ (∀ c ∈ gap, isNumberGap c = true) ∧ ∀ c ∈ d2, isDigit c = true

end Octo.Spec
