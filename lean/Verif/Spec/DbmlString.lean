import Verif.Spec.Dbml

/-! Reader for DBML strings. -/

namespace Octo.Spec

/-- Reads a string from behind its opening quote `q`: its value, and the text behind its closing quote.  A backslash escapes the next
character; a string ends on its line. -/
def dbmlString (q : Char) : Str → Option (Str × Str)
  | [] => none
  | c :: r =>
    if c = q then some ([], r)
    else if c = '\n' then none
    else if c = '\\' then match r with
      | [] => none
      | d :: r => (dbmlString q r).map fun (v, rest) => (d :: v, rest)
    else (dbmlString q r).map fun (v, rest) => (c :: v, rest)

end Octo.Spec
