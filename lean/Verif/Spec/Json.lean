import Verif.Model.Json

/-! A reader for JSON text, written after RFC 8259 and independently of the writer (only the type of
JSON values is shared).  It accepts documents whose numbers are natural numbers and in which no
character is given by a pair of surrogates. -/

namespace Octo.Spec

/-- Whitespace between tokens. -/
def jsonSpace (c : Char) : Bool := c == ' ' || c == '\n' || c == '\t' || c == '\r'

def skipSpace (s : Str) : Str := s.dropWhile jsonSpace

/-- Value of a hexadecimal digit. -/
def hexVal (c : Char) : Option Nat :=
  if '0' ≤ c ∧ c ≤ '9' then some (c.toNat - 48)
  else if 'a' ≤ c ∧ c ≤ 'f' then some (c.toNat - 87)
  else if 'A' ≤ c ∧ c ≤ 'F' then some (c.toNat - 55)
  else none

/-- The character after a backslash; the four digits of `\u` are read separately. -/
def simpleEscape : Char → Option Char
  | '"' => some '"'
  | '\\' => some '\\'
  | '/' => some '/'
  | 'b' => some (Char.ofNat 8)
  | 'f' => some (Char.ofNat 12)
  | 'n' => some '\n'
  | 'r' => some '\r'
  | 't' => some '\t'
  | _ => none

/-- The four digits of `\u`. -/
def hex4 (a b c d : Char) : Option Char := do
  let a ← hexVal a
  let b ← hexVal b
  let c ← hexVal c
  let d ← hexVal d
  let n := ((a * 16 + b) * 16 + c) * 16 + d
  if n.isValidChar then some (Char.ofNat n) else none

/-- The rest of a string after the opening quote, and what follows it. -/
def jsonStr : Str → Option (Str × Str)
  | [] => none
  | '"' :: r => some ([], r)
  | '\\' :: 'u' :: a :: b :: c :: d :: r => do
    let x ← hex4 a b c d
    let (s, r) ← jsonStr r
    return (x :: s, r)
  | '\\' :: e :: r => do
    let x ← simpleEscape e
    let (s, r) ← jsonStr r
    return (x :: s, r)
  | c :: r =>
    if c.toNat < 32 then none
    else do
      let (s, r) ← jsonStr r
      return (c :: s, r)

/-- A natural number, without leading zeros. -/
def jsonNum (s : Str) : Option (Json × Str) :=
  match s.takeWhile isDigit with
  | [] => none
  | '0' :: _ :: _ => none
  | ds => some (.num (digitsVal ds), s.dropWhile isDigit)

mutual
/-- A value and what follows it; the first argument bounds the depth of the recursion. -/
def jsonValue : Nat → Str → Option (Json × Str)
  | 0, _ => none
  | n + 1, s =>
    match skipSpace s with
    | 'n' :: 'u' :: 'l' :: 'l' :: r => some (.null, r)
    | 't' :: 'r' :: 'u' :: 'e' :: r => some (.bool true, r)
    | 'f' :: 'a' :: 'l' :: 's' :: 'e' :: r => some (.bool false, r)
    | '"' :: r => (jsonStr r).map fun p => (.str p.1, p.2)
    | '[' :: r =>
      match skipSpace r with
      | ']' :: r => some (.arr [], r)
      | r => (jsonElems n r).map fun p => (.arr p.1, p.2)
    | '{' :: r =>
      match skipSpace r with
      | '}' :: r => some (.obj [], r)
      | r => (jsonMembers n r).map fun p => (.obj p.1, p.2)
    | r => jsonNum r
/-- The elements of an array up to the closing bracket. -/
def jsonElems : Nat → Str → Option (List Json × Str)
  | 0, _ => none
  | n + 1, s =>
    match jsonValue n s with
    | none => none
    | some (v, r) =>
      match skipSpace r with
      | ',' :: r => (jsonElems n r).map fun p => (v :: p.1, p.2)
      | ']' :: r => some ([v], r)
      | _ => none
/-- The members of an object up to the closing brace. -/
def jsonMembers : Nat → Str → Option (List (Str × Json) × Str)
  | 0, _ => none
  | n + 1, s =>
    match skipSpace s with
    | '"' :: r =>
      match jsonStr r with
      | none => none
      | some (key, r) =>
        match skipSpace r with
        | ':' :: r =>
          match jsonValue n r with
          | none => none
          | some (v, r) =>
            match skipSpace r with
            | ',' :: r => (jsonMembers n r).map fun p => ((key, v) :: p.1, p.2)
            | '}' :: r => some ([(key, v)], r)
            | _ => none
        | _ => none
    | _ => none
end

/-- A document: one value, surrounded by whitespace. -/
def readJson (s : Str) : Option Json :=
  match jsonValue (s.length + 1) s with
  | some (v, r) => if skipSpace r = [] then some v else none
  | none => none

end Octo.Spec
