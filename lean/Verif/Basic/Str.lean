import Mathlib.Data.List.Sort

/-!
# Strings and the Go library functions used by octopus-db-tool

Go strings are modelled as lists of Unicode scalar values (`Str`).  The functions below model
functions of Go's standard library (not part of /repo); each says which one and what is
simplified.
-/

namespace Octo

/-- A Go string holding valid UTF-8. -/
abbrev Str := List Char

/-- String literal as `Str`: `"abc"ₛ`. -/
postfix:max "ₛ" => String.toList

/-- `strings.ToLower`, on ASCII letters only (simplification: Go also maps non-ASCII letters). -/
def lower (s : Str) : Str := s.map Char.toLower

/-- `strings.HasPrefix`. -/
def hasPrefix : Str → Str → Bool
  | _, [] => true
  | [], _ :: _ => false
  | a :: s, b :: p => a == b && hasPrefix s p

/-- `strings.HasSuffix`. -/
def hasSuffix (s p : Str) : Bool := hasPrefix s.reverse p.reverse

/-- `strings.TrimPrefix`. -/
def trimPrefix (s p : Str) : Str := if hasPrefix s p then s.drop p.length else s

/-- `strings.Contains` (substring test). -/
def containsSub : Str → Str → Bool
  | [], p => p.isEmpty
  | a :: s, p => hasPrefix (a :: s) p || containsSub s p

/-- `strings.Split(s, sep)` for a one-character separator. -/
def split (sep : Char) : Str → List Str
  | [] => [[]]
  | c :: cs =>
    if c = sep then [] :: split sep cs
    else match split sep cs with
      | [] => [[c]]
      | h :: t => (c :: h) :: t

/-- `strings.SplitN(s, sep, 2)` for a one-character separator: `(before, none)` when there is no
separator, `(before, some after)` at the first separator otherwise. -/
def splitN2 (sep : Char) : Str → Str × Option Str
  | [] => ([], none)
  | c :: cs =>
    if c = sep then ([], some cs)
    else (c :: (splitN2 sep cs).1, (splitN2 sep cs).2)

/-- `strings.Join`. -/
def join (sep : Str) : List Str → Str
  | [] => []
  | [x] => x
  | x :: y :: r => x ++ sep ++ join sep (y :: r)

/-- `unicode.IsSpace`. -/
def isSpace (c : Char) : Bool :=
  c.toNat ∈ [0x09, 0x0A, 0x0B, 0x0C, 0x0D, 0x20, 0x85, 0xA0, 0x1680,
    0x2000, 0x2001, 0x2002, 0x2003, 0x2004, 0x2005, 0x2006, 0x2007, 0x2008, 0x2009, 0x200A,
    0x2028, 0x2029, 0x202F, 0x205F, 0x3000]

/-- `strings.TrimSpace`. -/
def trimSpace (s : Str) : Str := ((s.dropWhile isSpace).reverse.dropWhile isSpace).reverse

/-- ASCII digit test, the class `[0-9]`. -/
def isDigit (c : Char) : Bool := 48 ≤ c.toNat && c.toNat ≤ 57

/-- ASCII letter test, the class `[a-zA-Z]`. -/
def isAlpha (c : Char) : Bool :=
  (65 ≤ c.toNat && c.toNat ≤ 90) || (97 ≤ c.toNat && c.toNat ≤ 122)

/-- The character of a decimal digit. -/
def digitChar (n : Nat) : Char := Char.ofNat (48 + n % 10)

/-- Worker of `itoa`, with fuel. -/
def itoaAux : Nat → Nat → Str
  | 0, _ => []
  | f + 1, n => if n < 10 then [digitChar n] else itoaAux f (n / 10) ++ [digitChar (n % 10)]

/-- `strconv.Itoa` / `%d` on a non-negative number. -/
def itoa (n : Nat) : Str := itoaAux (n + 1) n

/-- Value of a string of decimal digits. -/
def digitsVal (s : Str) : Nat := s.foldl (fun a c => a * 10 + (c.toNat - 48)) 0

/-- Go's string order (`<=`): bytewise on UTF-8, which is code point order. -/
def strLe : Str → Str → Bool
  | [], _ => true
  | _ :: _, [] => false
  | a :: s, b :: t =>
    if a.toNat < b.toNat then true else if a.toNat = b.toNat then strLe s t else false

/-- Go's string order (`<`). -/
def strLt (a b : Str) : Bool := !strLe b a

/-- `sort.Strings`: the list in ascending order (equal strings are indistinguishable, so the
instability of Go's sort cannot be observed). -/
def sortStrings (l : List Str) : List Str := l.insertionSort (fun a b => strLe a b = true)

/-- `util.Quote`, util/string.go 34-36. -/
def quote (text mark : Str) : Str := mark ++ text ++ mark

/-- `util.QuoteAndJoin`, util/string.go 38-44. -/
def quoteAndJoin (texts : List Str) (mark sep : Str) : Str :=
  join sep (texts.map (fun t => quote t mark))

end Octo
