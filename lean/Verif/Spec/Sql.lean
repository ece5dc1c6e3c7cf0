import Verif.Basic.Str

/-!
# A reader for SQL text

A small reader for the DDL dialect, written from the SQL side: string literals and quoted identifiers
are skipped over, a separator only counts outside of quotes and parentheses.  It does not look at line
breaks or indentation.
-/

namespace Octo.Spec

/-- Quote characters of MySQL. -/
def isQuote (c : Char) : Bool := c == '\'' || c == '"' || c == '`'

/-- White space between tokens. -/
def isBlank (c : Char) : Bool := c == ' ' || c == '\n' || c == '\t' || c == '\r'

/-- Position of the reader: plain text, inside a quote, or just after a backslash inside a quote. -/
inductive Mode
  | plain
  | quoted (q : Char)
  | escaped (q : Char)
  deriving DecidableEq

/-- Splits at the characters satisfying `sep` that are outside of quotes and parentheses.  `cur` is
the part read since the last separator. -/
def splitTop (sep : Char → Bool) : Mode → Nat → Str → Str → List Str
  | _, _, cur, [] => [cur]
  | .quoted q, d, cur, c :: r =>
    splitTop sep (if c == q then .plain else if c == '\\' && q != '`' then .escaped q else .quoted q) d (cur ++ [c]) r
  | .escaped q, d, cur, c :: r => splitTop sep (.quoted q) d (cur ++ [c]) r
  | .plain, d, cur, c :: r =>
    if d == 0 && sep c then cur :: splitTop sep .plain 0 [] r
    else splitTop sep (if isQuote c then .quoted c else .plain)
      (if c == '(' then d + 1 else if c == ')' then d - 1 else d) (cur ++ [c]) r

/-- The parts of a text between top-level separators. -/
def parts (sep : Char → Bool) (s : Str) : List Str := splitTop sep .plain 0 [] s

/-- The non-empty tokens of a text: parts between top-level blanks. -/
def tokens (s : Str) : List Str := (parts isBlank s).filter (fun t => !t.isEmpty)

/-- Removes an opening and a closing character. -/
def unwrap (o c : Char) (s : Str) : Option Str :=
  match s with
  | x :: r => if x == o && r.getLast? == some c then some r.dropLast else none
  | [] => none

/-- Reads a text that consists of a single token. -/
def oneToken {α : Type} (item : Str → Option α) (p : Str) : Option α :=
  match tokens p with
  | [t] => item t
  | _ => none

/-- A parenthesised list `(a, b, ...)`, read by `item`. -/
def parenList {α : Type} (item : Str → Option α) (s : Str) : Option (List α) := do
  let inner ← unwrap '(' ')' s
  if (tokens inner).isEmpty then some []
  else (parts (· == ',') inner).mapM (oneToken item)

/-- A list of back-quoted names in parentheses. -/
def quotedNames (s : Str) : Option (List Str) := parenList (unwrap '`' '`') s

end Octo.Spec
