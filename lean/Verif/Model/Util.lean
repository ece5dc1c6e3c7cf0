import Verif.Basic.Str

/-! Model of package `util` of /repo (set.go, multimap.go, memoization.go, types.go, python.go). -/

namespace Octo

/-! ## util/set.go -/

/-- `StringSet`, util/set.go 9-11.  The Go map `map[string]bool` (all values are `true`) is the
list of its keys; the operations keep the keys distinct. -/
structure StringSet where
  keys : List Str
  deriving DecidableEq, Repr

namespace StringSet

/-- The empty set: `NewStringSet()` without items (util/set.go 13-16), `Clear` (66-68). -/
def empty : StringSet := ⟨[]⟩

/-- `Contains`, util/set.go 33-36. -/
def contains (s : StringSet) (k : Str) : Bool := decide (k ∈ s.keys)

/-- `Add`, util/set.go 23-25. -/
def add (s : StringSet) (v : Str) : StringSet := if s.contains v then s else ⟨s.keys ++ [v]⟩

/-- `AddAll`, util/set.go 27-31. -/
def addAll (s : StringSet) (vs : List Str) : StringSet := vs.foldl add s

/-- `NewStringSet(items...)`, util/set.go 13-21. -/
def ofList (items : List Str) : StringSet := empty.addAll items

/-- `ContainsAny`, util/set.go 38-45. -/
def containsAny (s : StringSet) (ks : List Str) : Bool := ks.any s.contains

/-- `ContainsAll`, util/set.go 47-54. -/
def containsAll (s : StringSet) (ks : List Str) : Bool := ks.all s.contains

/-- `Remove`, util/set.go 56-58. -/
def remove (s : StringSet) (k : Str) : StringSet := ⟨s.keys.filter (fun x => x ≠ k)⟩

/-- `RemoveAll`, util/set.go 60-64. -/
def removeAll (s : StringSet) (ks : List Str) : StringSet := ks.foldl remove s

/-- `Clear`, util/set.go 66-68. -/
def clear (_ : StringSet) : StringSet := empty

/-- `Slice` under a map iteration schedule `ord`, util/set.go 70-77: the keys are collected in
map order and then sorted. -/
def sliceOrd (ord : List Str → List Str) (s : StringSet) : List Str := sortStrings (ord s.keys)

/-- `Slice`, util/set.go 70-77, for the trivial schedule.  `C11_slice_schedule_independent` shows
that every schedule gives this result. -/
def slice (s : StringSet) : List Str := s.sliceOrd id

/-- `Join`, util/set.go 79-81. -/
def joinKeys (s : StringSet) (sep : Str) : Str := join sep s.slice

/-- `Equals`, util/set.go 83-85: `cmp.Equal` on two maps whose values are all `true`, i.e. same
number of keys and every key of one in the other. -/
def equals (s t : StringSet) : Bool := s.keys.length == t.keys.length && s.keys.all t.contains

/-- `Size`, util/set.go 87-89. -/
def size (s : StringSet) : Nat := s.keys.length

end StringSet

/-! ## util/multimap.go -/

/-- `SMultiMap`, util/multimap.go 14-16: association list from key to its value slice. -/
structure MultiMap (κ ν : Type) where
  store : List (κ × List ν)

namespace MultiMap
variable {κ ν : Type} [DecidableEq κ] [DecidableEq ν]

/-- `NewMultiMap` / `Clear`, util/multimap.go 18-24. -/
def empty : MultiMap κ ν := ⟨[]⟩

/-- `Get`, util/multimap.go 35-38 (`none` when the key is absent). -/
def get (m : MultiMap κ ν) (k : κ) : Option (List ν) := m.store.lookup k

/-- `ContainsKey`, util/multimap.go 26-29. -/
def containsKey (m : MultiMap κ ν) (k : κ) : Bool := (m.get k).isSome

/-- `Empty`, util/multimap.go 31-33. -/
def isEmpty (m : MultiMap κ ν) : Bool := m.store.isEmpty

/-- `Keys` under a map iteration schedule, util/multimap.go 40-48. -/
def keys (ord : List κ → List κ) (m : MultiMap κ ν) : List κ := ord (m.store.map Prod.fst)

/-- Map assignment `store[k] = vs`. -/
def setKey : List (κ × List ν) → κ → List ν → List (κ × List ν)
  | [], k, vs => [(k, vs)]
  | (k', vs') :: r, k, vs => if k' = k then (k, vs) :: r else (k', vs') :: setKey r k vs

/-- `Put`, util/multimap.go 50-52. -/
def put (m : MultiMap κ ν) (k : κ) (v : ν) : MultiMap κ ν :=
  ⟨setKey m.store k ((m.get k).getD [] ++ [v])⟩

/-- `RemoveKey`, util/multimap.go 54-56. -/
def removeKey (m : MultiMap κ ν) (k : κ) : MultiMap κ ν := ⟨m.store.filter (fun p => p.1 ≠ k)⟩

/-- The loop of `RemoveValue`, util/multimap.go 61-65.  `arr` is the backing array of `values`
(its length never changes), `i` the loop index, `n` the remaining iterations, `found` whether
`store[key]` has been reassigned.  `append(values[:i], values[i+1:]...)` shifts the tail of the
backing array one place down *in place*; the last cell keeps its old content, and the loop goes on
over the same array. -/
def removeLoop (v : ν) : Nat → Nat → List ν → Bool → List ν × Bool
  | 0, _, arr, found => (arr, found)
  | n + 1, i, arr, found =>
    if arr[i]? = some v then
      removeLoop v n (i + 1) (arr.take i ++ arr.drop (i + 1) ++ arr.getLast?.toList) true
    else removeLoop v n (i + 1) arr found

/-- The slice stored under the key after the loop of `RemoveValue`: one element shorter than the
array when some element matched. -/
def removeFrom (v : ν) (values : List ν) : List ν :=
  match removeLoop v values.length 0 values false with
  | (arr, true) => arr.take (values.length - 1)
  | (arr, false) => arr

/-- `RemoveValue`, util/multimap.go 58-70.  (Slices handed out earlier by `Get` share the backing
array and change too, see Model/UtilHeap.) -/
def removeValue (m : MultiMap κ ν) (k : κ) (v : ν) : MultiMap κ ν :=
  match m.get k with
  | none => m
  | some values =>
    let values' := removeFrom v values
    if values' = [] then m.removeKey k else ⟨setKey m.store k values'⟩

end MultiMap

/-! ## util/memoization.go -/

/-- State of a memoized function: the cache and the log of calls of the wrapped function. -/
structure Memo (κ : Type) where
  cache : List (κ × Str)
  calls : List κ

/-- One call of the function returned by `NewStringMemoizer`, util/memoization.go 3-14.  The
wrapped function may be impure: its result may depend on how often it was called before. -/
def memoCall {κ : Type} [DecidableEq κ] (fn : Nat → κ → Str) (m : Memo κ) (k : κ) : Str × Memo κ :=
  match m.cache.lookup k with
  | some v => (v, m)
  | none =>
    let v := fn m.calls.length k
    (v, ⟨m.cache ++ [(k, v)], m.calls ++ [k]⟩)

/-- A sequence of calls, from a fresh memoizer. -/
def memoRun {κ : Type} [DecidableEq κ] (fn : Nat → κ → Str) : Memo κ → List κ → List Str × Memo κ
  | m, [] => ([], m)
  | m, k :: ks =>
    let r := memoCall fn m k
    let rs := memoRun fn r.2 ks
    (r.1 :: rs.1, rs.2)

/-! ## util/types.go -/

/-- `IsStringType`, util/types.go 9-18. -/
def isStringType (typ : Str) : Bool :=
  ["char"ₛ, "string"ₛ].any (fun t => containsSub (lower typ) t)

/-- `IsBooleanType`, util/types.go 20-29. -/
def isBooleanType (typ : Str) : Bool := ["bool"ₛ, "boolean"ₛ].any (fun t => lower typ == t)

/-- `IsNumericType`, util/types.go 31-40. -/
def isNumericType (typ : Str) : Bool :=
  ["decimal"ₛ, "float"ₛ, "double"ₛ, "long"ₛ, "bigint"ₛ, "int"ₛ, "smallint"ₛ, "number"ₛ].any
    (fun t => lower typ == t)

/-- `IsIntType`, util/types.go 42-51. -/
def isIntType (typ : Str) : Bool :=
  ["long"ₛ, "bigint"ₛ, "int"ₛ, "smallint"ₛ].any (fun t => lower typ == t)

/-- `IsDateType`, util/types.go 53-62. -/
def isDateType (typ : Str) : Bool := ["date"ₛ, "datetime"ₛ].any (fun t => lower typ == t)

/-- The class `[\s,]` of Go's regexp syntax. -/
def isReSpaceComma (c : Char) : Bool :=
  c = '\t' || c = '\n' || c = Char.ofNat 12 || c = '\r' || c = ' ' || c = ','

/-- A match of `([a-zA-Z]+)\(([0-9]+)[\s,]*([0-9]*)\)` starting at the head of the text, as its
three groups (regular expression of util/types.go 67).  All quantifiers are greedy and no
backtracking alternative can succeed when the greedy choice fails, because each repeated class is
disjoint from what must follow it. -/
def typeMatchAt (s : Str) : Option (Str × Str × Str) :=
  let name := s.takeWhile isAlpha
  match s.dropWhile isAlpha with
  | '(' :: r =>
    let d1 := r.takeWhile isDigit
    let r3 := (r.dropWhile isDigit).dropWhile isReSpaceComma
    let d2 := r3.takeWhile isDigit
    match r3.dropWhile isDigit with
    | ')' :: _ => if name.isEmpty || d1.isEmpty then none else some (name, d1, d2)
    | _ => none
  | _ => none

/-- `regexp.FindStringSubmatch` for that expression: the leftmost match (util/regexp.go 7-14). -/
def typeMatch : Str → Option (Str × Str × Str)
  | [] => none
  | c :: s => match typeMatchAt (c :: s) with
    | some m => some m
    | none => typeMatch s

/-- `strconv.Atoi` on a string of digits with the error dropped: 0 for the empty string, saturated
at the largest int64 on overflow. -/
def atoiDigits (s : Str) : Nat := min (digitsVal s) (2 ^ 63 - 1)

/-- `ParseType`, util/types.go 64-88. -/
def parseType (str : Str) : Str × UInt16 × UInt16 :=
  match typeMatch str with
  | some (name, d1, d2) => (name, UInt16.ofNat (atoiDigits d1), UInt16.ofNat (atoiDigits d2))
  | none => (str, 0, 0)

/-! ## util/python.go -/

/-- `pythonReservedWords`, util/python.go 3-37. -/
def pythonReservedWords : List Str :=
  ["and"ₛ, "as"ₛ, "assert"ₛ, "break"ₛ, "class"ₛ, "continue"ₛ, "def"ₛ, "del"ₛ, "elif"ₛ, "else"ₛ,
   "except"ₛ, "False"ₛ, "finally"ₛ, "for"ₛ, "from"ₛ, "global"ₛ, "if"ₛ, "import"ₛ, "in"ₛ, "is"ₛ,
   "lambda"ₛ, "None"ₛ, "nonlocal"ₛ, "not"ₛ, "or"ₛ, "pass"ₛ, "raise"ₛ, "return"ₛ, "True"ₛ, "try"ₛ,
   "while"ₛ, "with"ₛ, "yield"ₛ]

/-- `IsPythonReservedWord`, util/python.go 41-50. -/
def isPythonReservedWord (s : Str) : Bool := (StringSet.ofList pythonReservedWords).contains s

end Octo
