import Verif.Basic.Str

/-! The part of github.com/iancoleman/strcase that /repo uses (third party, go.mod line 9, version 0.2.0; its source is not
part of /repo). Theorems about the generators hold for every `Strcase`, unless they mention `strcase`. -/

namespace Octo

/-- The functions of the library: `ToCamel`, `ToLowerCamel` and `ToSnake`. -/
structure Strcase where
  toCamel : Str → Str
  toLowerCamel : Str → Str
  toSnake : Str → Str

namespace Strcase

def isCap (c : Char) : Bool := decide ('A' ≤ c) && decide (c ≤ 'Z')
def isLow (c : Char) : Bool := decide ('a' ≤ c) && decide (c ≤ 'z')

/-- The loop of `toCamelInitCase`: `first` at the first byte, `capNext`. Bytes of characters beyond ASCII are dropped. -/
def camelLoop : Bool → Bool → Str → Str
  | _, _, [] => []
  | first, capNext, c :: r =>
    let v := if capNext then (if isLow c then c.toUpper else c) else if first then (if isCap c then c.toLower else c) else c
    if isCap c || isLow c then v :: camelLoop false false r
    else if isDigit c then v :: camelLoop false true r
    else camelLoop false (c == '_' || c == ' ' || c == '-' || c == '.') r

/-- `toCamelInitCase` of the library; `ID` is the only acronym it knows. -/
def camelInitCase (s : Str) (initCase : Bool) : Str :=
  let s := trimSpace s
  camelLoop true initCase (if s = "ID"ₛ then "id"ₛ else s)

/-- The loop of `ToScreamingDelimited` with delimiter `_`; the second argument is the previous byte. -/
def snakeLoop : Option Char → Str → Str
  | _, [] => []
  | prev, c :: r =>
    let v := if isCap c then c.toLower else c
    let nextCap := (r.head?.map isCap).getD false
    let nextLow := (r.head?.map isLow).getD false
    let nextNum := (r.head?.map isDigit).getD false
    if (isCap c && (nextLow || nextNum)) || (isLow c && (nextCap || nextNum)) || (isDigit c && (nextCap || nextLow)) then
      (if isCap c && nextLow && (prev.map isCap).getD false then ['_'] else []) ++ [v] ++
      (if isLow c || isDigit c || nextNum then ['_'] else []) ++ snakeLoop (some c) r
    else (if v == ' ' || v == '_' || v == '-' || v == '.' then '_' else v) :: snakeLoop (some c) r

end Strcase

/-- The library itself, version 0.2.0. -/
def strcase : Strcase where
  toCamel s := Strcase.camelInitCase s true
  toLowerCamel s := Strcase.camelInitCase s false
  toSnake s := Strcase.snakeLoop none (trimSpace s)

/-- `ToLowerCamel`, util/string.go 87-91. -/
def utilToLowerCamel (sc : Strcase) (s : Str) : Str × Bool :=
  let camel := sc.toLowerCamel s
  (camel, s == sc.toSnake camel)

/-- `ToUpperCamel`, util/string.go 95-99. -/
def utilToUpperCamel (sc : Strcase) (s : Str) : Str × Bool :=
  let camel := sc.toCamel s
  (camel, s == sc.toSnake camel)

/-- `ToLowerSnake`, util/string.go 103-106. -/
def utilToLowerSnake (sc : Strcase) (s : Str) : Str × Bool :=
  let snake := sc.toSnake (lower s)
  (snake, s == snake)

/-! The results that the tests of /repo expect: format/protobuf/generator_test.go, format/gorm/generator_test.go and
util/util_test.go. -/

example : ["group_id"ₛ, "1_decimal"ₛ, "bool_1"ₛ, "bool2"ₛ, "int1_notnull"ₛ].map strcase.toLowerCamel =
    ["groupId"ₛ, "1Decimal"ₛ, "bool1"ₛ, "bool2"ₛ, "int1Notnull"ₛ] := by decide +kernel

example : (utilToUpperCamel strcase "bool_1"ₛ, utilToUpperCamel strcase "bool2"ₛ, utilToUpperCamel strcase "int1_notnull"ₛ) =
    (("Bool1"ₛ, true), ("Bool2"ₛ, false), ("Int1Notnull"ₛ, false)) := by decide +kernel

example : ["id"ₛ, "user_name"ₛ, "a1_code"ₛ, "a1"ₛ].map (fun s => (utilToLowerCamel strcase s).2) = [true, true, false, false] := by
  decide +kernel

example : ["id"ₛ, "user_name"ₛ, "a1_code"ₛ, "value_level1"ₛ].map (fun s => (utilToLowerSnake strcase s).2) =
    [true, true, false, false] := by decide +kernel

end Octo
