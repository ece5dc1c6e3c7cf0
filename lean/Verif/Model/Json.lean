import Verif.Model.Octopus

/-! Model of saving and loading schemas as JSON: format/octopus/table.go 149-178 and the struct tags of
format/octopus/column.go 17-37 and format/octopus/table.go 11-27 and 102-107.

`encoding/json` is not part of /repo.  Of it the following is modelled: struct fields are written in
order under their tag name, `omitempty` fields only when they are not empty, slices as arrays (a nil
slice without `omitempty` as null), pointers as the value or null; reading sets the fields named in
the document, ignoring case, and leaves the others empty; a value of the wrong type, or a number out of
range, is an error. -/

namespace Octo

/-- JSON values.  Only natural numbers are needed: all numbers of a schema are unsigned. -/
inductive Json
  | null
  | bool (b : Bool)
  | num (n : Nat)
  | str (s : Str)
  | arr (l : List Json)
  | obj (l : List (Str × Json))
  deriving Repr

namespace Json

/-! ### Writing -/

/-- Hexadecimal digit, as written by `encoding/json`. -/
def hexDigit (n : Nat) : Char := if n < 10 then Char.ofNat (48 + n) else Char.ofNat (87 + n)

/-- `\uXXXX`. -/
def unicodeEscape (n : Nat) : Str :=
  ['\\', 'u', hexDigit (n / 4096 % 16), hexDigit (n / 256 % 16), hexDigit (n / 16 % 16), hexDigit (n % 16)]

/-- How `encoding/json` writes a character of a string: quotes, backslashes, control characters and the
characters with a meaning in HTML or JavaScript are escaped.  (Newer versions of the library write
`\b` and `\f` in place of `\u0008` and `\u000c`.) -/
def escape (c : Char) : Str :=
  if c = '"' then ['\\', '"']
  else if c = '\\' then ['\\', '\\']
  else if c = '\n' then ['\\', 'n']
  else if c = '\r' then ['\\', 'r']
  else if c = '\t' then ['\\', 't']
  else if c.toNat < 32 ∨ c = '<' ∨ c = '>' ∨ c = '&' ∨ c.toNat = 8232 ∨ c.toNat = 8233 then unicodeEscape c.toNat
  else [c]

/-- A string in quotes. -/
def printStr (s : Str) : Str := '"' :: (s.flatMap escape ++ ['"'])

/-- New line with the indentation of `MarshalIndent(s, "", "  ")`. -/
def newline (k : Nat) : Str := '\n' :: List.replicate (2 * k) ' '

mutual
/-- `json.MarshalIndent(v, "", "  ")` for a value at depth `k`. -/
def print (k : Nat) : Json → Str
  | .null => "null"ₛ
  | .bool true => "true"ₛ
  | .bool false => "false"ₛ
  | .num n => itoa n
  | .str s => printStr s
  | .arr [] => "[]"ₛ
  | .arr (x :: xs) => '[' :: (newline (k + 1) ++ (print (k + 1) x ++ (printElems (k + 1) xs ++ (newline k ++ [']']))))
  | .obj [] => "{}"ₛ
  | .obj (x :: xs) =>
    '{' :: (newline (k + 1) ++ (printStr x.1 ++ (':' :: ' ' :: (print (k + 1) x.2 ++
      (printMembers (k + 1) xs ++ (newline k ++ ['}']))))))
/-- The elements of an array after the first. -/
def printElems (k : Nat) : List Json → Str
  | [] => []
  | x :: xs => ',' :: (newline k ++ (print k x ++ printElems k xs))
/-- The members of an object after the first. -/
def printMembers (k : Nat) : List (Str × Json) → Str
  | [] => []
  | x :: xs => ',' :: (newline k ++ (printStr x.1 ++ (':' :: ' ' :: (print k x.2 ++ printMembers k xs))))
end

/-! ### Struct tags -/

/-- A string field with `omitempty`. -/
def optStr (s : Str) : Option Json := if s = [] then none else some (.str s)

/-- A `uint16` field with `omitempty`. -/
def optNum (n : UInt16) : Option Json := if n = 0 then none else some (.num n.toNat)

/-- A boolean field with `omitempty`. -/
def optBool (b : Bool) : Option Json := if b then some (.bool true) else none

/-- A slice field with `omitempty`. -/
def optArr (l : List Json) : Option Json := if l.isEmpty then none else some (.arr l)

/-- The fields that are written. -/
def members (fields : List (String × Option Json)) : List (Str × Json) :=
  fields.filterMap fun f => f.2.map fun v => (f.1.toList, v)

/-- `Reference`, column.go 17-21. -/
def ofReference (r : Reference) : Json :=
  .obj (members [("table", optStr r.table), ("column", optStr r.column), ("relationship", optStr r.relationship)])

/-- `Column`, column.go 23-37. -/
def ofColumn (c : Column) : Json :=
  .obj (members [("name", some (.str c.name)), ("type", some (.str c.type)), ("desc", optStr c.description),
    ("size", optNum c.size), ("scale", optNum c.scale), ("notnull", optBool c.notNull), ("pk", optBool c.primaryKey),
    ("unique", optBool c.uniqueKey), ("autoinc", optBool c.autoIncremental), ("default", optStr c.defaultValue),
    ("onupdate", optStr c.onUpdate), ("values", optArr (c.values.map .str)), ("ref", c.ref.map ofReference)])

/-- `Index`, table.go 11-14; a nil slice is written as null. -/
def ofIndex (i : Index) : Json :=
  .obj (members [("name", some (.str i.name)),
    ("columns", some (if i.columns = [] then .null else .arr (i.columns.map .str)))])

/-- `Table`, table.go 20-27. -/
def ofTable (t : Table) : Json :=
  .obj (members [("name", optStr t.name), ("columns", optArr (t.columns.map ofColumn)), ("desc", optStr t.description),
    ("group", optStr t.group), ("className", optStr t.className), ("indices", optArr (t.indices.map ofIndex))])

/-- `Schema`, table.go 102-107. -/
def ofSchema (s : Schema) : Json :=
  .obj (members [("author", optStr s.author), ("name", optStr s.name), ("version", optStr s.version),
    ("tables", optArr (s.tables.map ofTable))])

/-! ### Reading -/

/-- The value of the last member with the key, ignoring case. -/
def field (l : List (Str × Json)) (key : String) : Option Json :=
  (l.reverse.find? fun p => lower p.1 == lower key.toList).map Prod.snd

/-- Reading a string; null leaves the field as it is, that is, empty. -/
def toStr : Option Json → Option Str
  | none | some .null => some []
  | some (.str s) => some s
  | _ => none

/-- Reading a `uint16`. -/
def toNum : Option Json → Option UInt16
  | none | some .null => some 0
  | some (.num n) => if n < 65536 then some (UInt16.ofNat n) else none
  | _ => none

/-- Reading a boolean. -/
def toBool : Option Json → Option Bool
  | none | some .null => some false
  | some (.bool b) => some b
  | _ => none

/-- Reading a slice. -/
def toList {α : Type} (f : Json → Option α) : Option Json → Option (List α)
  | none | some .null => some []
  | some (.arr l) => l.mapM f
  | _ => none

/-- `Reference`, column.go 17-21. -/
def toReference : Json → Option Reference
  | .obj l => do
    let table ← toStr (field l "table")
    let column ← toStr (field l "column")
    let relationship ← toStr (field l "relationship")
    return ⟨table, column, relationship⟩
  | _ => none

/-- Reading a pointer. -/
def toPtr {α : Type} (f : Json → Option α) : Option Json → Option (Option α)
  | none | some .null => some none
  | some v => (f v).map some

/-- `Column`, column.go 23-37.  Null among the elements of an array of columns, tables or indices is
treated as an error; the code stores a nil pointer and crashes when it is used. -/
def toColumn : Json → Option Column
  | .obj l => do
    let name ← toStr (field l "name")
    let type ← toStr (field l "type")
    let description ← toStr (field l "desc")
    let size ← toNum (field l "size")
    let scale ← toNum (field l "scale")
    let notNull ← toBool (field l "notnull")
    let primaryKey ← toBool (field l "pk")
    let uniqueKey ← toBool (field l "unique")
    let autoIncremental ← toBool (field l "autoinc")
    let defaultValue ← toStr (field l "default")
    let onUpdate ← toStr (field l "onupdate")
    let values ← toList (fun j => toStr (some j)) (field l "values")
    let ref ← toPtr toReference (field l "ref")
    return { name, type, description, size, scale, notNull, primaryKey, uniqueKey, autoIncremental, defaultValue,
             onUpdate, values, ref }
  | _ => none

/-- `Index`, table.go 11-14. -/
def toIndex : Json → Option Index
  | .obj l => do
    let name ← toStr (field l "name")
    let columns ← toList (fun j => toStr (some j)) (field l "columns")
    return { name, columns }
  | _ => none

/-- `Table`, table.go 20-27. -/
def toTable : Json → Option Table
  | .obj l => do
    let name ← toStr (field l "name")
    let columns ← toList toColumn (field l "columns")
    let description ← toStr (field l "desc")
    let group ← toStr (field l "group")
    let className ← toStr (field l "className")
    let indices ← toList toIndex (field l "indices")
    return { name, columns, description, group, className, indices }
  | _ => none

/-- `Schema`, table.go 102-107; a document that is just null leaves the schema empty. -/
def toSchema : Json → Option Schema
  | .null => some {}
  | .obj l => do
    let author ← toStr (field l "author")
    let name ← toStr (field l "name")
    let version ← toStr (field l "version")
    let tables ← toList toTable (field l "tables")
    return { author, name, version, tables }
  | _ => none

end Json

/-- `ToJson`, table.go 161-166. -/
def Schema.toJson (sorter : List Table → List Table) (s : Schema) : Option Str :=
  match s.normalize sorter with
  | (s', none) => some (Json.print 0 (Json.ofSchema s'))
  | (_, some _) => none

end Octo
