import Verif.Spec.Sql
import Verif.Model.Octopus

/-! Reader for `CREATE TABLE` statements, and what an exported schema is expected to say. -/

namespace Octo.Spec

/-- A value written in SQL. -/
inductive SqlValue
  | call (fn : Str)
  | string (text : Str)
  | bare (text : Str)
  deriving DecidableEq, Repr

/-- Reads a value token. -/
def readValue (s : Str) : SqlValue :=
  match unwrap '\'' '\'' s with
  | some text => .string text
  | none => if hasSuffix s "()"ₛ then .call (s.take (s.length - 2)) else .bare s

/-- A column definition as stated by DDL. -/
structure DdlColumn where
  name : Str
  type : Str
  notNull : Bool := false
  autoIncrement : Bool := false
  default : Option SqlValue := none
  onUpdate : Option SqlValue := none
  comment : Option Str := none
  deriving DecidableEq, Repr

/-- Reads the options after name and type of a column; every option may occur at most once. -/
def readOptions : List Str → DdlColumn → Option DdlColumn
  | [], c => some c
  | k :: r, c =>
    if k = "AUTO_INCREMENT"ₛ then
      if c.autoIncrement then none else readOptions r { c with autoIncrement := true }
    else match r with
      | [] => none
      | v :: r =>
        if k = "NOT"ₛ ∧ v = "NULL"ₛ then
          if c.notNull then none else readOptions r { c with notNull := true }
        else if k = "DEFAULT"ₛ then
          if c.default.isSome then none else readOptions r { c with default := some (readValue v) }
        else if k = "COMMENT"ₛ then
          if c.comment.isSome then none else match unwrap '\'' '\'' v with
            | some text => readOptions r { c with comment := some text }
            | none => none
        else if k = "ON"ₛ ∧ v = "UPDATE"ₛ then
          if c.onUpdate.isSome then none else match r with
            | w :: r => readOptions r { c with onUpdate := some (readValue w) }
            | [] => none
        else none

/-- A definition inside `CREATE TABLE`. -/
inductive DdlDef
  | column (c : DdlColumn)
  | primaryKey (columns : List Str)
  | unique (name : Str) (columns : List Str)
  | index (name : Str) (columns : List Str)
  deriving DecidableEq, Repr

/-- Reads the tokens of a definition. -/
def readDef : List Str → Option DdlDef
  | a :: b :: r =>
    if a = "PRIMARY"ₛ ∧ b = "KEY"ₛ then
      match r with
      | [cols] => (quotedNames cols).map .primaryKey
      | _ => none
    else if a = "UNIQUE"ₛ ∧ b = "KEY"ₛ then
      match r with
      | [n, cols] => do some (.unique (← unwrap '`' '`' n) (← quotedNames cols))
      | _ => none
    else if a = "INDEX"ₛ ∧ b.head? = some '`' then
      match r with
      | [cols] => do some (.index (← unwrap '`' '`' b) (← quotedNames cols))
      | _ => none
    else (readOptions r { name := a, type := b }).map .column
  | _ => none

/-- A table as stated by DDL: the definitions in order. -/
structure DdlTable where
  name : Str
  defs : List DdlDef
  deriving DecidableEq, Repr

/-- Reads one statement. -/
def readCreateTable (s : Str) : Option DdlTable :=
  match tokens s with
  | [k1, k2, k3, k4, k5, name, body] =>
    if [k1, k2, k3, k4, k5] = ["CREATE"ₛ, "TABLE"ₛ, "IF"ₛ, "NOT"ₛ, "EXISTS"ₛ] then do
      let inner ← unwrap '(' ')' body
      if (tokens inner).isEmpty then some ⟨name, []⟩
      else do
        let defs ← (parts (· == ',') inner).mapM fun p => readDef (tokens p)
        some ⟨name, defs⟩
    else none
  | _ => none

/-- The statements of a script: the parts between top-level semicolons that are not blank. -/
def statements (text : Str) : List Str := (parts (· == ';') text).filter (fun s => !(tokens s).isEmpty)

/-- Reads a whole script. -/
def readDdl (text : Str) : Option (List DdlTable) := (statements text).mapM readCreateTable

/-! ## What the DDL of a schema has to say -/

/-- The value a default or on-update entry of an octopus column stands for: `fn::x` is a call of `x`,
anything else a literal, which is a string for the character types. -/
def valueMeaning (type v : Str) : SqlValue :=
  if hasPrefix v "fn::"ₛ then .call (v.drop 4)
  else if type = "char"ₛ ∨ type = "varchar"ₛ then .string v
  else .bare v

/-- A column in DDL, with the given MySQL type. -/
def ddlColumn (mysqlType : Column → Str) (c : Column) : DdlColumn :=
  { name := c.name
    type := mysqlType c
    notNull := c.notNull
    autoIncrement := c.autoIncremental
    default := if c.defaultValue = [] then none else some (valueMeaning c.type c.defaultValue)
    onUpdate := if c.onUpdate = [] then none else some (valueMeaning c.type c.onUpdate)
    comment := if c.description = [] then none else some c.description }

/-- A table in DDL: its columns, the primary key if there is one, the unique constraint if there is
one, and the indices. -/
def ddlTable (mysqlType : Column → Str) (suffix : Str) (t : Table) : DdlTable :=
  { name := t.name
    defs := t.columns.map (fun c => .column (ddlColumn mysqlType c)) ++
      (match t.columns.filter (·.primaryKey) with
        | [] => []
        | cs => [.primaryKey (cs.map (·.name))]) ++
      (match t.columns.filter (·.uniqueKey) with
        | [] => []
        | cs => [.unique (t.name ++ suffix) (cs.map (·.name))]) ++
      t.indices.map (fun i => .index i.name i.columns) }

/-- Text of a value. -/
def valueToken : SqlValue → Str
  | .call f => f ++ ['(', ')']
  | .string s => ['\''] ++ s ++ ['\'']
  | .bare s => s

/-- The constraint tokens of a column in the order of the reference manual used here: nullability,
auto increment, default, on-update, comment. -/
def constraintTokens (c : Column) : List Str :=
  (if c.notNull then ["NOT"ₛ, "NULL"ₛ] else []) ++
  (if c.autoIncremental then ["AUTO_INCREMENT"ₛ] else []) ++
  (if c.defaultValue = [] then [] else ["DEFAULT"ₛ, valueToken (valueMeaning c.type c.defaultValue)]) ++
  (if c.onUpdate = [] then [] else ["ON"ₛ, "UPDATE"ₛ, valueToken (valueMeaning c.type c.onUpdate)]) ++
  (if c.description = [] then [] else ["COMMENT"ₛ, valueToken (.string c.description)])

/-- Types whose literals have to be written between quotes in SQL. -/
def quotedLiteralTypes : List Str :=
  ["char"ₛ, "varchar"ₛ, "text8"ₛ, "text16"ₛ, "text24"ₛ, "text32"ₛ, "enum"ₛ, "set"ₛ, "date"ₛ, "datetime"ₛ, "time"ₛ]

/-! ## MySQL types -/

/-- Reads a type: its name and the arguments in parentheses. -/
def readType (s : Str) : Option (Str × List Str) :=
  match s.dropWhile (· != '(') with
  | [] => some (s, [])
  | r => (parenList some r).map fun args => (s.takeWhile (· != '('), args)

/-- How a canonical octopus type is written in MySQL: without arguments, with size and scale, with the
member list, or as a one-bit field. -/
inductive TypeShape
  | fixed
  | sized
  | members
  | oneBit
  deriving DecidableEq

/-- The MySQL counterpart of the canonical types. -/
def mysqlTypes : List (Str × Str × TypeShape) :=
  [("binary"ₛ, "binary"ₛ, .fixed), ("bit"ₛ, "bit"ₛ, .sized), ("blob16"ₛ, "blob"ₛ, .fixed),
   ("blob24"ₛ, "mediumblob"ₛ, .fixed), ("blob32"ₛ, "longblob"ₛ, .fixed), ("blob8"ₛ, "tinyblob"ₛ, .fixed),
   ("boolean"ₛ, "bit"ₛ, .oneBit), ("char"ₛ, "char"ₛ, .sized), ("date"ₛ, "date"ₛ, .fixed),
   ("datetime"ₛ, "datetime"ₛ, .fixed), ("decimal"ₛ, "decimal"ₛ, .sized), ("double"ₛ, "double"ₛ, .sized),
   ("enum"ₛ, "enum"ₛ, .members), ("float"ₛ, "float"ₛ, .sized), ("geometry"ₛ, "geometry"ₛ, .fixed),
   ("int16"ₛ, "smallint"ₛ, .sized), ("int24"ₛ, "mediumint"ₛ, .sized), ("int32"ₛ, "int"ₛ, .sized),
   ("int64"ₛ, "bigint"ₛ, .sized), ("int8"ₛ, "tinyint"ₛ, .sized), ("json"ₛ, "json"ₛ, .fixed),
   ("point"ₛ, "point"ₛ, .fixed), ("set"ₛ, "set"ₛ, .members), ("text16"ₛ, "text"ₛ, .fixed),
   ("text24"ₛ, "mediumtext"ₛ, .fixed), ("text32"ₛ, "longtext"ₛ, .fixed), ("text8"ₛ, "tinytext"ₛ, .fixed),
   ("time"ₛ, "time"ₛ, .fixed), ("varbinary"ₛ, "varbinary"ₛ, .fixed), ("varchar"ₛ, "varchar"ₛ, .sized),
   ("year"ₛ, "year"ₛ, .fixed)]

/-- The arguments of a type for a column. -/
def typeArgs (shape : TypeShape) (c : Column) : List Str :=
  match shape with
  | .fixed => []
  | .oneBit => ["1"ₛ]
  | .members => c.values.map fun v => ['\''] ++ v ++ ['\'']
  | .sized =>
    if c.size = 0 then []
    else if c.scale = 0 then [itoa c.size.toNat]
    else [itoa c.size.toNat, itoa c.scale.toNat]

/-! ## Texts that need no escaping -/

/-- A word: usable as an unquoted name or bare literal. -/
def Word (s : Str) : Prop :=
  s ≠ [] ∧ ∀ c ∈ s, isBlank c = false ∧ isQuote c = false ∧ c ≠ '(' ∧ c ≠ ')' ∧ c ≠ ',' ∧ c ≠ ';'

/-- A text that can stand between single quotes as it is. -/
def Unescaped (s : Str) : Prop := '\'' ∉ s ∧ '\\' ∉ s

/-- A name that can stand between back-quotes as it is. -/
def UnescapedName (s : Str) : Prop := '`' ∉ s

/-- A default or on-update entry that can be written as it is. -/
def PlainValue (type v : Str) : Prop :=
  v = [] ∨ (hasPrefix v "fn::"ₛ ∧ Word (v.drop 4)) ∨
  (¬hasPrefix v "fn::"ₛ ∧ if type = "char"ₛ ∨ type = "varchar"ₛ then Unescaped v else Word v)

/-- A column whose texts need no escaping and whose type is canonical. -/
structure PlainColumn (c : Column) : Prop where
  name : Word c.name
  type : c.type ∈ colTypes
  values : ∀ v ∈ c.values, Unescaped v
  description : Unescaped c.description
  default : PlainValue c.type c.defaultValue
  onUpdate : PlainValue c.type c.onUpdate

/-- A table whose texts need no escaping. -/
structure PlainTable (t : Table) : Prop where
  name : Word t.name
  columns : ∀ c ∈ t.columns, PlainColumn c
  indices : ∀ i ∈ t.indices, UnescapedName i.name ∧ ∀ c ∈ i.columns, UnescapedName c

end Octo.Spec
