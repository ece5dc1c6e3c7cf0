import Verif.Spec.MysqlDdl
import Verif.Model.MysqlImport

/-!
What the SQL parser (github.com/pingcap/parser, third party) makes of the DDL texts considered here, and
what the importer is expected to do.  The translation `fieldOf` is an assumption about that library; it
covers the type grammar used by the exporter and is confirmed by format/mysql/importer_test.go for the
types listed there.  `none` means that the parser rejects the text.
-/

namespace Octo.Spec
open MysqlImport

/-- A natural number in digits. -/
def readNat (s : Str) : Option Nat := if s ≠ [] ∧ s.all isDigit then some (digitsVal s) else none

/-- How the parser builds the tree of a type. -/
inductive FieldKind
  /-- optional length, with the length assumed when it is missing -/
  | sized (tp : Tp) (dflt : Int)
  /-- length required -/
  | required (tp : Tp)
  /-- `binary` -/
  | binary
  /-- optional length and decimals -/
  | scaled (tp : Tp)
  /-- `float`: a length above 24 makes it a double -/
  | float
  /-- no arguments -/
  | plain (tp : Tp)
  /-- one or more string literals -/
  | members (tp : Tp)
  deriving DecidableEq

/-- The types of the grammar and their trees.  `geometry` and `point` are not in the grammar. -/
def fieldKinds : List (Str × FieldKind) :=
  [("bit"ₛ, .sized .bit 1), ("tinyint"ₛ, .sized .tiny (-1)), ("smallint"ₛ, .sized .short (-1)),
   ("mediumint"ₛ, .sized .int24 (-1)), ("int"ₛ, .sized .long (-1)), ("bigint"ₛ, .sized .longlong (-1)),
   ("char"ₛ, .sized .string (-1)), ("binary"ₛ, .binary), ("varchar"ₛ, .required .varchar),
   ("varbinary"ₛ, .required .varchar), ("decimal"ₛ, .scaled .newDecimal), ("double"ₛ, .scaled .double),
   ("float"ₛ, .float), ("date"ₛ, .plain .date), ("datetime"ₛ, .plain .datetime), ("time"ₛ, .plain .duration),
   ("year"ₛ, .plain .year), ("json"ₛ, .plain .json), ("tinyblob"ₛ, .plain .tinyBlob),
   ("tinytext"ₛ, .plain .tinyBlob), ("blob"ₛ, .plain .blob), ("text"ₛ, .plain .blob),
   ("mediumblob"ₛ, .plain .mediumBlob), ("mediumtext"ₛ, .plain .mediumBlob), ("longblob"ₛ, .plain .longBlob),
   ("longtext"ₛ, .plain .longBlob), ("enum"ₛ, .members .enum), ("set"ₛ, .members .set)]

/-- A type with optional length. -/
def sizedField (tp : Tp) (dflt : Int) : List Str → Option FieldType
  | [] => some { tp := tp, flen := dflt }
  | [n] => (readNat n).map fun (n : Nat) => { tp := tp, flen := n }
  | _ => none

/-- A type with optional length and decimals. -/
def scaledField (tp : Tp) : List Str → Option FieldType
  | [] => some { tp := tp }
  | [n] => (readNat n).map fun (n : Nat) => { tp := tp, flen := n }
  | [n, m] => (readNat n).bind fun (n : Nat) => (readNat m).map fun (m : Nat) => { tp := tp, flen := n, decimal := m }
  | _ => none

/-- The tree of a type of a given kind. -/
def FieldKind.field (base : Str) (args : List Str) : FieldKind → Option FieldType
  | .sized tp dflt => sizedField tp dflt args
  | .required tp => if args = [] then none else sizedField tp (-1) args
  | .binary => (sizedField .string (-1) args).map fun f => { f with binaryFlag := true }
  | .scaled tp => scaledField tp args
  | .float => (scaledField .float args).map fun f => if f.flen > 24 then { f with tp := .double } else f
  | .plain tp => if args = [] then some { tp := tp, text := base } else none
  | .members tp =>
    if args = [] then none else (args.mapM (unwrap '\'' '\'')).map fun es => { tp := tp, elems := es }

/-- The syntax tree of a MySQL type. -/
def fieldOf (base : Str) (args : List Str) : Option FieldType :=
  (fieldKinds.lookup base).bind (FieldKind.field base args)

/-- The names of the current time; the parser turns all of them into `CURRENT_TIMESTAMP`, and accepts
no other function as default. -/
def nowNames : List Str := ["current_timestamp"ₛ, "now"ₛ, "localtime"ₛ, "localtimestamp"ₛ]

/-- The syntax tree of a default value: the current time, a literal, or a signed number (an operator
applied to a literal).  Literals `NULL`, `TRUE` and `FALSE` have the values nil, 1 and 0. -/
def exprOf : SqlValue → Option Expr
  | .call f => if lower f ∈ nowNames then some (.func "CURRENT_TIMESTAMP"ₛ) else none
  | .string s => some (.value (some s))
  | .bare s =>
    if lower s = "null"ₛ then some (.value none)
    else if lower s = "true"ₛ then some (.value (some "1"ₛ))
    else if lower s = "false"ₛ then some (.value (some "0"ₛ))
    else if s.head? = some '-' ∨ s.head? = some '+' then some .other
    else some (.value (some s))

/-- The syntax tree of an on-update value: only the current time. -/
def updateExprOf : SqlValue → Option Expr
  | .call f => if lower f ∈ nowNames then some (.func "CURRENT_TIMESTAMP"ₛ) else none
  | _ => none

/-- An optional option. -/
def optionOf {α β : Type} (f : α → Option β) : Option α → Option (List β)
  | none => some []
  | some a => (f a).map ([·])

/-- The syntax tree of a column definition. -/
def columnDefOf (c : DdlColumn) : Option ColumnDef :=
  (readType c.type).bind fun (base, args) =>
  (fieldOf base args).bind fun tp =>
  (optionOf exprOf c.default).bind fun dflt =>
  (optionOf updateExprOf c.onUpdate).bind fun upd =>
  some { name := c.name
         tp := tp
         options := (if c.notNull then [.notNull] else []) ++ (if c.autoIncrement then [.autoIncrement] else []) ++
           dflt.map .defaultValue ++ upd.map .onUpdate ++ c.comment.toList.map .comment }

/-- The column definition of a definition, if it is one. -/
def defColumn : DdlDef → Option DdlColumn
  | .column c => some c
  | _ => none

/-- The table constraint of a definition, if it is one. -/
def defConstraint : DdlDef → Option Constraint
  | .column _ => none
  | .primaryKey cols => some { tp := .primaryKey, keys := cols.map some }
  | .unique n cols => some { tp := .uniq, name := n, keys := cols.map some }
  | .index n cols => some { tp := .index, name := n, keys := cols.map some }

/-- The syntax tree of a `CREATE TABLE` statement; a table without columns and a key without columns
are rejected. -/
def stmtOf (t : DdlTable) : Option Stmt :=
  ((t.defs.filterMap defColumn).mapM columnDefOf).bind fun cols =>
  let csts := t.defs.filterMap defConstraint
  if cols = [] ∨ csts.any (·.keys.isEmpty) then none else some (.createTable t.name cols csts)

/-- Parsing a script.  Reserved words are not considered: the names are assumed not to be any. -/
def parseSql (text : Str) : Option (List Stmt) := (readDdl text).bind (·.mapM stmtOf)

/-! ## Columns that survive export and import -/

/-- Type, size and scale are such that MySQL can express them and the exporter and importer agree. -/
def PortableType (c : Column) : Prop :=
  (c.type ∈ ["blob8"ₛ, "blob16"ₛ, "blob24"ₛ, "blob32"ₛ, "text8"ₛ, "text16"ₛ, "text24"ₛ, "text32"ₛ, "date"ₛ,
      "datetime"ₛ, "time"ₛ, "year"ₛ, "json"ₛ, "boolean"ₛ, "binary"ₛ] ∧ c.size = 0 ∧ c.scale = 0 ∧ c.values = []) ∨
  (c.type ∈ ["enum"ₛ, "set"ₛ] ∧ c.size = 0 ∧ c.scale = 0 ∧ c.values ≠ []) ∨
  (c.type ∈ ["char"ₛ, "int16"ₛ, "int24"ₛ, "int32"ₛ, "int64"ₛ] ∧ c.scale = 0 ∧ c.values = []) ∨
  (c.type = "int8"ₛ ∧ c.size ≠ 1 ∧ c.scale = 0 ∧ c.values = []) ∨
  (c.type = "bit"ₛ ∧ c.size ≠ 0 ∧ c.size ≠ 1 ∧ c.scale = 0 ∧ c.values = []) ∨
  (c.type = "varchar"ₛ ∧ c.size ≠ 0 ∧ c.scale = 0 ∧ c.values = []) ∨
  (c.type ∈ ["decimal"ₛ, "double"ₛ] ∧ (c.size = 0 → c.scale = 0) ∧ c.values = []) ∨
  (c.type = "float"ₛ ∧ (c.size = 0 → c.scale = 0) ∧ c.size ≤ 24 ∧ c.values = [])

/-- A default that survives: none, the current time, a literal of a character type, or a natural
number. -/
def PortableDefault (type v : Str) : Prop :=
  v = [] ∨ v = "fn::CURRENT_TIMESTAMP"ₛ ∨ ((type = "char"ₛ ∨ type = "varchar"ₛ) ∧ ¬hasPrefix v "fn::"ₛ) ∨
  ∃ n, v = itoa n

/-- A column all of whose content is expressed by DDL. -/
structure PortableColumn (c : Column) : Prop extends PlainColumn c where
  portable : PortableType c
  defaultOk : PortableDefault c.type c.defaultValue
  onUpdateOk : c.onUpdate = [] ∨ c.onUpdate = "fn::CURRENT_TIMESTAMP"ₛ
  autoNotNull : c.autoIncremental = true → c.notNull = true
  noRef : c.ref = none

/-- A table all of whose content is expressed by DDL. -/
structure PortableTable (t : Table) : Prop extends PlainTable t where
  portable : ∀ c ∈ t.columns, PortableColumn c
  hasColumns : t.columns ≠ []
  indexed : ∀ i ∈ t.indices, i.columns ≠ []
  distinct : (t.columns.map (·.name)).Nodup
  noDescription : t.description = []
  noGroup : t.group = []
  noClassName : t.className = []

/-! ## Meaning of column options and constraints -/

/-- The last answer of a list of optional answers, or a default. -/
def lastSaid {α : Type} (dflt : α) (l : List (Option α)) : α := (l.filterMap id).getLast?.getD dflt

/-- What an option says about nullability. -/
def nullability : ColOption → Option Bool
  | .primaryKey => some true
  | .notNull => some true
  | .autoIncrement => some true
  | .null => some false
  | _ => none

/-- The text by which octopus represents a value: nil is the empty text, a function is marked `fn::`. -/
def exprText : Expr → Option Str
  | .value v => some (v.getD [])
  | .func f => some ("fn::"ₛ ++ f)
  | .other => none

/-- What an option says about the default. -/
def defaultSaid : ColOption → Option Str
  | .defaultValue e => exprText e
  | _ => none

/-- What an option says about the on-update value. -/
def onUpdateSaid : ColOption → Option Str
  | .onUpdate e => exprText e
  | _ => none

/-- What an option says about the comment. -/
def commentSaid : ColOption → Option Str
  | .comment s => some s
  | _ => none

/-- A column is named by a table constraint of the given kind. -/
def KeyedBy (tp : ConstraintType) (constraints : List Constraint) (name : Str) : Prop :=
  ∃ cst ∈ constraints, cst.tp = tp ∧ some name ∈ cst.keys

/-- The importer looks at the columns of these constraints. -/
def Examined (cst : Constraint) : Prop := cst.tp = .primaryKey ∨ cst.tp = .index ∨ cst.tp = .uniq

/-- A created table: name, columns, constraints. -/
abbrev Created := Str × List ColumnDef × List Constraint

/-- The tables created by a script, except the excluded ones. -/
def statedTables (excludes : List Str) (stmts : List Stmt) : List Created :=
  stmts.filterMap fun
    | .createTable name cols csts => if name ∈ excludes then none else some (name, cols, csts)
    | .other => none

end Octo.Spec
