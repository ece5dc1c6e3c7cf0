import Verif.Model.Liquibase
import Verif.Spec.DiffMeaning

/-!
# What a Liquibase changelog does to a database

An account of the changes that occur in the changelogs, written after Liquibase's documentation and
independently of the code under verification (only the data types of the model are used).
-/

namespace Octo.Spec
open Octo.Lq

/-- A default value: a value, given by its text, or what a function returns. -/
inductive LqValue
  | literal (text : Str)
  | call (text : Str)
deriving DecidableEq

/-- Column attributes of a database. -/
structure LqAttr where
  type : Str
  notNull : Bool
  autoIncrement : Bool
  default : Option LqValue
  remarks : Str
deriving DecidableEq

/-- What depends on the database product. -/
structure LqEnv where
  /-- whether the product is listed in the preconditions of the changelog -/
  listed : Bool
  /-- name the database gives to an inline unique constraint of a table and column -/
  sysName : Str → Str → Str
  /-- what remains of the attributes of a column when it is renamed -/
  onRename : LqAttr → LqAttr
  /-- what remains of the attributes of a column when its type is changed -/
  onRetype : LqAttr → LqAttr

/-- Names the database gives to constraints. -/
def LqEnv.system (env : LqEnv) : Str → Prop := fun k => ∃ a b, k = env.sysName a b

/-- Documented type names: octopus type and Liquibase type. -/
def lqTypeTable : List (Str × Str) :=
  [("char"ₛ, "char"ₛ), ("varchar"ₛ, "varchar"ₛ), ("text8"ₛ, "clob"ₛ), ("text16"ₛ, "clob"ₛ), ("text24"ₛ, "clob"ₛ),
   ("text32"ₛ, "clob"ₛ), ("boolean"ₛ, "boolean"ₛ), ("int8"ₛ, "tinyint"ₛ), ("int16"ₛ, "smallint"ₛ),
   ("int24"ₛ, "mediumint"ₛ), ("int32"ₛ, "int"ₛ), ("int64"ₛ, "bigint"ₛ), ("decimal"ₛ, "decimal"ₛ), ("float"ₛ, "float"ₛ),
   ("double"ₛ, "double"ₛ), ("datetime"ₛ, "datetime"ₛ), ("date"ₛ, "date"ₛ), ("time"ₛ, "time"ₛ), ("blob8"ₛ, "blob"ₛ),
   ("blob16"ₛ, "blob"ₛ), ("blob24"ₛ, "blob"ₛ), ("blob32"ₛ, "blob"ₛ)]

/-- The type of a column: base name with size and scale; unknown types are kept. -/
def lqTypeText (c : Column) : Str :=
  (lqTypeTable.lookup (lower c.type)).getD c.type ++
    if c.size = 0 then []
    else "("ₛ ++ itoa c.size.toNat ++ (if c.scale = 0 then [] else ","ₛ ++ itoa c.scale.toNat) ++ ")"ₛ

/-- Decimal text of an integer. -/
def intText (n : Int) : Str := if n < 0 then '-' :: itoa n.natAbs else itoa n.natAbs

/-- The default value a change gives, as text. -/
def defaultText (d : DefaultValue) : Str :=
  match d.numeric, d.boolean with
  | some (.int n), _ => intText n
  | some (.float x), _ => x
  | none, some true => "true"ₛ
  | none, some false => "false"ₛ
  | none, none => if d.date = [] then d.text else d.date

/-- The default value a change gives: never a function, which would be given by other attributes. -/
def givenDefault (d : DefaultValue) : Option LqValue := if d = {} then none else some (.literal (defaultText d))

/-- What the default value of a column means: the marker `fn::` announces a function. -/
def defaultMeaning (v : Str) : Option LqValue :=
  if v = [] then none
  else if hasPrefix v "fn::"ₛ then some (.call (v.drop 4))
  else some (.literal v)

/-- The columns listed in a `columnNames` attribute: comma separated, surrounding spaces ignored. -/
def listed (names : Str) : List Str := (split ',' names).map trimSpace

def inlinePk (lc : LqColumn) : Bool := decide (lc.constraints.bind (·.primaryKey) = some true)
def inlineUnique (lc : LqColumn) : Bool := decide (lc.constraints.bind (·.unique) = some true)
def inlineNotNull (lc : LqColumn) : Bool := decide (lc.constraints.bind (·.nullable) = some false)

/-- Attributes of a column created from a `column` element; a key column is never null. -/
def lqColumnAttr (lc : LqColumn) : LqAttr :=
  ⟨lc.type, inlineNotNull lc || inlinePk lc, decide (lc.autoIncrement = some true), givenDefault lc.default, lc.remarks⟩

/-- The table a change inside a table is about. -/
def lqTable : LqChange → Str
  | .createTable n _ _ | .dropTable n | .renameTable n _ | .setTableRemarks n _ | .addColumn n _ | .dropColumn n _
  | .setColumnRemarks n _ _ | .modifyDataType n _ _ | .renameColumn n _ _ _ | .addNotNullConstraint n _ _ _
  | .dropNotNullConstraint n _ _ | .addAutoIncrement n _ _ | .addDefaultValue n _ _ _ | .dropDefaultValue n _ _
  | .addPrimaryKey n _ | .dropPrimaryKey n | .addUniqueConstraint n _ _ | .dropUniqueConstraint n _ => n

/-- What a change does to its (existing) table.  Adding a primary key makes its columns not null, for
good; the not-null constraint of a key column cannot be dropped. -/
def lqTableOps (env : LqEnv) : LqChange → List (TOp LqAttr)
  | .createTable n _ cols =>
    cols.map (fun lc => .addColumn lc.name (lqColumnAttr lc)) ++
    ((if cols.any inlinePk then [.addPrimaryKey fun m => ∃ lc ∈ cols, inlinePk lc = true ∧ lc.name = m] else []) ++
    (cols.filter inlineUnique).map fun lc => .createUnique (env.sysName n lc.name) fun m => m = lc.name)
  | .dropTable _ | .renameTable _ _ => []
  | .setTableRemarks _ _ => [.remark]
  | .addColumn n cols =>
    cols.map (fun lc => .addColumn lc.name (lqColumnAttr lc)) ++
    ((if cols.any inlinePk then [.addPrimaryKey fun m => ∃ lc ∈ cols, inlinePk lc = true ∧ lc.name = m] else []) ++
    (cols.filter inlineUnique).map fun lc => .createUnique (env.sysName n lc.name) fun m => m = lc.name)
  | .dropColumn _ c => [.dropColumn c]
  | .setColumnRemarks _ c r => [.modify c fun g => { g with remarks := r }]
  | .modifyDataType _ c ty => [.modify c fun g => { env.onRetype g with type := ty }]
  | .renameColumn _ new old _ => [.renameColumn old new, .modify new env.onRename]
  | .addNotNullConstraint _ c _ _ => [.modify c fun g => { g with notNull := true }]
  | .dropNotNullConstraint _ c _ => [.outsideKey c, .modify c fun g => { g with notNull := false }]
  | .addAutoIncrement _ c _ => [.modify c fun g => { g with autoIncrement := true }]
  | .addDefaultValue _ c _ v => [.modify c fun g => { g with default := givenDefault v }]
  | .dropDefaultValue _ c _ => [.modify c fun g => { g with default := none }]
  | .addPrimaryKey _ names =>
    .addPrimaryKey (fun n => n ∈ listed names) ::
      (listed names).map fun n => .modify n fun g => { g with notNull := true }
  | .dropPrimaryKey _ => [.dropPrimaryKey]
  | .addUniqueConstraint _ names k => [.createUnique k fun n => n ∈ listed names]
  | .dropUniqueConstraint _ k => [.dropUnique k]

/-- A table without columns. -/
def emptyTable {γ : Type} : DbTable γ := ⟨fun _ => none, fun _ => False, fun _ => none⟩

/-- What a change does to the database. -/
def lqOps (env : LqEnv) (c : LqChange) : List (DbOp LqAttr) :=
  (match c with
    | .createTable n _ _ => [.createTable n emptyTable]
    | .dropTable n => [.dropTable n]
    | .renameTable new old => [.renameTable old new]
    | _ => []) ++ (lqTableOps env c).map (.alter (lqTable c))

/-- What a changelog does: a change set with preconditions is skipped by products not listed there. -/
def changelogOps (env : LqEnv) (sets : List LqChangeSet) : List (DbOp LqAttr) :=
  sets.flatMap fun s => if s.preConditions && !env.listed then [] else s.changes.flatMap (lqOps env)

/-! ### The database of a schema -/

/-- Attributes a column should have.  Comments count only when they are asked for. -/
def lqAttrOf (uc : Bool) (c : Column) : LqAttr :=
  ⟨lqTypeText c, c.notNull || c.primaryKey, c.autoIncremental, defaultMeaning c.defaultValue, if uc then c.description else []⟩

/-- `T` is a faithful representation of the table: its columns, its primary key, and the uniqueness of
the tuple of its unique columns, in a constraint named after the table when `named`; there may be
further constraints of the same content with names in `sys`. -/
structure HoldsTable (sys : Str → Prop) (uc named : Bool) (suffix : Str) (t : Table) (T : DbTable LqAttr) : Prop where
  cols : ∀ n, T.cols n = (columnNamed t n).map (lqAttrOf uc)
  pk : ∀ n, T.pk n ↔ pkNames t n
  enforced : HasUnique t → ∃ k, T.uniques k = some (uqNames t)
  named : named = true → HasUnique t → T.uniques (t.name ++ suffix) = some (uqNames t)
  only : ∀ k s, T.uniques k = some s → HasUnique t ∧ s = uqNames t ∧ (k = t.name ++ suffix ∨ sys k)

/-- The database has exactly the tables `ts`. -/
def HoldsDb (sys : Str → Prop) (uc named : Bool) (suffix : Str) (ts : List Table) (d : Db LqAttr) : Prop :=
  (∀ t ∈ ts, ∃ T, d t.name = some T ∧ HoldsTable sys uc named suffix t T) ∧ ∀ n, n ∉ ts.map (·.name) → d n = none

/-! ### Conditions on schemas -/

/-- The column name survives being listed in a `columnNames` attribute. -/
def CleanName (n : Str) : Prop := ',' ∉ n ∧ trimSpace n = n

/-- The default value has a form the type of the column is written with: no function call; true or false
for booleans; the canonical text of a 64 bit integer for the integer types that are recognised; a
text `pf` (parsing and printing floats) leaves alone for the others. -/
def PlainDefault (pf : Str → Option Str) (c : Column) : Prop :=
  c.defaultValue ≠ [] →
    hasPrefix c.defaultValue "fn::"ₛ = false ∧
    (lower c.type ∈ ["bool"ₛ, "boolean"ₛ] → c.defaultValue ∈ ["true"ₛ, "false"ₛ]) ∧
    (lower c.type ∈ ["long"ₛ, "bigint"ₛ, "int"ₛ, "smallint"ₛ] →
      ∃ n : Int, -2 ^ 63 ≤ n ∧ n < 2 ^ 63 ∧ c.defaultValue = intText n) ∧
    (lower c.type ∈ ["decimal"ₛ, "float"ₛ, "double"ₛ, "number"ₛ] → pf c.defaultValue = some c.defaultValue)

def CleanTable (pf : Str → Option Str) (t : Table) : Prop :=
  (t.columns.map (·.name)).Nodup ∧ ∀ c ∈ t.columns, CleanName c.name ∧ PlainDefault pf c

/-- What a table needs so that the changelog builds it: different column names; default values that are
written as they are; names that survive being listed wherever columns are listed, that is for composite
keys, for several unique columns, and for a single one on the products of the preconditions, where a
second constraint is made, whose name must be free. -/
structure Buildable (env : LqEnv) (pf : Str → Option Str) (suffix : Str) (t : Table) : Prop where
  columns : (t.columns.map (·.name)).Nodup
  defaults : ∀ c ∈ t.columns, PlainDefault pf c
  key : (∃ a b, a ≠ b ∧ pkNames t a ∧ pkNames t b) → ∀ n, pkNames t n → CleanName n
  unique : (env.listed = true ∨ ∃ a b, a ≠ b ∧ uqNames t a ∧ uqNames t b) → ∀ n, uqNames t n → CleanName n
  free : env.listed = true → ∀ n, (∀ m, uqNames t m ↔ m = n) → env.sysName t.name n ≠ t.name ++ suffix

/-- Corner cases of a change from the table `o` to the table `t` that the diff does not handle are
absent. -/
structure SmoothChange (env : LqEnv) (uc : Bool) (t o : Table) : Prop where
  /-- key columns are declared not null -/
  keyNew : ∀ c ∈ t.columns, c.primaryKey = true → c.notNull = true
  keyOld : ∀ b ∈ o.columns, b.primaryKey = true → b.notNull = true
  /-- a column does not leave the key and become nullable at once -/
  leaveKey : ∀ c ∈ t.columns, ∀ b ∈ o.columns, c.name = b.name → b.primaryKey = true → c.notNull = true
  /-- auto-increment is not taken away -/
  autoIncrement : ∀ c ∈ t.columns, ∀ b ∈ o.columns, c.name = b.name → b.autoIncremental = true → c.autoIncremental = true
  /-- a table does not get its first unique column -/
  firstUnique : ¬SameUnique t o → HasUnique o
  /-- when the key changes, a column of the old key is still there, possibly under another name -/
  keySurvives : (∀ n, pkNames t n ↔ pkNames o n) ∨ (∀ n, ¬pkNames o n) ∨
    ∃ b ∈ o.columns, b.primaryKey = true ∧ (b.name ∈ t.columns.map (·.name) ∨
      ((o.columns.filter (fun c => decide (c.name ∉ t.columns.map (·.name)))).map (shapeKey uc)).count (shapeKey uc b) ≤
      ((t.columns.filter (fun c => decide (c.name ∉ o.columns.map (·.name)))).map (shapeKey uc)).count (shapeKey uc b))
  /-- renaming a column keeps its attributes, except possibly that it is not null -/
  rename : ∀ b ∈ o.columns, b.name ∉ t.columns.map (·.name) →
    env.onRename (lqAttrOf uc b) = lqAttrOf uc b ∨ env.onRename (lqAttrOf uc b) = { lqAttrOf uc b with notNull := false }

/-! ### The shape of changelogs -/

/-- All changes of a changelog, in order. -/
def changesIn (sets : List LqChangeSet) : List LqChange := sets.flatMap (·.changes)

/-- The text lists every name with the property, and no other, once. -/
def Lists (p : Str → Prop) (names : Str) : Prop :=
  ∃ ns : List Str, ns.Nodup ∧ (∀ n, n ∈ ns ↔ p n) ∧ names = join ", "ₛ ns

/-- A `column` element declares a column. -/
structure DeclaresColumn (uc : Bool) (c : Column) (lc : LqColumn) : Prop where
  name : lc.name = c.name
  type : lc.type = lqTypeText c
  autoIncrement : lc.autoIncrement = some true ↔ c.autoIncremental = true
  /-- a key column declared inline is not declared not null in addition -/
  notNull : (inlineNotNull lc || inlinePk lc) = (c.notNull || inlinePk lc)
  remarks : lc.remarks = if uc then c.description else []

/-- The changes `g` declare the table. -/
def DeclaresTable (uc : Bool) (suffix : Str) (t : Table) (g : List LqChange) : Prop :=
  ∃ lcs pk uq, g = .createTable t.name t.description lcs :: (pk ++ uq) ∧
    List.Forall₂ (DeclaresColumn uc) t.columns lcs ∧
    -- the primary key inline, or separately
    ((pk = [] ∧ List.Forall₂ (fun c lc => inlinePk lc = c.primaryKey) t.columns lcs) ∨
     ((∀ lc ∈ lcs, inlinePk lc = false) ∧ ∃ names, pk = [.addPrimaryKey t.name names] ∧ Lists (pkNames t) names)) ∧
    -- the unique constraint
    ((¬HasUnique t ∧ uq = [] ∧ ∀ lc ∈ lcs, inlineUnique lc = false) ∨
     (HasUnique t ∧ (∃ names, uq = [.addUniqueConstraint t.name names (t.name ++ suffix)] ∧ Lists (uqNames t) names) ∧
      ∀ lc ∈ lcs, inlineUnique lc = true → ∀ n, uqNames t n ↔ n = lc.name))

/-! ### Column order -/

/-- Adding a column to an ordered list of columns: after the given one, otherwise at the end. -/
def placeAfter (order : List Str) (name after : Str) : List Str :=
  if after ∈ order then
    order.takeWhile (fun n => n != after) ++ after :: name :: (order.dropWhile (fun n => n != after)).drop 1
  else order ++ [name]

/-- The name in front of the first occurrence of a name. -/
def before (n : Str) : List Str → Option Str
  | a :: b :: l => if b = n then some a else before n (b :: l)
  | _ => none

/-! ### Kinds of default values -/

/-- Types whose default value should be given as a number. -/
def numericTypes : List Str :=
  ["int8"ₛ, "int16"ₛ, "int24"ₛ, "int32"ₛ, "int64"ₛ, "decimal"ₛ, "float"ₛ, "double"ₛ]

inductive DefaultKind
  | text | boolean | numeric | date
  deriving DecidableEq

/-- The fields that are set. -/
def kindsOf (d : DefaultValue) : List DefaultKind :=
  (if d.text = [] then [] else [.text]) ++ (if d.boolean.isSome then [.boolean] else []) ++
  (if d.numeric.isSome then [.numeric] else []) ++ (if d.date = [] then [] else [.date])

/-- The default value of a column in the right field: none when there is none, a boolean for boolean
columns, a number for the types in `numeric`, a date for dates, and otherwise its text. -/
def DefaultGiven (pf : Str → Option Str) (numeric : List Str) (c : Column) (d : DefaultValue) : Prop :=
  (c.defaultValue = [] → d = {}) ∧
  (c.defaultValue ≠ [] →
    (lower c.type = "boolean"ₛ → d = { boolean := some (decide (c.defaultValue = "true"ₛ)) }) ∧
    (lower c.type ∈ numeric → ∃ x, pf c.defaultValue = some x ∧ d = { numeric := some (.float x) }) ∧
    (lower c.type = "date"ₛ ∨ lower c.type = "datetime"ₛ → d = { date := c.defaultValue }) ∧
    (lower c.type ∉ ["bool"ₛ, "boolean"ₛ, "date"ₛ, "datetime"ₛ, "long"ₛ, "bigint"ₛ, "int"ₛ, "smallint"ₛ, "number"ₛ] ++
        ["decimal"ₛ, "float"ₛ, "double"ₛ] ++ numeric → d = { text := c.defaultValue }))

end Octo.Spec
