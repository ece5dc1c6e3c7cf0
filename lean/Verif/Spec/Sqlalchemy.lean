import Verif.Spec.Jpa
import Verif.Model.Sqlalchemy

/-! A reader of Python files with SQLAlchemy models, and what these files should say about a schema. -/

namespace Octo.Spec
open Sqlalchemy (SaOption)

/-! ### Python -/

/-- The words that are no names in Python. -/
def pyKeywords : List Str :=
  ["False"ₛ, "None"ₛ, "True"ₛ, "and"ₛ, "as"ₛ, "assert"ₛ, "async"ₛ, "await"ₛ, "break"ₛ, "class"ₛ, "continue"ₛ, "def"ₛ, "del"ₛ, "elif"ₛ,
   "else"ₛ, "except"ₛ, "finally"ₛ, "for"ₛ, "from"ₛ, "global"ₛ, "if"ₛ, "import"ₛ, "in"ₛ, "is"ₛ, "lambda"ₛ, "nonlocal"ₛ, "not"ₛ, "or"ₛ,
   "pass"ₛ, "raise"ₛ, "return"ₛ, "try"ₛ, "while"ₛ, "with"ₛ, "yield"ₛ]

/-- A name in Python. -/
def PyName (s : Str) : Prop := Ident s ∧ ¬ StartsWithDigit s ∧ s ∉ pyKeywords

instance (s : Str) : Decidable (PyName s) := inferInstanceAs (Decidable (_ ∧ _))

/-- Names with dots between them. -/
def PyDotted (s : Str) : Prop := ∀ p ∈ split '.' s, PyName p

instance (s : Str) : Decidable (PyDotted s) := inferInstanceAs (Decidable (∀ _ ∈ _, _))

/-- The constants that are words. -/
def pyConstants : List Str := ["True"ₛ, "False"ₛ, "None"ₛ]

/-- A number, a text in quotes, a constant, or names with dots. -/
def PyAtom (s : Str) : Prop := isDigits s = true ∨ (unquote '\'' s).isSome = true ∨ s ∈ pyConstants ∨ PyDotted s

instance (s : Str) : Decidable (PyAtom s) := inferInstanceAs (Decidable (_ ∨ _))

/-- An atom, or a call with positional and named arguments. -/
inductive PyNode (α : Type)
  | atom (s : Str)
  | call (fn : Str) (args : List (Option Str × α))
  deriving DecidableEq, Repr

/-- An expression whose arguments are atoms. -/
abbrev PyTerm := PyNode Str

/-- An expression whose arguments are terms. -/
abbrev PyExpr := PyNode PyTerm

/-- An argument, from its text without blanks around it. -/
def readPyArgText {α : Type} (arg : Str → Option α) (s : Str) : Option (Option Str × α) :=
  match splitN2 '=' s with
  | (k, some v) => if PyName k then (arg v).map fun v => (some k, v) else (arg s).map fun v => (none, v)
  | (_, none) => (arg s).map fun v => (none, v)

/-- An argument. -/
def readPyArg {α : Type} (arg : Str → Option α) (s : Str) : Option (Option Str × α) := oneToken (readPyArgText arg) s

/-- Positional arguments come first, and no name is used twice. -/
def PyOrder {α : Type} (as : List (Option Str × α)) : Prop :=
  (∀ a ∈ as.dropWhile fun a => a.1.isNone, a.1 ≠ none) ∧ (as.filterMap (·.1)).Nodup

instance {α : Type} (as : List (Option Str × α)) : Decidable (PyOrder as) := inferInstanceAs (Decidable (_ ∧ _))

/-- The texts of the arguments; there may be a comma after the last one. -/
def pyArgTexts (s : Str) : List Str :=
  let ps := parts (· == ',') s
  if tokens (ps.getLastD []) = [] then ps.dropLast else ps

/-- The arguments of a call. -/
def readPyArgs {α : Type} (arg : Str → Option α) (s : Str) : Option (List (Option Str × α)) :=
  ((pyArgTexts s).mapM (readPyArg arg)).bind fun as => if PyOrder as then some as else none

/-- An atom or a call. -/
def readPyNode {α : Type} (arg : Str → Option α) (s : Str) : Option (PyNode α) :=
  if PyAtom s then some (.atom s)
  else match splitN2 '(' s with
    | (_, none) => none
    | (h, some r) => if PyDotted h then (ktBefore ")"ₛ r).bind fun as => (readPyArgs arg as).map (.call h) else none

/-- An atom. -/
def readPyAtom (s : Str) : Option Str := if PyAtom s then some s else none

/-- An expression whose arguments are atoms. -/
def readPyTerm (s : Str) : Option PyTerm := readPyNode readPyAtom s

/-- An expression whose arguments are terms. -/
def readPyExpr (s : Str) : Option PyExpr := readPyNode readPyTerm s

/-- A statement of a class: an assignment, an expression, or a line of a method. -/
inductive PyMember
  | assign (name : Str) (value : PyExpr)
  | expr (value : PyExpr)
  | code (line : Str)
  deriving DecidableEq, Repr

/-- A class. -/
structure PyClass where
  name : Str
  base : Str
  members : List PyMember
  deriving DecidableEq, Repr

/-- A statement of a file: names imported from a module, an assignment, or a class. -/
inductive PyStmt
  | imports (module : Str) (names : List Str)
  | assign (name : Str) (value : PyExpr)
  | cls (k : PyClass)
  deriving DecidableEq, Repr

/-- A file. -/
abbrev PyFile := List PyStmt

/-- The names of an import. -/
def readPyNames : List Str → Option (List Str)
  | [] => none
  | [n] => if PyName n then some [n] else none
  | n :: m :: r => (ktBefore ","ₛ n).bind fun n => if PyName n then (readPyNames (m :: r)).map (n :: ·) else none

/-- The last statement is a line of a method. -/
def inMethod (k : PyClass) : Bool := match k.members.getLast? with
  | some (.code _) => true
  | _ => false

/-- A statement of a class, from its tokens. -/
def readPyStatement : List Str → Option PyMember
  | [v] => (readPyExpr v).map .expr
  | [n, e, v] => if e = "="ₛ ∧ PyName n then (readPyExpr v).map (.assign n) else none
  | _ => none

/-- A line of a class, without its indentation. -/
def readPyMember (k : PyClass) (l : Str) : Option PyMember :=
  if l.head? = some ' ' then (if inMethod k then some (.code l) else none)
  else match after "def "ₛ l with
    | some _ => some (.code l)
    | none => readPyStatement (tokens l)

/-- The end of a class, which must not be empty. -/
def closePyClass (st : Option PyClass × PyFile) : Option PyFile := match st.1 with
  | none => some st.2
  | some k => if k.members = [] then none else some (st.2 ++ [.cls k])

/-- A line outside of classes, from its tokens. -/
def readPyTop (f : PyFile) : List Str → Option PyFile
  | a :: b :: c :: r =>
    if a = "from"ₛ then
      if c = "import"ₛ ∧ PyDotted b then (readPyNames r).map fun ns => f ++ [.imports b ns] else none
    else if b = "="ₛ ∧ r = [] ∧ PyName a then (readPyExpr c).map fun e => f ++ [.assign a e]
    else none
  | _ => none

/-- The beginning of a class. -/
def readPyClassHead (s : Str) : Option PyClass :=
  (ktBefore "):"ₛ s).bind fun s => match splitN2 '(' s with
    | (n, some b) => if PyName n ∧ PyName b then some ⟨n, b, []⟩ else none
    | _ => none

/-- A line that is not empty. -/
def readPyText (st : Option PyClass × PyFile) (l : Str) : Option (Option PyClass × PyFile) :=
  match after "    "ₛ l with
  | some r => st.1.bind fun k => (readPyMember k r).map fun m => (some { k with members := k.members ++ [m] }, st.2)
  | none => (closePyClass st).bind fun f => match after "class "ₛ l with
    | some r => (readPyClassHead r).map fun k => (some k, f)
    | none => (readPyTop f (tokens l)).map fun f => (none, f)

/-- One line. -/
def readPyLine (st : Option PyClass × PyFile) (l : Str) : Option (Option PyClass × PyFile) :=
  if l = [] then some st else readPyText st l

/-- Reads a Python file. -/
def readPy (s : Str) : Option PyFile :=
  ((split '\n' s).foldlM readPyLine (none, [])).bind closePyClass

/-! ### Names -/

/-- The names that an atom refers to: the first of the names with dots. -/
def atomUses (s : Str) : List Str :=
  if isDigits s = true ∨ (unquote '\'' s).isSome = true ∨ s ∈ pyConstants then [] else (split '.' s).take 1

/-- The names that a term refers to. -/
def termUses : PyTerm → List Str
  | .atom s => atomUses s
  | .call f as => atomUses f ++ as.flatMap fun a => atomUses a.2

/-- The names that an expression refers to. -/
def exprUses : PyExpr → List Str
  | .atom s => atomUses s
  | .call f as => atomUses f ++ as.flatMap fun a => termUses a.2

/-- The names that a statement of a class refers to. Of the lines of methods, only `timezone` is considered. -/
def memberUses : PyMember → List Str
  | .assign _ e => exprUses e
  | .expr e => exprUses e
  | .code l => if containsSub l "timezone."ₛ then ["timezone"ₛ] else []

/-- Where a name comes from: a module, an assignment, a class with a base, or an attribute of the class around it. -/
inductive PyOrigin
  | module (m : Str)
  | value
  | cls (base : Str)
  | attribute
  deriving DecidableEq, Repr

/-- Names with what they stand for, the latest ones first. -/
abbrev PyScope := List (Str × PyOrigin)

/-- What a statement of a class adds. -/
def memberBinds : PyMember → PyScope
  | .assign n _ => [(n, .attribute)]
  | _ => []

/-- What a statement adds. -/
def stmtBinds : PyStmt → PyScope
  | .imports m ns => ns.map fun n => (n, .module m)
  | .assign n _ => [(n, .value)]
  | .cls k => [(k.name, .cls k.base)]

/-- The names that the statements of a class refer to, with what they stand for. -/
def memberNames (s : PyScope) : List PyMember → List (Str × Option PyOrigin)
  | [] => []
  | m :: r => (memberUses m).map (fun n => (n, s.lookup n)) ++ memberNames (memberBinds m ++ s) r

/-- The names that a statement refers to, with what they stand for. -/
def stmtNames (s : PyScope) : PyStmt → List (Str × Option PyOrigin)
  | .imports _ _ => []
  | .assign _ e => (exprUses e).map fun n => (n, s.lookup n)
  | .cls k => (k.base, s.lookup k.base) :: memberNames s k.members

/-- The names that the statements of a file refer to, with what they stand for. -/
def fileNames (s : PyScope) : PyFile → List (Str × Option PyOrigin)
  | [] => []
  | st :: r => stmtNames s st ++ fileNames (stmtBinds st ++ s) r

/-- The names that a file refers to, with what they stand for. -/
def pyNames (f : PyFile) : List (Str × Option PyOrigin) := fileNames [] f

/-- The classes of a file. -/
def pyClasses (f : PyFile) : List PyClass := f.filterMap fun st => match st with
  | .cls k => some k
  | _ => none

/-! ### What a file says -/

/-- The tables that the filter selects. -/
def SaSelected (o : SaOption) (s : Schema) : List Table :=
  s.tables.filter fun t => (o.tableFilter.map fun f => f t).getD true

/-- The name of the class of a table: its class name, or the prefix of its group and its name in camel case. -/
def saClassName (sc : Strcase) (o : SaOption) (t : Table) : Str :=
  if t.className = [] then o.prefixMapper.getPrefix t.group ++ sc.toCamel (o.removePrefixes.foldl trimPrefix t.name)
  else t.className

/-- The words of Python except the two newest ones. -/
def pyOldKeywords : List Str := pyKeywords.filter fun w => w ≠ "async"ₛ ∧ w ≠ "await"ₛ

/-- The attribute of a column: its name in snake case, with an underscore after a word of Python. -/
def saAttribute (sc : Strcase) (n : Str) : Str :=
  if sc.toSnake (lower n) ∈ pyOldKeywords then sc.toSnake (lower n) ++ "_"ₛ else sc.toSnake (lower n)

/-- Column types with their SQLAlchemy types. -/
def saTypes : List (Str × Str) :=
  [("char"ₛ, "String"ₛ), ("varchar"ₛ, "String"ₛ), ("text8"ₛ, "String"ₛ), ("text16"ₛ, "String"ₛ), ("text24"ₛ, "String"ₛ), ("text32"ₛ, "String"ₛ),
   ("boolean"ₛ, "Boolean"ₛ), ("int8"ₛ, "Integer"ₛ), ("int16"ₛ, "Integer"ₛ), ("int24"ₛ, "Integer"ₛ), ("int32"ₛ, "Integer"ₛ),
   ("int64"ₛ, "BigInteger"ₛ), ("decimal"ₛ, "Numeric"ₛ), ("float"ₛ, "Float"ₛ), ("double"ₛ, "Float"ₛ), ("datetime"ₛ, "DateTime"ₛ),
   ("date"ₛ, "Date"ₛ), ("time"ₛ, "Time"ₛ), ("blob8"ₛ, "LargeBinary"ₛ), ("blob16"ₛ, "LargeBinary"ₛ), ("blob24"ₛ, "LargeBinary"ₛ),
   ("blob32"ₛ, "LargeBinary"ₛ)]

/-- The SQLAlchemy type of a column; a bit is a truth value. -/
def saType (c : Column) : Option Str :=
  if lower c.type = "bit"ₛ ∧ c.size = 1 then some "Boolean"ₛ else saTypes.lookup (lower c.type)

/-- The columns whose times are converted to UTC. -/
def Converted (o : SaOption) (c : Column) : Prop :=
  o.useUTC = true ∧ lower c.type = "datetime"ₛ ∧ c.name ≠ "created_at"ₛ ∧ c.name ≠ "updated_at"ₛ

instance (o : SaOption) (c : Column) : Decidable (Converted o c) := inferInstanceAs (Decidable (_ ∧ _))

/-- The name of the type of a column in a file. -/
def saTypeName (o : SaOption) (c : Column) : Option Str := if Converted o c then some "TZDateTime"ₛ else saType c

/-- The function of a term. -/
def PyNode.fn {α : Type} : PyNode α → Str
  | .atom s => s
  | .call f _ => f

/-- The arguments of a term. -/
def PyNode.args {α : Type} : PyNode α → List (Option Str × α)
  | .atom _ => []
  | .call _ as => as

/-- The type of a column with its length, or its precision and scale. -/
structure IsSaType (o : SaOption) (c : Column) (t : PyTerm) : Prop where
  name : saTypeName o c = some t.fn
  length : ∀ v, (none, v) ∈ t.args ↔ v = itoa c.size.toNat ∧ 0 < c.size ∧ lower c.type ∈ ["char"ₛ, "varchar"ₛ]
  precision : ∀ v, (some "precision"ₛ, v) ∈ t.args ↔ v = itoa c.size.toNat ∧ 0 < c.size ∧ lower c.type ∈ ["float"ₛ, "double"ₛ, "decimal"ₛ]
  scale : ∀ v, (some "scale"ₛ, v) ∈ t.args ↔ v = itoa c.scale.toNat ∧ 0 < c.scale ∧ lower c.type ∈ ["float"ₛ, "double"ₛ, "decimal"ₛ]
  others : ∀ k v, (some k, v) ∈ t.args → k = "precision"ₛ ∨ k = "scale"ₛ

/-- A positional argument that is a text. -/
def explicitName : Option Str × PyTerm → Option Str
  | (none, .atom s) => unquote '\'' s
  | _ => none

/-- A positional argument that is no text. -/
def columnType : Option Str × PyTerm → Option PyTerm
  | (none, .atom s) => if (unquote '\'' s).isSome then none else some (.atom s)
  | (none, .call f as) => some (.call f as)
  | _ => none

/-- The positional arguments of a column that are texts: the explicit name. -/
def explicitNames (as : List (Option Str × PyTerm)) : List Str := as.filterMap explicitName

/-- The positional arguments of a column that are no texts: the type. -/
def columnTypes (as : List (Option Str × PyTerm)) : List PyTerm := as.filterMap columnType

/-- A named argument of a column. -/
def columnArg (as : List (Option Str × PyTerm)) (k : Str) : Option PyTerm := as.lookup (some k)

/-- `True`, or no argument. -/
def whenTrue (p : Prop) [Decidable p] : Option PyTerm := if p then some (.atom "True"ₛ) else none

/-- The function that yields the current time. -/
def saNow (o : SaOption) : PyTerm := .atom (if o.useUTC then "datetime.utcnow"ₛ else "datetime.now"ₛ)

/-- The attribute of a column. -/
structure IsSaColumn (sc : Strcase) (o : SaOption) (c : Column) (m : PyMember) (as : List (Option Str × PyTerm)) : Prop where
  assign : m = .assign (saAttribute sc c.name) (.call "Column"ₛ as)
  type : ∃ t, columnTypes as = [t] ∧ IsSaType o c t
  name : (explicitNames as).headD (saAttribute sc c.name) = c.name
  primary : columnArg as "primary_key"ₛ = whenTrue (c.primaryKey = true)
  unique : columnArg as "unique"ₛ = whenTrue (c.uniqueKey = true)
  auto : columnArg as "autoincrement"ₛ = whenTrue (c.autoIncremental = true)
  nullable : columnArg as "nullable"ₛ = if c.notNull = true ∧ c.autoIncremental = false then some (.atom "False"ₛ) else none
  default : columnArg as "default"ₛ =
    if lower c.type = "datetime"ₛ ∧ (c.name = "created_at"ₛ ∨ c.name = "updated_at"ₛ) then some (saNow o) else none
  onupdate : columnArg as "onupdate"ₛ = if lower c.type = "datetime"ₛ ∧ c.name = "updated_at"ₛ then some (saNow o) else none
  others : ∀ k v, (some k, v) ∈ as → k ∈ ["default"ₛ, "onupdate"ₛ, "primary_key"ₛ, "unique"ₛ, "autoincrement"ₛ, "nullable"ₛ]

/-- An attribute with a column. -/
def isColumn : PyMember → Bool
  | .assign _ (.call f _) => f = "Column"ₛ
  | _ => false

/-- The columns of a class. -/
def classColumns (k : PyClass) : List PyMember := k.members.filter isColumn

/-- What a class says about a table: its name, and one attribute per column, in order. -/
structure SaDescribes (sc : Strcase) (o : SaOption) (t : Table) (k : PyClass) : Prop where
  name : k.name = saClassName sc o t
  base : k.base = "Base"ₛ
  table : .assign "__tablename__"ₛ (.atom ("'"ₛ ++ t.name ++ "'"ₛ)) ∈ k.members
  tableOnce : ∀ v, .assign "__tablename__"ₛ (.atom v) ∈ k.members → v = "'"ₛ ++ t.name ++ "'"ₛ
  columns : List.Forall₂ (fun c m => ∃ as, IsSaColumn sc o c m as) t.columns (classColumns k)

/-- The text of a column is Python: its attribute is a name, and its type is known, or nothing follows the type. -/
def PyColumn (sc : Strcase) (c : Column) : Prop :=
  PyName (saAttribute sc c.name) ∧
    (saType c ≠ none ∨ c.primaryKey = false ∧ c.uniqueKey = false ∧ c.autoIncremental = false ∧ c.notNull = false)

instance (sc : Strcase) (c : Column) : Decidable (PyColumn sc c) := inferInstanceAs (Decidable (_ ∧ _))

/-- The text of a class is Python. -/
def PyTable (sc : Strcase) (o : SaOption) (t : Table) : Prop := PyName (saClassName sc o t) ∧ ∀ c ∈ t.columns, PyColumn sc c

instance (sc : Strcase) (o : SaOption) (t : Table) : Decidable (PyTable sc o t) := inferInstanceAs (Decidable (_ ∧ _))

/-- A schema and options whose texts can be written as they are. -/
structure PlainSa (sc : Strcase) (o : SaOption) (s : Schema) : Prop where
  tables : ∀ t ∈ s.tables, PlainQuoted '\'' t.name ∧ HasAlnum (o.removePrefixes.foldl trimPrefix t.name) ∧
    (t.className = [] ∨ Ident t.className)
  prefixes : ∀ g, (o.prefixMapper.getPrefix g).all isAlnum = true
  columns : ∀ t ∈ s.tables, ∀ c ∈ t.columns, PlainQuoted '\'' c.name ∧ Ident (sc.toSnake (lower c.name))
  suffix : PlainQuoted '\'' o.uniqueNameSuffix

/-- A single file is written: the path ends with `.py`. -/
def SingleFile (out : Str) : Prop := ∃ a e, out = a ++ '.' :: e ∧ lower e = "py"ₛ

/-- The names that the texts use, with where they should come from. -/
def saOrigins : List (Str × PyOrigin) :=
  [("declarative_base"ₛ, .module "sqlalchemy.ext.declarative"ₛ), ("RepresentableBase"ₛ, .module "sqlalchemy_repr"ₛ), ("Base"ₛ, .value),
   ("TZDateTime"ₛ, .cls "TypeDecorator"ₛ), ("datetime"ₛ, .module "datetime"ₛ), ("timezone"ₛ, .module "datetime"ₛ), ("Column"ₛ, .module "sqlalchemy"ₛ),
   ("UniqueConstraint"ₛ, .module "sqlalchemy"ₛ), ("TypeDecorator"ₛ, .module "sqlalchemy"ₛ)] ++
  ("Boolean"ₛ :: saTypes.map Prod.snd).map fun n => (n, .module "sqlalchemy"ₛ)

/-- No class and no attribute has a name that the texts use. -/
def NoClash (sc : Strcase) (o : SaOption) (t : Table) : Prop :=
  saClassName sc o t ∉ saOrigins.map Prod.fst ∧ ∀ c ∈ t.columns, saAttribute sc c.name ∉ saOrigins.map Prod.fst

instance (sc : Strcase) (o : SaOption) (t : Table) : Decidable (NoClash sc o t) := inferInstanceAs (Decidable (_ ∧ _))

/-- The named parameters of the constructors of SQLAlchemy types, as far as they matter here. -/
def saAccepts (type : Str) : List Str :=
  if type = "Numeric"ₛ then ["precision"ₛ, "scale"ₛ, "decimal_return_scale"ₛ, "asdecimal"ₛ]
  else if type = "Float"ₛ then ["precision"ₛ, "asdecimal"ₛ, "decimal_return_scale"ₛ]
  else []

/-- The constructor of a type accepts the named arguments of a term. -/
def AcceptedType (t : PyTerm) : Prop := ∀ k v, (some k, v) ∈ t.args → k ∈ saAccepts t.fn

/-- A column of SQLAlchemy is nullable when it says so; when it says nothing, it is nullable unless it belongs to the primary key. -/
def saNullable (as : List (Option Str × PyTerm)) : Bool := match columnArg as "nullable"ₛ with
  | some v => v = .atom "True"ₛ
  | none => columnArg as "primary_key"ₛ ≠ some (.atom "True"ₛ)

/-- A class declares a constraint of its table: constraints are read from `__table_args__`. -/
def DeclaresConstraint (k : PyClass) (constraint : Str) : Prop := ∃ v, .assign "__table_args__"ₛ v ∈ k.members ∧ constraint ∈ exprUses v

/-- The arguments of the column of an attribute. -/
def attributeArgs : PyMember → Option (Str × List (Option Str × PyTerm))
  | .assign n (.call f as) => if f = "Column"ₛ then some (n, as) else none
  | _ => none

end Octo.Spec
