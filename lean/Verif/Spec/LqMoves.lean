import Verif.Spec.Liquibase

/-!
# Which changes the diff changelog carries over to a database

The conditions are about two versions of a table and the database product only; they do not mention the
changelog.
-/

namespace Octo.Spec

/-- The same columns make up the primary key. -/
def SameKey (t o : Table) : Prop := ∀ n, pkNames t n ↔ pkNames o n

/-- The columns are declared with the same type. -/
def SameDeclared (c b : Column) : Prop := c.type = b.type ∧ c.size = b.size ∧ c.scale = b.scale

instance (c b : Column) : Decidable (SameDeclared c b) := by unfold SameDeclared; infer_instance

/-- What a column of the old version has in the database once the type of the new version has been set. -/
def retyped (env : LqEnv) (uc : Bool) (c b : Column) : LqAttr :=
  if SameDeclared c b then lqAttrOf uc b else env.onRetype (lqAttrOf uc b)

/-- What has to hold for a column that is in both versions: `b` in the old and `c` in the new one. -/
structure LqColumnMoves (env : LqEnv) (uc keyStays : Bool) (c b : Column) : Prop where
  /-- a column of the old key does not become nullable -/
  leave : b.notNull = true → c.notNull = false → b.primaryKey = false
  /-- where the declared nullability stays, the column has it: what is left of it, with that of a new key -/
  notNull : c.notNull = b.notNull →
    ((retyped env uc c b).notNull || (c.primaryKey && !keyStays)) = (c.notNull || c.primaryKey)
  /-- auto-increment is not taken away -/
  autoIncrement : ((retyped env uc c b).autoIncrement || (c.autoIncremental && !b.autoIncremental)) = c.autoIncremental
  /-- where the default value stays, the database keeps it -/
  default : c.defaultValue = b.defaultValue → (retyped env uc c b).default = defaultMeaning c.defaultValue
  /-- where the comment stays, the database keeps it -/
  remarks : (uc = true → c.description = b.description) → (retyped env uc c b).remarks = if uc then c.description else []

/-- The column keeps its attributes when it is renamed, except possibly that it is not null. -/
structure LqRenameKeeps (env : LqEnv) (uc : Bool) (b : Column) : Prop where
  type : (env.onRename (lqAttrOf uc b)).type = lqTypeText b
  notNull : (env.onRename (lqAttrOf uc b)).notNull = true → b.notNull = true ∨ b.primaryKey = true
  autoIncrement : (env.onRename (lqAttrOf uc b)).autoIncrement = b.autoIncremental
  default : (env.onRename (lqAttrOf uc b)).default = defaultMeaning b.defaultValue
  remarks : (env.onRename (lqAttrOf uc b)).remarks = if uc then b.description else []

/-- `c` is new in `t`, `b` is gone from `o`, and they have the same shape: the diff takes such columns to be
renamed. -/
def Replaces (uc : Bool) (t o : Table) (c b : Column) : Prop :=
  c ∈ t.columns ∧ b ∈ o.columns ∧ c.name ∉ o.columns.map (·.name) ∧ b.name ∉ t.columns.map (·.name) ∧ SameShape uc c b

/-- What has to hold for a table that is in both versions: `o` in the old and `t` in the new one. -/
structure LqTableMoves (env : LqEnv) (uc : Bool) (t o : Table) : Prop where
  columns : ∀ c ∈ t.columns, ∀ b ∈ o.columns, c.name = b.name → ∀ keyStays, (keyStays = true ↔ SameKey t o) →
    LqColumnMoves env uc keyStays c b
  renames : ∀ c b, Replaces uc t o c b → LqRenameKeeps env uc b
  /-- a table does not get its first unique column -/
  firstUnique : ¬SameUnique t o → HasUnique o
  /-- when the key changes, a column of the old key is still there, or there is one that replaces it -/
  key : SameKey t o ∨ (∀ n, ¬pkNames o n) ∨
    ∃ b ∈ o.columns, b.primaryKey = true ∧ (b.name ∈ t.columns.map (·.name) ∨ ∃ c, Replaces uc t o c b)

/-- Columns of `a` that `b` does not have. -/
def columnsNotIn (a b : Table) : List Column := a.columns.filter fun c => decide (c.name ∉ b.columns.map (·.name))

/-- What has to hold for a table whose unique columns change while the database has further constraints on
them, which follow the columns: columns that stay remain unique or not, and the unique columns that go are
replaced one by one by unique columns that come. -/
structure UniqueMoves (uc : Bool) (t o : Table) : Prop where
  kept : ∀ c ∈ t.columns, ∀ b ∈ o.columns, c.name = b.name → c.uniqueKey = b.uniqueKey
  replaced : (((columnsNotIn o t).filter (·.uniqueKey)).map (shapeKey uc)).Perm
    (((columnsNotIn t o).filter (·.uniqueKey)).map (shapeKey uc))

/-- The database product keeps what a statement does not mention. -/
structure LqEnv.Keeps (env : LqEnv) : Prop where
  retype : ∀ g, env.onRetype g = g
  rename : ∀ g, env.onRename g = g ∨ env.onRename g = { g with notNull := false }

/-- The conditions for products that keep what a statement does not mention. -/
structure PlainMoves (uc : Bool) (t o : Table) : Prop where
  leaveKey : ∀ c ∈ t.columns, ∀ b ∈ o.columns, c.name = b.name → b.primaryKey = true →
    c.notNull = true ∨ (b.notNull = false ∧ c.primaryKey = true)
  autoIncrement : ∀ c ∈ t.columns, ∀ b ∈ o.columns, c.name = b.name → b.autoIncremental = true → c.autoIncremental = true
  firstUnique : ¬SameUnique t o → HasUnique o
  key : SameKey t o ∨ (∀ n, ¬pkNames o n) ∨
    ∃ b ∈ o.columns, b.primaryKey = true ∧ (b.name ∈ t.columns.map (·.name) ∨ ∃ c, Replaces uc t o c b)

end Octo.Spec
