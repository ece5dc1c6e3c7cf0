import Verif.Model.Diff

/-! Vocabulary for the properties of a diff result (only the data types of the model are used). -/

namespace Octo.Spec

/-- All changes of a diff result, in order. -/
def changesOf (r : List ChangeSet) : List Change := r.flatMap (fun s => s.changes)

/-- The tables that are dropped. -/
def droppedTables (cs : List Change) : List Table :=
  cs.filterMap fun | .dropTable t => some t | _ => none

/-- The tables that are created. -/
def createdTables (cs : List Change) : List Table :=
  cs.filterMap fun | .createTable t => some t | _ => none

/-- The renames of tables, as (old, new). -/
def tableRenamings (cs : List Change) : List (Table × Table) :=
  cs.filterMap fun | .renameTable o n => some (o, n) | _ => none

/-- A change inside a table that exists before and after: everything except creating, dropping and
renaming a whole table. -/
def insideTable : Change → Bool
  | .createTable _ | .dropTable _ | .renameTable _ _ => false
  | _ => true

/-- Names of tables / columns are distinct. -/
def DistinctNames (s : Schema) : Prop :=
  (s.tables.map (·.name)).Nodup ∧ ∀ t ∈ s.tables, (t.columns.map (·.name)).Nodup

/-- Two columns agree in everything a rename is allowed to keep. -/
structure SameShape (useComments : Bool) (a b : Column) : Prop where
  type : a.type = b.type
  size : a.size = b.size
  scale : a.scale = b.scale
  notNull : a.notNull = b.notNull
  primaryKey : a.primaryKey = b.primaryKey
  uniqueKey : a.uniqueKey = b.uniqueKey
  autoIncremental : a.autoIncremental = b.autoIncremental
  defaultValue : a.defaultValue = b.defaultValue
  onUpdate : a.onUpdate = b.onUpdate
  description : useComments = true → a.description = b.description

/-- The set of names of unique columns is the same in both tables. -/
def SameUnique (t o : Table) : Prop :=
  ∀ n, (∃ c ∈ t.columns, c.uniqueKey = true ∧ c.name = n) ↔ ∃ c ∈ o.columns, c.uniqueKey = true ∧ c.name = n

def HasUnique (t : Table) : Prop := ∃ c ∈ t.columns, c.uniqueKey = true

/-- Changes that add, drop or rename a column. -/
def reshapes : Change → Bool
  | .addColumn _ _ | .dropColumn _ _ | .renameColumn _ _ _ => true
  | _ => false

/-- The names of the dropped columns. -/
def droppedColumns (cs : List Change) : List Str :=
  cs.filterMap fun | .dropColumn _ n => some n | _ => none

/-- The column renames, as (old, new). -/
def columnRenamings (cs : List Change) : List (Column × Column) :=
  cs.filterMap fun | .renameColumn _ o n => some (o, n) | _ => none

/-- The attributes that decide whether a column counts as renamed. -/
def shapeKey (uc : Bool) (c : Column) : Column :=
  { c with name := [], values := [], ref := none, description := if uc then c.description else [] }

/-- No net additions: for every shape there are at least as many vanished as new columns. -/
def NoNetAdditions (uc : Bool) (t o : Table) : Prop :=
  ∀ k, ((t.columns.filter (fun c => decide (c.name ∉ o.columns.map (·.name)))).map (shapeKey uc)).count k ≤
    ((o.columns.filter (fun c => decide (c.name ∉ t.columns.map (·.name)))).map (shapeKey uc)).count k

end Octo.Spec
