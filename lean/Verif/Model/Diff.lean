import Verif.Model.Octopus

/-! Model of package `format/diff` of /repo: changeset.go and diff.go. -/

namespace Octo

/-! ## changeset.go -/

/-- `ChangeSetID`, format/diff/changeset.go 9-19 (`newChangeSetID` is the default value).  The
counters never become negative because `revertMajor` is only called after `bumpMajor`. -/
structure ChangeSetID where
  major : Nat := 0
  minor : Nat := 0
  deriving DecidableEq, Repr

namespace ChangeSetID

/-- `bumpMajor`, format/diff/changeset.go 21-24. -/
def bumpMajor (l : ChangeSetID) : ChangeSetID := ⟨l.major + 1, 0⟩

/-- `revertMajor`, format/diff/changeset.go 26-29. -/
def revertMajor (l : ChangeSetID) : ChangeSetID := ⟨l.major - 1, 0⟩

/-- `bumpMinor`, format/diff/changeset.go 31-34 (the new counter; its text is `version`). -/
def bumpMinor (l : ChangeSetID) : ChangeSetID := ⟨l.major, l.minor + 1⟩

/-- `version`, format/diff/changeset.go 36-42. -/
def version (l : ChangeSetID) : Str :=
  if l.minor = 0 then itoa l.major else itoa l.major ++ "-"ₛ ++ itoa l.minor

end ChangeSetID

/-- `Change` and its implementations, format/diff/changeset.go 68-207.  (`ConstraintName` of
`UpdatePrimaryKey` and the neighbours of `AddColumn` are never set by diff.go and are left out.) -/
inductive Change
  | createTable (table : Table)
  | dropTable (table : Table)
  | renameTable (oldTable newTable : Table)
  | updatePrimaryKey (oldTable newTable : Table)
  | dropUnique (constraintName : Str) (table : Table)
  | createUnique (constraintName : Str) (table : Table)
  | setTableComment (table : Table)
  | addColumn (table : Table) (column : Column)
  | dropColumn (table : Table) (columnName : Str)
  | setColumnComment (table : Table) (column : Column)
  | changeColumnType (table : Table) (oldColumn newColumn : Column)
  | renameColumn (table : Table) (oldColumn newColumn : Column)
  | setNotNull (table : Table) (column : Column)
  | setAutoIncrement (table : Table) (column : Column)
  | setDefaultValue (table : Table) (column : Column)
  deriving DecidableEq, Repr

/-- `DepTable`, format/diff/changeset.go 76-207. -/
def Change.depTable : Change → Table
  | .createTable t => t
  | .dropTable t => t
  | .renameTable o _ => o
  | .updatePrimaryKey o _ => o
  | .dropUnique _ t => t
  | .createUnique _ t => t
  | .setTableComment t => t
  | .addColumn t _ => t
  | .dropColumn t _ => t
  | .setColumnComment t _ => t
  | .changeColumnType t _ _ => t
  | .renameColumn t _ _ => t
  | .setNotNull t _ => t
  | .setAutoIncrement t _ => t
  | .setDefaultValue t _ => t

/-- `ChangeSet`, format/diff/changeset.go 56-64. -/
structure ChangeSet where
  id : Str
  author : Str
  changes : List Change
  deriving DecidableEq, Repr

/-! ## diff.go -/

/-- `Option`, format/diff/diff.go 17-24. -/
structure DiffOption where
  tableFilter : Option (Table → Bool) := none
  diffFrom : Schema
  diffTo : Schema
  author : Str := []
  uniqueNameSuffix : Str := []
  useComments : Bool := false

/-- A schedule fixes the iteration orders of the two maps that diff.go ranges over: the renamed
tables (line 96) and, for the table at each position of the new schema, the renamed columns (line
227). -/
structure Sched where
  tables : List (Table × Table) → List (Table × Table)
  columns : Nat → List (Column × Column) → List (Column × Column)

/-- What Go guarantees about map iteration: every entry once, in some order. -/
def Sched.Fair (s : Sched) : Prop := (∀ l, (s.tables l).Perm l) ∧ ∀ n l, (s.columns n l).Perm l

/-- The id counter and the change sets collected so far. -/
structure DState where
  id : ChangeSetID
  out : List ChangeSet

/-- The recurring pattern `changeSet := newDiffChangeSet(id.bumpMinor(), author)`,
`changeSet.Add(...)`, `changeSets = append(changeSets, changeSet)`. -/
def emit (author : Str) (changes : List Change) (s : DState) : DState :=
  ⟨s.id.bumpMinor, s.out ++ [⟨s.id.bumpMinor.version, author, changes⟩]⟩

/-- Runs the pattern under a condition. -/
def emitIf (cond : Bool) (author : Str) (changes : List Change) (s : DState) : DState :=
  if cond then emit author changes s else s

/-- `diffColumn`, format/diff/diff.go 277-324; the change sets go directly to the caller's list (lines
184-186 append them there). -/
def diffColumn (author : Str) (table : Table) (column oldColumn : Column) (useComments : Bool)
    (s : DState) : DState :=
  let s := emitIf (column.name != oldColumn.name) author [.renameColumn table oldColumn column] s
  let s := emitIf (column.type != oldColumn.type || column.size != oldColumn.size ||
    column.scale != oldColumn.scale) author [.changeColumnType table oldColumn column] s
  let s := emitIf (useComments && column.description != oldColumn.description) author
    [.setColumnComment table column] s
  let s := emitIf (column.notNull != oldColumn.notNull) author [.setNotNull table column] s
  let s := emitIf (column.autoIncremental != oldColumn.autoIncremental) author
    [.setAutoIncrement table column] s
  emitIf (column.defaultValue != oldColumn.defaultValue) author [.setDefaultValue table column] s

/-- State of the column loop, format/diff/diff.go 164-188. -/
structure ColLoop where
  st : DState
  added : List Column
  removed : StringSet

/-- One round of the column loop, format/diff/diff.go 171-188. -/
def colStep (author : Str) (table oldTable : Table) (useComments : Bool) (l : ColLoop) (column : Column) :
    ColLoop :=
  match oldTable.columnNameMap column.name with
  | none => { l with added := l.added ++ [column] }
  | some oldColumn =>
    { st := diffColumn author table column oldColumn useComments l.st
      added := l.added
      removed := l.removed.remove column.name }

/-- The column loop, format/diff/diff.go 164-188. -/
def colLoop (author : Str) (table oldTable : Table) (useComments : Bool) (st : DState) : ColLoop :=
  table.columns.foldl (colStep author table oldTable useComments)
    { st := st, added := [], removed := StringSet.ofList (oldTable.columns.map (·.name)) }

/-- The test of the inner loop of the search for renamed elements, format/diff/diff.go 75-76 and
193-194: the name is known and its element matches. -/
def renameTest {α : Type} (get : Str → Option α) (isMatch : α → α → Bool) (a : α) (n : Str) : Bool :=
  match get n with
  | some r => isMatch a r
  | none => false

/-- The search for renamed elements, format/diff/diff.go 72-83 and 190-201: for each added element in
turn, the first remaining removed name (in sorted order) whose element matches; a match is taken
out of the removed names.  The result pairs every added element with its match (the Go map is keyed by
pointer, i.e. by position). -/
def findRenames {α : Type} (get : Str → Option α) (isMatch : α → α → Bool) :
    List α → StringSet → List (α × Option α) × StringSet
  | [], removed => ([], removed)
  | a :: as, removed =>
    match removed.slice.find? (renameTest get isMatch a) with
    | some n =>
      let rest := findRenames get isMatch as (removed.remove n)
      ((a, get n) :: rest.1, rest.2)
    | none =>
      let rest := findRenames get isMatch as removed
      ((a, none) :: rest.1, rest.2)

/-- The entries of the rename map built by the search. -/
def renamedPairs {α : Type} (l : List (α × Option α)) : List (α × α) :=
  l.filterMap (fun p => p.2.map (fun r => (p.1, r)))

/-- The added elements that are not keys of the rename map. -/
def notRenamed {α : Type} (l : List (α × Option α)) : List α :=
  l.filterMap (fun p => if p.2.isSome then none else some p.1)

/-- `diffTable`, format/diff/diff.go 146-274.  Lines 242-252 build the change set with the added columns
and bump the id, but never append the change set to the result. -/
def diffTable (sched : List (Column × Column) → List (Column × Column)) (author : Str)
    (table oldTable : Table) (useComments : Bool) (uniqueNameSuffix : Str) (id : ChangeSetID) : DState :=
  let s : DState := ⟨id, []⟩
  let s := emitIf (useComments && table.description != oldTable.description) author
    [.setTableComment table] s
  let l := colLoop author table oldTable useComments s
  let r := findRenames oldTable.columnNameMap (fun a b => a.isRenamed b (!useComments)) l.added l.removed
  let uqSet := table.uniqueKeyNameSet
  let oldUqSet := oldTable.uniqueKeyNameSet
  let uniqueChanged := !uqSet.equals oldUqSet
  let uniqueConstraintName := table.name ++ uniqueNameSuffix
  let s := emitIf (uniqueChanged && decide (oldUqSet.size > 0)) author
    [.dropUnique uniqueConstraintName oldTable] l.st
  let s := r.2.slice.foldl (fun s n => emit author [.dropColumn table n] s) s
  let s := (sched (renamedPairs r.1)).foldl (fun s p => emit author [.renameColumn table p.2 p.1] s) s
  let finalAdded := notRenamed r.1
  let s : DState := if finalAdded.length > 0 then ⟨s.id.bumpMinor, s.out⟩ else s
  let s := emitIf (!table.primaryKeyNameSet.equals oldTable.primaryKeyNameSet) author
    [.updatePrimaryKey oldTable table] s
  emitIf (uniqueChanged && decide (uqSet.size > 0)) author [.createUnique uniqueConstraintName table] s

/-- State of the table loop, format/diff/diff.go 35-70. -/
structure TabLoop where
  st : DState
  added : List Table
  removed : StringSet

/-- One round of the table loop, format/diff/diff.go 43-70; the second component of the element is its
position. -/
def tabStep (opt : DiffOption) (sched : Sched) (author : Str) (l : TabLoop) (e : Table × Nat) : TabLoop :=
  let table := e.1
  if !passes opt.tableFilter table then l
  else
    let removed := l.removed.remove table.name
    match opt.diffFrom.tablesByName table.name with
    | none => { l with added := l.added ++ [table], removed := removed }
    | some oldTable =>
      let d := diffTable (sched.columns e.2) author table oldTable opt.useComments opt.uniqueNameSuffix
        l.st.id.bumpMajor
      let st : DState :=
        if d.out.length > 0 then ⟨d.id, l.st.out ++ d.out⟩ else ⟨d.id.revertMajor, l.st.out⟩
      { l with st := st, removed := removed }

/-- One drop of the loop over removed tables, format/diff/diff.go 86-93. -/
def dropStep (opt : DiffOption) (author : Str) (s : DState) (name : Str) : DState :=
  match opt.diffFrom.tablesByName name with
  | none => s  -- impossible: the names are keys of the map
  | some t =>
    let id := s.id.bumpMajor
    ⟨id, s.out ++ [⟨id.version, author, [.dropTable t]⟩]⟩

/-- One rename of the loop over the rename map, format/diff/diff.go 96-126. -/
def renameStep (author suffix : Str) (s : DState) (p : Table × Table) : DState :=
  let newTable := p.1
  let oldTable := p.2
  let id := s.id.bumpMajor
  let s : DState := ⟨id, if oldTable.uniqueKeyNameSet.size > 0 then
      s.out ++ [⟨id.version, author, [.dropUnique (oldTable.name ++ suffix) oldTable]⟩] else s.out⟩
  let s := emit author [.renameTable oldTable newTable] s
  emitIf (decide (newTable.uniqueKeyNameSet.size > 0)) author
    [.createUnique (newTable.name ++ suffix) newTable] s

/-- One creation of the loop over added tables, format/diff/diff.go 129-140. -/
def createStep (author : Str) (s : DState) (t : Table) : DState :=
  let id := s.id.bumpMajor
  ⟨id, s.out ++ [⟨id.version, author, [.createTable t]⟩]⟩

/-- `getDiff`, format/diff/diff.go 26-143: the change sets of the result.  (The error results of the
helper functions are always nil.) -/
def getDiff (opt : DiffOption) (sched : Sched) : List ChangeSet :=
  let author := if opt.author ≠ [] then opt.author else opt.diffTo.author
  let l := opt.diffTo.tables.zipIdx.foldl (tabStep opt sched author)
    { st := ⟨{}, []⟩, added := [], removed := StringSet.ofList (opt.diffFrom.tables.map (·.name)) }
  let r := findRenames opt.diffFrom.tablesByName (fun a b => a.columns == b.columns) l.added l.removed
  let s := r.2.slice.foldl (dropStep opt author) l.st
  let s := (sched.tables (renamedPairs r.1)).foldl (renameStep author opt.uniqueNameSuffix) s
  let s := (notRenamed r.1).foldl (createStep author) s
  s.out

end Octo
