import Verif.Model.Diff
import Verif.Lemmas.Util

/-! Helper lemmas for package `format/diff`: a description of `getDiff` as a list of numbered blocks. -/

namespace Octo

/-! ### Blocks -/

/-- The pieces of work on one table: `(emitted?, changes)`.  Each piece consumes one minor number. -/
abbrev Pieces := List (Bool × List Change)

/-- A block: change sets under one major number, with their minor numbers. -/
abbrev Block := List (Nat × List Change)

/-- Minor numbers are assigned consecutively; pieces that are not emitted only consume a number. -/
def toBlock : Nat → Pieces → Block
  | _, [] => []
  | k, (e, cs) :: ps => if e then (k + 1, cs) :: toBlock (k + 1) ps else toBlock (k + 1) ps

def stamp (author : Str) (major : Nat) (b : Block) : List ChangeSet :=
  b.map fun p => ⟨(ChangeSetID.mk major p.1).version, author, p.2⟩

def number (author : Str) : Nat → List Block → List ChangeSet
  | _, [] => []
  | m, b :: bs => stamp author m b ++ number author (m + 1) bs

theorem number_append (author : Str) (m : Nat) (a b : List Block) :
    number author m (a ++ b) = number author m a ++ number author (m + a.length) b := by
  induction a generalizing m with
  | nil => simp [number]
  | cons x a ih =>
    simp only [List.cons_append, number, ih, List.length_cons, List.append_assoc]
    congr 3; omega

theorem number_singleton (author : Str) (m : Nat) (b : Block) :
    number author m [b] = stamp author m b := by simp [number]

def runPieces (author : Str) (ps : Pieces) (s : DState) : DState :=
  ps.foldl (fun s p => if p.1 then emit author p.2 s else ⟨s.id.bumpMinor, s.out⟩) s

theorem runPieces_append (author : Str) (a b : Pieces) (s : DState) :
    runPieces author (a ++ b) s = runPieces author b (runPieces author a s) := by
  simp [runPieces, List.foldl_append]

theorem runPieces_eq (author : Str) (ps : Pieces) (s : DState) :
    runPieces author ps s =
      ⟨⟨s.id.major, s.id.minor + ps.length⟩, s.out ++ stamp author s.id.major (toBlock s.id.minor ps)⟩ := by
  induction ps generalizing s with
  | nil => simp [runPieces, toBlock, stamp]
  | cons p ps ih =>
    obtain ⟨e, cs⟩ := p
    have h : runPieces author ((e, cs) :: ps) s =
      runPieces author ps (if e then emit author cs s else ⟨s.id.bumpMinor, s.out⟩) := rfl
    rw [h, ih]
    cases e
    · simp only [ChangeSetID.bumpMinor, toBlock, List.length_cons, Bool.false_eq_true, if_false]
      congr 2; omega
    · simp only [emit, ChangeSetID.bumpMinor, toBlock, List.length_cons, if_true, stamp, List.map_cons]
      simp only [List.append_assoc, List.singleton_append]
      congr 2; omega

def whenP (c : Bool) (cs : List Change) : Pieces := if c then [(true, cs)] else []

theorem emitIf_eq (c : Bool) (author : Str) (cs : List Change) (s : DState) :
    emitIf c author cs s = runPieces author (whenP c cs) s := by
  cases c <;> simp [emitIf, whenP, runPieces]

def columnPieces (table : Table) (column oldColumn : Column) (useComments : Bool) : Pieces :=
  whenP (column.name != oldColumn.name) [.renameColumn table oldColumn column] ++
  (whenP (column.type != oldColumn.type || column.size != oldColumn.size ||
    column.scale != oldColumn.scale) [.changeColumnType table oldColumn column] ++
  (whenP (useComments && column.description != oldColumn.description) [.setColumnComment table column] ++
  (whenP (column.notNull != oldColumn.notNull) [.setNotNull table column] ++
  (whenP (column.autoIncremental != oldColumn.autoIncremental) [.setAutoIncrement table column] ++
  whenP (column.defaultValue != oldColumn.defaultValue) [.setDefaultValue table column]))))

theorem diffColumn_eq (author : Str) (table : Table) (column oldColumn : Column) (uc : Bool) (s : DState) :
    diffColumn author table column oldColumn uc s =
      runPieces author (columnPieces table column oldColumn uc) s := by
  simp only [diffColumn, emitIf_eq, columnPieces, runPieces_append]

/-- The columns of `table` present in the old version, with their old column. -/
def keptColumns (table oldTable : Table) : List (Column × Column) :=
  table.columns.filterMap (fun c => (oldTable.columnNameMap c.name).map (fun o => (c, o)))

def addedColumns (table oldTable : Table) : List Column :=
  table.columns.filter (fun c => (oldTable.columnNameMap c.name).isNone)

def removedNames (table oldTable : Table) : StringSet :=
  (StringSet.ofList (oldTable.columns.map (·.name))).removeAll
    ((table.columns.filter (fun c => (oldTable.columnNameMap c.name).isSome)).map (·.name))

theorem colLoop_eq (author : Str) (table oldTable : Table) (uc : Bool) (st : DState) :
    colLoop author table oldTable uc st =
      { st := runPieces author ((keptColumns table oldTable).flatMap
          (fun p => columnPieces table p.1 p.2 uc)) st
        added := addedColumns table oldTable
        removed := removedNames table oldTable } := by
  have aux : ∀ (cols : List Column) (l : ColLoop),
      cols.foldl (colStep author table oldTable uc) l =
        { st := runPieces author ((cols.filterMap
            (fun c => (oldTable.columnNameMap c.name).map (fun o => (c, o)))).flatMap
            (fun p => columnPieces table p.1 p.2 uc)) l.st
          added := l.added ++ cols.filter (fun c => (oldTable.columnNameMap c.name).isNone)
          removed := l.removed.removeAll
            ((cols.filter (fun c => (oldTable.columnNameMap c.name).isSome)).map (·.name)) } := by
    intro cols
    induction cols with
    | nil => intro l; simp [runPieces, StringSet.removeAll]
    | cons c cols ih =>
      intro l
      rw [List.foldl_cons, ih]
      unfold colStep
      cases h : oldTable.columnNameMap c.name with
      | none => simp [h]
      | some o =>
        simp [h, diffColumn_eq, runPieces_append, StringSet.removeAll]
  rw [colLoop, aux]
  simp [keptColumns, addedColumns, removedNames]

/-- The outcome of the rename search among the columns of a table. -/
def columnRenames (table oldTable : Table) (uc : Bool) : List (Column × Option Column) × StringSet :=
  findRenames oldTable.columnNameMap (fun a b => a.isRenamed b (!uc)) (addedColumns table oldTable)
    (removedNames table oldTable)

def uniqueChanged (table oldTable : Table) : Bool :=
  !table.uniqueKeyNameSet.equals oldTable.uniqueKeyNameSet

def tablePieces (sched : List (Column × Column) → List (Column × Column)) (table oldTable : Table)
    (uc : Bool) (suffix : Str) : Pieces :=
  whenP (uc && table.description != oldTable.description) [.setTableComment table] ++
  ((keptColumns table oldTable).flatMap (fun p => columnPieces table p.1 p.2 uc) ++
  (whenP (uniqueChanged table oldTable && decide (oldTable.uniqueKeyNameSet.size > 0))
    [.dropUnique (table.name ++ suffix) oldTable] ++
  ((columnRenames table oldTable uc).2.slice.map (fun n => (true, [.dropColumn table n])) ++
  ((sched (renamedPairs (columnRenames table oldTable uc).1)).map
    (fun p => (true, [.renameColumn table p.2 p.1])) ++
  ((if (notRenamed (columnRenames table oldTable uc).1).length > 0 then
    [(false, (notRenamed (columnRenames table oldTable uc).1).map (Change.addColumn table))] else []) ++
  (whenP (!table.primaryKeyNameSet.equals oldTable.primaryKeyNameSet) [.updatePrimaryKey oldTable table] ++
  whenP (uniqueChanged table oldTable && decide (table.uniqueKeyNameSet.size > 0))
    [.createUnique (table.name ++ suffix) table]))))))

theorem foldl_emit_eq {α : Type} (author : Str) (f : α → List Change) (l : List α) (s : DState) :
    l.foldl (fun s a => emit author (f a) s) s = runPieces author (l.map (fun a => (true, f a))) s := by
  induction l generalizing s with
  | nil => rfl
  | cons a l ih => rw [List.foldl_cons, ih]; rfl

theorem diffTable_eq (sched : List (Column × Column) → List (Column × Column)) (author : Str)
    (table oldTable : Table) (uc : Bool) (suffix : Str) (id : ChangeSetID) :
    diffTable sched author table oldTable uc suffix id =
      runPieces author (tablePieces sched table oldTable uc suffix) ⟨id, []⟩ := by
  unfold tablePieces
  simp only [runPieces_append, ← emitIf_eq]
  unfold diffTable
  simp only [colLoop_eq, foldl_emit_eq]
  unfold columnRenames uniqueChanged
  congr 1
  congr 1
  split
  · rfl
  · rfl

/-- The block of change sets for a kept table. -/
def tableBlock (sched : List (Column × Column) → List (Column × Column)) (table oldTable : Table)
    (uc : Bool) (suffix : Str) : Block := toBlock 0 (tablePieces sched table oldTable uc suffix)

/-! ### The whole diff -/

/-- The kept tables: position, new and old version. -/
def keptTables (opt : DiffOption) : List (Nat × Table × Table) :=
  opt.diffTo.tables.zipIdx.filterMap (fun e =>
    if passes opt.tableFilter e.1 then
      (opt.diffFrom.tablesByName e.1.name).map (fun o => (e.2, e.1, o)) else none)

def addedTables (opt : DiffOption) : List Table :=
  opt.diffTo.tables.filter (fun t =>
    passes opt.tableFilter t && (opt.diffFrom.tablesByName t.name).isNone)

def removedTableNames (opt : DiffOption) : StringSet :=
  (StringSet.ofList (opt.diffFrom.tables.map (·.name))).removeAll
    ((opt.diffTo.tables.filter (fun t => passes opt.tableFilter t)).map (·.name))

def keptBlocks (opt : DiffOption) (sched : Sched) : List Block :=
  ((keptTables opt).map (fun e =>
    tableBlock (sched.columns e.1) e.2.1 e.2.2 opt.useComments opt.uniqueNameSuffix)).filter
      (fun b => !b.isEmpty)

def tableRenames (opt : DiffOption) : List (Table × Option Table) × StringSet :=
  findRenames opt.diffFrom.tablesByName (fun a b => a.columns == b.columns) (addedTables opt)
    (removedTableNames opt)

def dropBlocks (opt : DiffOption) : List Block :=
  ((tableRenames opt).2.slice.filterMap opt.diffFrom.tablesByName).map
    (fun t => [(0, [Change.dropTable t])])

def renameBlock (suffix : Str) (p : Table × Table) : Block :=
  (if p.2.uniqueKeyNameSet.size > 0 then [(0, [Change.dropUnique (p.2.name ++ suffix) p.2])] else []) ++
  ([(1, [Change.renameTable p.2 p.1])] ++
  (if p.1.uniqueKeyNameSet.size > 0 then [(2, [Change.createUnique (p.1.name ++ suffix) p.1])] else []))

def renameBlocks (opt : DiffOption) (sched : Sched) : List Block :=
  (sched.tables (renamedPairs (tableRenames opt).1)).map (renameBlock opt.uniqueNameSuffix)

def createBlocks (opt : DiffOption) : List Block :=
  (notRenamed (tableRenames opt).1).map (fun t => [(0, [Change.createTable t])])

def diffBlocks (opt : DiffOption) (sched : Sched) : List Block :=
  keptBlocks opt sched ++ (dropBlocks opt ++ (renameBlocks opt sched ++ createBlocks opt))

def diffAuthor (opt : DiffOption) : Str := if opt.author ≠ [] then opt.author else opt.diffTo.author

/-- State after appending blocks. -/
def Numbered (author : Str) (s : DState) (bs : List Block) : Prop :=
  s.id.major = bs.length ∧ s.out = number author 1 bs

theorem numbered_snoc {author : Str} {s : DState} {bs : List Block} (h : Numbered author s bs)
    (s' : DState) (b : Block) (h1 : s'.id.major = s.id.major + 1)
    (h2 : s'.out = s.out ++ stamp author (s.id.major + 1) b) : Numbered author s' (bs ++ [b]) := by
  refine ⟨by simp [h1, h.1], ?_⟩
  rw [h2, h.2, number_append, number_singleton, h.1, Nat.add_comm]

theorem tabLoop_eq (opt : DiffOption) (sched : Sched) (author : Str) (es : List (Table × Nat))
    (l : TabLoop) (bs : List Block) (h : Numbered author l.st bs) :
    let l' := es.foldl (tabStep opt sched author) l
    Numbered author l'.st (bs ++ ((es.filterMap (fun e =>
      if passes opt.tableFilter e.1 then
        (opt.diffFrom.tablesByName e.1.name).map (fun o => (e.2, e.1, o)) else none)).map (fun e =>
      tableBlock (sched.columns e.1) e.2.1 e.2.2 opt.useComments opt.uniqueNameSuffix)).filter
      (fun b => !b.isEmpty)) ∧
    l'.added = l.added ++ (es.map Prod.fst).filter (fun t =>
      passes opt.tableFilter t && (opt.diffFrom.tablesByName t.name).isNone) ∧
    l'.removed = l.removed.removeAll
      (((es.map Prod.fst).filter (fun t => passes opt.tableFilter t)).map (·.name)) := by
  induction es generalizing l bs with
  | nil => simpa [StringSet.removeAll] using h
  | cons e es ih =>
    simp only [List.foldl_cons]
    cases hp : passes opt.tableFilter e.1 with
    | false =>
      have : tabStep opt sched author l e = l := by simp [tabStep, hp]
      rw [this]
      have := ih l bs h
      simpa [hp] using this
    | true =>
      cases ho : opt.diffFrom.tablesByName e.1.name with
      | none =>
        have hstep : tabStep opt sched author l e =
          { l with added := l.added ++ [e.1], removed := l.removed.remove e.1.name } := by
          simp [tabStep, hp, ho]
        rw [hstep]
        have := ih { l with added := l.added ++ [e.1], removed := l.removed.remove e.1.name } bs h
        simpa [hp, ho, StringSet.removeAll] using this
      | some o =>
        set b := tableBlock (sched.columns e.2) e.1 o opt.useComments opt.uniqueNameSuffix with hb
        have hd : diffTable (sched.columns e.2) author e.1 o opt.useComments opt.uniqueNameSuffix
            l.st.id.bumpMajor = ⟨⟨l.st.id.major + 1, 0 + (tablePieces (sched.columns e.2) e.1 o
              opt.useComments opt.uniqueNameSuffix).length⟩, stamp author (l.st.id.major + 1) b⟩ := by
          rw [diffTable_eq, runPieces_eq]; simp [ChangeSetID.bumpMajor, hb, tableBlock]
        by_cases hbe : b = []
        · have hstep : tabStep opt sched author l e =
            { l with st := ⟨⟨l.st.id.major, 0⟩, l.st.out⟩, removed := l.removed.remove e.1.name } := by
            simp [tabStep, hp, ho, hd, hbe, stamp, ChangeSetID.revertMajor]
          rw [hstep]
          have := ih { l with st := ⟨⟨l.st.id.major, 0⟩, l.st.out⟩, removed := l.removed.remove e.1.name } bs
            ⟨h.1, h.2⟩
          simpa [hp, ho, StringSet.removeAll, ← hb, hbe] using this
        · have hlen : (stamp author (l.st.id.major + 1) b).length > 0 := by
            simp [stamp]; exact List.length_pos_of_ne_nil hbe
          have hstep : tabStep opt sched author l e =
            { l with st := ⟨⟨l.st.id.major + 1, 0 + (tablePieces (sched.columns e.2) e.1 o
                opt.useComments opt.uniqueNameSuffix).length⟩,
                l.st.out ++ stamp author (l.st.id.major + 1) b⟩
                     removed := l.removed.remove e.1.name } := by
            simp only [tabStep, hp, ho, hd, hlen, if_true, Bool.not_true, Bool.false_eq_true, if_false]
          rw [hstep]
          have := ih { l with st := ⟨⟨l.st.id.major + 1, 0 + (tablePieces (sched.columns e.2) e.1 o
                opt.useComments opt.uniqueNameSuffix).length⟩,
                l.st.out ++ stamp author (l.st.id.major + 1) b⟩
                              removed := l.removed.remove e.1.name } (bs ++ [b])
            (numbered_snoc h _ b rfl rfl)
          have hbe2 : b.isEmpty = false := by simpa using hbe
          simpa [hp, ho, StringSet.removeAll, ← hb, hbe2] using this

theorem dropLoop_eq (opt : DiffOption) (author : Str) (ns : List Str) (s : DState) (bs : List Block)
    (h : Numbered author s bs) :
    Numbered author (ns.foldl (dropStep opt author) s)
      (bs ++ (ns.filterMap opt.diffFrom.tablesByName).map (fun t => [(0, [Change.dropTable t])])) := by
  induction ns generalizing s bs with
  | nil => simpa using h
  | cons n ns ih =>
    rw [List.foldl_cons]
    cases ho : opt.diffFrom.tablesByName n with
    | none => simpa [dropStep, ho] using ih s bs h
    | some t =>
      have h2 := ih (dropStep opt author s n) (bs ++ [[(0, [Change.dropTable t])]])
        (numbered_snoc h _ _ (by simp [dropStep, ho, ChangeSetID.bumpMajor])
          (by simp [dropStep, ho, ChangeSetID.bumpMajor, stamp]))
      simpa [ho] using h2

theorem renameLoop_eq (author suffix : Str) (ps : List (Table × Table)) (s : DState) (bs : List Block)
    (h : Numbered author s bs) :
    Numbered author (ps.foldl (renameStep author suffix) s) (bs ++ ps.map (renameBlock suffix)) := by
  induction ps generalizing s bs with
  | nil => simpa using h
  | cons p ps ih =>
    rw [List.foldl_cons]
    have h2 := ih (renameStep author suffix s p) (bs ++ [renameBlock suffix p])
      (numbered_snoc h _ _ (by
          simp only [renameStep, emitIf]
          split <;> simp [emit, ChangeSetID.bumpMajor, ChangeSetID.bumpMinor]) (by
          simp only [renameStep, emitIf, renameBlock, decide_eq_true_eq]
          split <;> split <;> simp [emit, ChangeSetID.bumpMajor, ChangeSetID.bumpMinor, stamp]))
    simpa using h2

theorem createLoop_eq (author : Str) (ts : List Table) (s : DState) (bs : List Block)
    (h : Numbered author s bs) :
    Numbered author (ts.foldl (createStep author) s)
      (bs ++ ts.map (fun t => [(0, [Change.createTable t])])) := by
  induction ts generalizing s bs with
  | nil => simpa using h
  | cons t ts ih =>
    rw [List.foldl_cons]
    have h2 := ih (createStep author s t) (bs ++ [[(0, [Change.createTable t])]])
      (numbered_snoc h _ _ (by simp [createStep, ChangeSetID.bumpMajor])
        (by simp [createStep, ChangeSetID.bumpMajor, stamp]))
    simpa using h2

/-- `getDiff` numbers the blocks consecutively. -/
theorem getDiff_eq (opt : DiffOption) (sched : Sched) :
    getDiff opt sched = number (diffAuthor opt) 1 (diffBlocks opt sched) := by
  obtain ⟨h1, h2, h3⟩ := tabLoop_eq opt sched (diffAuthor opt) opt.diffTo.tables.zipIdx
    { st := ⟨{}, []⟩, added := [], removed := StringSet.ofList (opt.diffFrom.tables.map (·.name)) } []
    ⟨rfl, rfl⟩
  unfold getDiff
  have hz : opt.diffTo.tables.zipIdx.map Prod.fst = opt.diffTo.tables := by simp
  rw [hz] at h2 h3
  simp only [List.nil_append] at h1 h2 h3
  have h4 := createLoop_eq (diffAuthor opt) (notRenamed (tableRenames opt).1) _ _
    (renameLoop_eq (diffAuthor opt) opt.uniqueNameSuffix
      (sched.tables (renamedPairs (tableRenames opt).1)) _ _
      (dropLoop_eq opt (diffAuthor opt) (tableRenames opt).2.slice _ _ h1))
  unfold diffBlocks keptBlocks keptTables dropBlocks renameBlocks createBlocks
  have h5 := h4.2
  simp only [List.append_assoc] at h5
  rw [← h5]
  unfold tableRenames addedTables removedTableNames
  rw [← h2, ← h3]
  rfl

/-! ### Changes of the diff -/

/-- All changes of a diff, in order. -/
def allChanges (cs : List ChangeSet) : List Change := cs.flatMap (·.changes)

def blockChanges (b : Block) : List Change := b.flatMap Prod.snd

theorem allChanges_number (author : Str) (m : Nat) (bs : List Block) :
    allChanges (number author m bs) = bs.flatMap blockChanges := by
  induction bs generalizing m with
  | nil => rfl
  | cons b bs ih =>
    have : allChanges (stamp author m b) = blockChanges b := by
      simp [allChanges, stamp, blockChanges, List.flatMap_map]
    simp only [number, List.flatMap_cons, ← ih (m + 1), ← this]
    simp [allChanges]

theorem allChanges_getDiff (opt : DiffOption) (sched : Sched) :
    allChanges (getDiff opt sched) = (diffBlocks opt sched).flatMap blockChanges := by
  rw [getDiff_eq, allChanges_number]

/-- The emitted changes of a list of pieces. -/
def piecesChanges (ps : Pieces) : List Change := ps.flatMap (fun p => if p.1 then p.2 else [])

theorem blockChanges_toBlock (k : Nat) (ps : Pieces) : blockChanges (toBlock k ps) = piecesChanges ps := by
  induction ps generalizing k with
  | nil => rfl
  | cons p ps ih =>
    obtain ⟨e, cs⟩ := p
    cases e
    · have := ih (k + 1)
      simp only [toBlock, Bool.false_eq_true, if_false, piecesChanges, List.flatMap_cons,
        List.nil_append] at this ⊢
      exact this
    · have := ih (k + 1)
      simp only [toBlock, if_true, blockChanges, List.flatMap_cons, piecesChanges] at this ⊢
      rw [this]

theorem piecesChanges_append (a b : Pieces) : piecesChanges (a ++ b) = piecesChanges a ++ piecesChanges b := by
  simp [piecesChanges]

theorem piecesChanges_whenP (c : Bool) (cs : List Change) :
    piecesChanges (whenP c cs) = if c then cs else [] := by
  cases c <;> simp [piecesChanges, whenP]

end Octo
