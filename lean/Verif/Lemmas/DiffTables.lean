import Verif.Lemmas.Renames

/-! Helper lemmas for package `format/diff`: lookups, key sets, kept/added/removed elements. -/

namespace Octo

/-! ### Lookups -/

theorem lastBy_some {α : Type} {key : α → Str} {l : List α} {k : Str} {x : α}
    (h : lastBy key l k = some x) : x ∈ l ∧ key x = k := by
  have h1 := List.mem_of_find?_eq_some h
  have h2 := List.find?_some h
  exact ⟨by simpa using h1, by simpa using h2⟩

theorem lastBy_none {α : Type} {key : α → Str} {l : List α} {k : Str} :
    lastBy key l k = none ↔ k ∉ l.map key := by
  simp only [lastBy, List.find?_eq_none, List.mem_reverse, List.mem_map, not_exists, not_and]
  constructor
  · intro h x hx e; exact h x hx (by simpa using e)
  · intro h x hx e; exact h x hx (by simpa using e)

theorem lastBy_isSome {α : Type} {key : α → Str} {l : List α} {k : Str} :
    (lastBy key l k).isSome = true ↔ k ∈ l.map key := by
  rw [Option.isSome_iff_ne_none, ne_eq, lastBy_none, not_not]

theorem lastBy_isNone {α : Type} {key : α → Str} {l : List α} {k : Str} :
    (lastBy key l k).isNone = true ↔ k ∉ l.map key := by
  rw [Option.isNone_iff_eq_none, lastBy_none]

theorem eq_of_nodup_map {α : Type} {key : α → Str} {l : List α} (hn : (l.map key).Nodup) {x y : α}
    (hx : x ∈ l) (hy : y ∈ l) (h : key x = key y) : x = y := List.inj_on_of_nodup_map hn hx hy h

theorem lastBy_nodup {α : Type} {key : α → Str} {l : List α} (hn : (l.map key).Nodup) {x : α}
    (hx : x ∈ l) : lastBy key l (key x) = some x := by
  cases h : lastBy key l (key x) with
  | none => exact absurd (List.mem_map_of_mem hx) (lastBy_none.1 h)
  | some y =>
    obtain ⟨h1, h2⟩ := lastBy_some h
    rw [eq_of_nodup_map hn h1 hx h2]

theorem lastBy_eq_some_iff {α : Type} {key : α → Str} {l : List α} (hn : (l.map key).Nodup) {k : Str}
    {x : α} : lastBy key l k = some x ↔ x ∈ l ∧ key x = k := by
  constructor
  · exact lastBy_some
  · rintro ⟨h, rfl⟩; exact lastBy_nodup hn h

/-! ### Key sets -/

theorem foldl_addIf (p : Column → Bool) (cs : List Column) (s : StringSet) :
    cs.foldl (fun s c => if p c then s.add c.name else s) s = s.addAll ((cs.filter p).map (·.name)) := by
  induction cs generalizing s with
  | nil => rfl
  | cons c cs ih =>
    rw [List.foldl_cons, ih]
    cases h : p c <;> simp [h, StringSet.addAll]

theorem primaryKeyNameSet_eq (t : Table) :
    t.primaryKeyNameSet = StringSet.ofList ((t.columns.filter (·.primaryKey)).map (·.name)) :=
  foldl_addIf (·.primaryKey) t.columns StringSet.empty

theorem uniqueKeyNameSet_eq (t : Table) :
    t.uniqueKeyNameSet = StringSet.ofList ((t.columns.filter (·.uniqueKey)).map (·.name)) :=
  foldl_addIf (·.uniqueKey) t.columns StringSet.empty

theorem nodup_ofList (l : List Str) : (StringSet.ofList l).keys.Nodup :=
  StringSet.nodup_addAll List.nodup_nil

theorem nodup_uniqueKeyNameSet (t : Table) : t.uniqueKeyNameSet.keys.Nodup := by
  rw [uniqueKeyNameSet_eq]; exact nodup_ofList _

theorem nodup_primaryKeyNameSet (t : Table) : t.primaryKeyNameSet.keys.Nodup := by
  rw [primaryKeyNameSet_eq]; exact nodup_ofList _

theorem mem_uniqueKeyNameSet {t : Table} {n : Str} :
    n ∈ t.uniqueKeyNameSet.keys ↔ ∃ c ∈ t.columns, c.uniqueKey = true ∧ c.name = n := by
  rw [uniqueKeyNameSet_eq, StringSet.mem_ofList]; simp [and_assoc]

theorem mem_primaryKeyNameSet {t : Table} {n : Str} :
    n ∈ t.primaryKeyNameSet.keys ↔ ∃ c ∈ t.columns, c.primaryKey = true ∧ c.name = n := by
  rw [primaryKeyNameSet_eq, StringSet.mem_ofList]; simp [and_assoc]

theorem equals_iff {s t : StringSet} (hs : s.keys.Nodup) (ht : t.keys.Nodup) :
    s.equals t = true ↔ ∀ k, k ∈ s.keys ↔ k ∈ t.keys := by
  simp only [StringSet.equals, Bool.and_eq_true, beq_iff_eq, List.all_eq_true, StringSet.contains,
    decide_eq_true_eq]
  constructor
  · rintro ⟨h1, h2⟩ k
    have h3 : s.keys.Perm t.keys :=
      (List.subperm_of_subset hs h2).perm_of_length_le (by omega)
    exact h3.mem_iff
  · intro h
    exact ⟨((List.perm_ext_iff_of_nodup hs ht).2 h).length_eq, fun k hk => (h k).1 hk⟩

theorem size_pos_unique {t : Table} :
    t.uniqueKeyNameSet.size > 0 ↔ ∃ c ∈ t.columns, c.uniqueKey = true := by
  rw [StringSet.size, gt_iff_lt, List.length_pos_iff_exists_mem]
  constructor
  · rintro ⟨n, hn⟩
    obtain ⟨c, h1, h2, _⟩ := mem_uniqueKeyNameSet.1 hn
    exact ⟨c, h1, h2⟩
  · rintro ⟨c, h1, h2⟩
    exact ⟨c.name, mem_uniqueKeyNameSet.2 ⟨c, h1, h2, rfl⟩⟩

theorem uniqueChanged_iff (t o : Table) : uniqueChanged t o = false ↔
    ∀ n, (∃ c ∈ t.columns, c.uniqueKey = true ∧ c.name = n) ↔
      ∃ c ∈ o.columns, c.uniqueKey = true ∧ c.name = n := by
  rw [uniqueChanged, Bool.not_eq_false', equals_iff (nodup_uniqueKeyNameSet t) (nodup_uniqueKeyNameSet o)]
  simp only [mem_uniqueKeyNameSet]

theorem primaryChanged_iff (t o : Table) : t.primaryKeyNameSet.equals o.primaryKeyNameSet = true ↔
    ∀ n, (∃ c ∈ t.columns, c.primaryKey = true ∧ c.name = n) ↔
      ∃ c ∈ o.columns, c.primaryKey = true ∧ c.name = n := by
  rw [equals_iff (nodup_primaryKeyNameSet t) (nodup_primaryKeyNameSet o)]
  simp only [mem_primaryKeyNameSet]

/-! ### Columns of two versions of a table -/

theorem mem_slice {s : StringSet} {n : Str} : n ∈ s.slice ↔ n ∈ s.keys := by
  simp [StringSet.slice, StringSet.sliceOrd, mem_sortStrings]

theorem slice_perm (s : StringSet) : s.slice.Perm s.keys := sortStrings_perm _

theorem mem_keptColumns {t o : Table} {p : Column × Column} :
    p ∈ keptColumns t o ↔ p.1 ∈ t.columns ∧ o.columnNameMap p.1.name = some p.2 := by
  simp only [keptColumns, List.mem_filterMap, Option.map_eq_some_iff]
  constructor
  · rintro ⟨c, h1, o', h2, rfl⟩; exact ⟨h1, h2⟩
  · rintro ⟨h1, h2⟩; exact ⟨p.1, h1, p.2, h2, rfl⟩

theorem mem_addedColumns {t o : Table} {c : Column} :
    c ∈ addedColumns t o ↔ c ∈ t.columns ∧ c.name ∉ o.columns.map (·.name) := by
  simp only [addedColumns, List.mem_filter, Table.columnNameMap, lastBy_isNone]

theorem nodup_removedNames (t o : Table) : (removedNames t o).keys.Nodup :=
  StringSet.nodup_removeAll (nodup_ofList _)

theorem mem_removedNames {t o : Table} {n : Str} :
    n ∈ (removedNames t o).keys ↔ n ∈ o.columns.map (·.name) ∧ n ∉ t.columns.map (·.name) := by
  rw [removedNames, StringSet.mem_removeAll, StringSet.mem_ofList]
  constructor
  · rintro ⟨h1, h2⟩
    refine ⟨h1, fun h3 => h2 ?_⟩
    obtain ⟨c, hc, rfl⟩ := List.mem_map.1 h3
    exact List.mem_map.2 ⟨c, List.mem_filter.2 ⟨hc, lastBy_isSome.2 h1⟩, rfl⟩
  · rintro ⟨h1, h2⟩
    refine ⟨h1, fun h3 => h2 ?_⟩
    obtain ⟨c, hc, rfl⟩ := List.mem_map.1 h3
    exact List.mem_map.2 ⟨c, (List.mem_filter.1 hc).1, rfl⟩

theorem nodup_removedTableNames (opt : DiffOption) : (removedTableNames opt).keys.Nodup :=
  StringSet.nodup_removeAll (nodup_ofList _)

theorem mem_removedTableNames {opt : DiffOption} {n : Str} :
    n ∈ (removedTableNames opt).keys ↔ n ∈ opt.diffFrom.tables.map (·.name) ∧
      n ∉ (opt.diffTo.tables.filter (passes opt.tableFilter)).map (·.name) := by
  rw [removedTableNames, StringSet.mem_removeAll, StringSet.mem_ofList]

theorem mem_keptTables {opt : DiffOption} {i : Nat} {t o : Table} :
    (i, t, o) ∈ keptTables opt ↔ opt.diffTo.tables[i]? = some t ∧ passes opt.tableFilter t = true ∧
      opt.diffFrom.tablesByName t.name = some o := by
  simp only [keptTables, List.mem_filterMap]
  constructor
  · rintro ⟨⟨t', i'⟩, h1, h2⟩
    split at h2
    · rename_i hp
      obtain ⟨o', h3, h4⟩ := Option.map_eq_some_iff.1 h2
      simp only [Prod.mk.injEq] at h4
      obtain ⟨rfl, rfl, rfl⟩ := h4
      refine ⟨?_, hp, h3⟩
      simpa [List.mem_zipIdx_iff_getElem?] using h1
    · cases h2
  · rintro ⟨h1, h2, h3⟩
    refine ⟨(t, i), by simpa [List.mem_zipIdx_iff_getElem?] using h1, ?_⟩
    simp [h2, h3]

theorem mem_addedTables {opt : DiffOption} {t : Table} :
    t ∈ addedTables opt ↔ t ∈ opt.diffTo.tables ∧ passes opt.tableFilter t = true ∧
      t.name ∉ opt.diffFrom.tables.map (·.name) := by
  simp only [addedTables, List.mem_filter, Bool.and_eq_true, Schema.tablesByName, lastBy_isNone]

/-! ### Changes for one table -/

/-- The changes reported for a table present in both versions. -/
def tableChanges (sched : List (Column × Column) → List (Column × Column)) (table oldTable : Table)
    (uc : Bool) (suffix : Str) : List Change := piecesChanges (tablePieces sched table oldTable uc suffix)

def columnChanges (table : Table) (c o : Column) (uc : Bool) : List Change :=
  piecesChanges (columnPieces table c o uc)

theorem piecesChanges_flatMap {α : Type} (l : List α) (f : α → Pieces) :
    piecesChanges (l.flatMap f) = l.flatMap (fun a => piecesChanges (f a)) := by
  simp [piecesChanges, List.flatMap_assoc]

theorem piecesChanges_map {α : Type} (l : List α) (f : α → Change) :
    piecesChanges (l.map (fun a => (true, [f a]))) = l.map f := by
  simp only [piecesChanges, List.flatMap_map, if_true]
  induction l with
  | nil => rfl
  | cons a l ih => simp [ih]

theorem columnChanges_eq (table : Table) (c o : Column) (uc : Bool) (h : c.name = o.name) :
    columnChanges table c o uc =
      (if c.type != o.type || c.size != o.size || c.scale != o.scale then
        [.changeColumnType table o c] else []) ++
      ((if uc && c.description != o.description then [.setColumnComment table c] else []) ++
      ((if c.notNull != o.notNull then [.setNotNull table c] else []) ++
      ((if c.autoIncremental != o.autoIncremental then [.setAutoIncrement table c] else []) ++
      (if c.defaultValue != o.defaultValue then [.setDefaultValue table c] else [])))) := by
  simp only [columnChanges, columnPieces, piecesChanges_append, piecesChanges_whenP]
  simp [h]

theorem tableChanges_eq (sched : List (Column × Column) → List (Column × Column)) (t o : Table)
    (uc : Bool) (suffix : Str) : tableChanges sched t o uc suffix =
  (if uc && t.description != o.description then [.setTableComment t] else []) ++
  ((keptColumns t o).flatMap (fun p => columnChanges t p.1 p.2 uc) ++
  ((if uniqueChanged t o && decide (o.uniqueKeyNameSet.size > 0) then
    [.dropUnique (t.name ++ suffix) o] else []) ++
  ((columnRenames t o uc).2.slice.map (fun n => .dropColumn t n) ++
  ((sched (renamedPairs (columnRenames t o uc).1)).map (fun p => .renameColumn t p.2 p.1) ++
  ((if !t.primaryKeyNameSet.equals o.primaryKeyNameSet then [.updatePrimaryKey o t] else []) ++
  (if uniqueChanged t o && decide (t.uniqueKeyNameSet.size > 0) then
    [.createUnique (t.name ++ suffix) t] else [])))))) := by
  have h : ∀ (x : List Column), piecesChanges (if x.length > 0 then
      [(false, x.map (Change.addColumn t))] else []) = [] := by
    intro x; split <;> simp [piecesChanges]
  simp only [tableChanges, tablePieces, piecesChanges_append, piecesChanges_whenP, piecesChanges_flatMap,
    piecesChanges_map, columnChanges, h, List.nil_append]

/-- All changes of a diff. -/
theorem allChanges_eq (opt : DiffOption) (sched : Sched) :
    allChanges (getDiff opt sched) =
      (keptTables opt).flatMap (fun e =>
        tableChanges (sched.columns e.1) e.2.1 e.2.2 opt.useComments opt.uniqueNameSuffix) ++
      (((tableRenames opt).2.slice.filterMap opt.diffFrom.tablesByName).map Change.dropTable ++
      ((sched.tables (renamedPairs (tableRenames opt).1)).flatMap
        (fun p => blockChanges (renameBlock opt.uniqueNameSuffix p)) ++
      (notRenamed (tableRenames opt).1).map Change.createTable)) := by
  have hsing : ∀ (l : List Table) (f : Table → Change),
      (l.map (fun t => ([(0, [f t])] : Block))).flatMap blockChanges = l.map f := by
    intro l f
    induction l with
    | nil => rfl
    | cons a l ih =>
      simp only [List.map_cons, List.flatMap_cons, ih]
      simp [blockChanges]
  have hfilter : ∀ (l : List Block), (l.filter (fun b => !b.isEmpty)).flatMap blockChanges =
      l.flatMap blockChanges := by
    intro l
    induction l with
    | nil => rfl
    | cons b l ih =>
      cases b with
      | nil => simpa [blockChanges] using ih
      | cons x b => simpa using ih
  rw [allChanges_getDiff, diffBlocks]
  simp only [List.flatMap_append, keptBlocks, hfilter, dropBlocks, renameBlocks, createBlocks, hsing,
    List.flatMap_map]
  congr 2
  funext e
  rw [tableBlock, blockChanges_toBlock, tableChanges]

theorem renameBlock_changes (suffix : Str) (p : Table × Table) :
    blockChanges (renameBlock suffix p) =
      (if p.2.uniqueKeyNameSet.size > 0 then [.dropUnique (p.2.name ++ suffix) p.2] else []) ++
      ([.renameTable p.2 p.1] ++
      (if p.1.uniqueKeyNameSet.size > 0 then [.createUnique (p.1.name ++ suffix) p.1] else [])) := by
  simp only [blockChanges, renameBlock, List.flatMap_append]
  split <;> split <;> simp

end Octo
