import Verif.Lemmas.DiffTables
import Verif.Spec.Diff

/-! Helper lemmas for the property theorems of package `format/diff`. -/

namespace Octo
open Spec

theorem changesOf_eq (r : List ChangeSet) : changesOf r = allChanges r := rfl

/-- The identity schedule. -/
def idSched : Sched := ⟨id, fun _ => id⟩

theorem idSched_fair : idSched.Fair := ⟨fun _ => .refl _, fun _ _ => .refl _⟩

theorem findRenames_nil {α : Type} (get : Str → Option α) (m : α → α → Bool) (r : StringSet) :
    findRenames get m [] r = ([], r) := rfl

theorem set_eq_empty {s : StringSet} (h : ∀ n, n ∉ s.keys) : s = ⟨[]⟩ := by
  cases s with
  | mk k => simp only [StringSet.mk.injEq]; exact List.eq_nil_iff_forall_not_mem.2 h

theorem addedColumns_self (t : Table) : addedColumns t t = [] := by
  apply List.eq_nil_iff_forall_not_mem.2
  intro c hc
  obtain ⟨h1, h2⟩ := mem_addedColumns.1 hc
  exact h2 (List.mem_map_of_mem h1)

theorem removedNames_self (t : Table) : removedNames t t = ⟨[]⟩ :=
  set_eq_empty fun _ h => (mem_removedNames.1 h).2 (mem_removedNames.1 h).1

theorem columnPieces_self (t : Table) (c : Column) (uc : Bool) : columnPieces t c c uc = [] := by
  simp [columnPieces, whenP]

theorem tablePieces_self (sched : List (Column × Column) → List (Column × Column)) (hs : ∀ l, (sched l).Perm l)
    (t : Table) (uc : Bool) (suffix : Str) (hn : (t.columns.map (·.name)).Nodup) :
    tablePieces sched t t uc suffix = [] := by
  have hk : (keptColumns t t).flatMap (fun p => columnPieces t p.1 p.2 uc) = [] := by
    rw [List.flatMap_eq_nil_iff]
    intro p hp
    obtain ⟨h1, h2⟩ := mem_keptColumns.1 hp
    rw [Table.columnNameMap, lastBy_nodup hn h1, Option.some.injEq] at h2
    rw [← h2]; exact columnPieces_self _ _ _
  have hr : columnRenames t t uc = ([], ⟨[]⟩) := by
    rw [columnRenames, addedColumns_self, removedNames_self]; rfl
  have hu : uniqueChanged t t = false := (uniqueChanged_iff t t).2 fun _ => Iff.rfl
  have hp : t.primaryKeyNameSet.equals t.primaryKeyNameSet = true := (primaryChanged_iff t t).2 fun _ => Iff.rfl
  have hsn : sched [] = [] := List.Perm.eq_nil (hs [])
  simp only [tablePieces, hk, hr, hu, hp, renamedPairs, notRenamed, List.filterMap_nil, hsn]
  simp [whenP, StringSet.slice, StringSet.sliceOrd, sortStrings]

theorem version_inj {a b : ChangeSetID} (h : a.version = b.version) : a = b := by
  obtain ⟨M, m⟩ := a
  obtain ⟨N, n⟩ := b
  have hd : ∀ k, '-' ∉ itoa k := fun k => not_mem_itoa (by decide) k
  have key : ∀ (x y : Nat) (s : Str), itoa x = itoa y ++ "-"ₛ ++ s → False := by
    intro x y s e
    apply hd x; rw [e]; simp
  simp only [ChangeSetID.version] at h
  split at h <;> split at h
  · rename_i h1 h2; rw [itoa_inj h, ChangeSetID.mk.injEq]; exact ⟨rfl, h1.trans h2.symm⟩
  · exact (key _ _ _ h).elim
  · exact (key _ _ _ h.symm).elim
  · have h' := congrArg (splitN2 '-') h
    have e : ∀ x y, itoa x ++ "-"ₛ ++ itoa y = itoa x ++ '-' :: itoa y := by intro x y; simp
    simp only [e, splitN2_append_sep (hd _), Prod.mk.injEq, Option.some.injEq] at h'
    rw [itoa_inj h'.1, itoa_inj h'.2]

/-- The numbers of a block increase. -/
theorem toBlock_minors (k : Nat) (ps : Pieces) :
    (∀ p ∈ toBlock k ps, k < p.1) ∧ ((toBlock k ps).map Prod.fst).Nodup := by
  induction ps generalizing k with
  | nil => simp [toBlock]
  | cons p ps ih =>
    obtain ⟨e, cs⟩ := p
    obtain ⟨h1, h2⟩ := ih (k + 1)
    cases e
    · simp only [toBlock, Bool.false_eq_true, if_false]
      exact ⟨fun p hp => by have := h1 p hp; omega, h2⟩
    · simp only [toBlock, if_true, List.map_cons, List.nodup_cons]
      refine ⟨?_, ?_, h2⟩
      · intro p hp
        rcases List.mem_cons.1 hp with rfl | hp
        · simp
        · have := h1 p hp; omega
      · intro hm
        obtain ⟨q, hq, e⟩ := List.mem_map.1 hm
        have := h1 q hq; omega

theorem number_ids (author : Str) (m : Nat) (bs : List Block) (h : ∀ b ∈ bs, (b.map Prod.fst).Nodup) :
    ((number author m bs).map (·.id)).Nodup ∧
    ∀ c ∈ number author m bs, ∃ M n, m ≤ M ∧ c.id = (ChangeSetID.mk M n).version := by
  induction bs generalizing m with
  | nil => simp [number]
  | cons b bs ih =>
    obtain ⟨h1, h2⟩ := ih (m + 1) (fun b hb => h b (List.mem_cons_of_mem _ hb))
    have hb := h b List.mem_cons_self
    have hst : ∀ c ∈ stamp author m b, ∃ n, c.id = (ChangeSetID.mk m n).version := by
      intro c hc
      obtain ⟨p, _, rfl⟩ := List.mem_map.1 hc
      exact ⟨p.1, rfl⟩
    refine ⟨?_, ?_⟩
    · rw [number, List.map_append, List.nodup_append]
      refine ⟨?_, h1, ?_⟩
      · have : (stamp author m b).map (·.id) =
            (b.map Prod.fst).map (fun n => (ChangeSetID.mk m n).version) := by
          simp [stamp]
        rw [this]
        refine List.Nodup.map ?_ hb
        intro x y e
        have := version_inj e
        simpa using this
      · intro x hx y hy e
        obtain ⟨c, hc, rfl⟩ := List.mem_map.1 hx
        obtain ⟨d, hd, rfl⟩ := List.mem_map.1 hy
        obtain ⟨n, hn⟩ := hst c hc
        obtain ⟨M, n', hM, hn'⟩ := h2 d hd
        have : ChangeSetID.mk m n = ChangeSetID.mk M n' := version_inj (by rw [← hn, ← hn', e])
        simp only [ChangeSetID.mk.injEq] at this
        omega
    · intro c hc
      rcases List.mem_append.1 (by simpa [number] using hc) with hc | hc
      · obtain ⟨n, hn⟩ := hst c hc
        exact ⟨m, n, le_refl _, hn⟩
      · obtain ⟨M, n, hM, hn⟩ := h2 c hc
        exact ⟨M, n, by omega, hn⟩

theorem diffBlocks_nodup (opt : DiffOption) (sched : Sched) :
    ∀ b ∈ diffBlocks opt sched, (b.map Prod.fst).Nodup := by
  intro b hb
  simp only [diffBlocks, List.mem_append] at hb
  rcases hb with hb | hb | hb | hb
  · obtain ⟨e, _, rfl⟩ := List.mem_map.1 (List.mem_filter.1 hb).1
    exact (toBlock_minors _ _).2
  · obtain ⟨e, _, rfl⟩ := List.mem_map.1 hb; simp
  · obtain ⟨e, _, rfl⟩ := List.mem_map.1 hb
    simp only [renameBlock]
    split <;> split <;> simp
  · obtain ⟨e, _, rfl⟩ := List.mem_map.1 hb; simp

theorem mem_tableChanges {sched : List (Column × Column) → List (Column × Column)}
    {t o : Table} {uc : Bool} {suffix : Str} {c : Change} (hc : c ∈ tableChanges sched t o uc suffix) :
    (uc = true ∧ t.description ≠ o.description ∧ c = .setTableComment t) ∨
    (∃ p ∈ keptColumns t o, c ∈ columnChanges t p.1 p.2 uc) ∨
    (uniqueChanged t o = true ∧ o.uniqueKeyNameSet.size > 0 ∧ c = .dropUnique (t.name ++ suffix) o) ∨
    (∃ n ∈ (columnRenames t o uc).2.keys, c = .dropColumn t n) ∨
    (∃ p ∈ sched (renamedPairs (columnRenames t o uc).1), c = .renameColumn t p.2 p.1) ∨
    (t.primaryKeyNameSet.equals o.primaryKeyNameSet = false ∧ c = .updatePrimaryKey o t) ∨
    (uniqueChanged t o = true ∧ t.uniqueKeyNameSet.size > 0 ∧ c = .createUnique (t.name ++ suffix) t) := by
  rw [tableChanges_eq] at hc
  simp only [List.mem_append] at hc
  rcases hc with hc | hc | hc | hc | hc | hc | hc
  · split at hc
    · rename_i h; simp only [Bool.and_eq_true, bne_iff_ne] at h
      exact Or.inl ⟨h.1, h.2, by simpa using hc⟩
    · simp at hc
  · obtain ⟨p, hp, h⟩ := List.mem_flatMap.1 hc
    exact Or.inr (Or.inl ⟨p, hp, h⟩)
  · split at hc
    · rename_i h; simp only [Bool.and_eq_true, decide_eq_true_eq] at h
      exact Or.inr (Or.inr (Or.inl ⟨h.1, h.2, by simpa using hc⟩))
    · simp at hc
  · obtain ⟨n, hn, rfl⟩ := List.mem_map.1 hc
    exact Or.inr (Or.inr (Or.inr (Or.inl ⟨n, mem_slice.1 hn, rfl⟩)))
  · obtain ⟨p, hp, rfl⟩ := List.mem_map.1 hc
    exact Or.inr (Or.inr (Or.inr (Or.inr (Or.inl ⟨p, hp, rfl⟩))))
  · split at hc
    · rename_i h
      exact Or.inr (Or.inr (Or.inr (Or.inr (Or.inr (Or.inl ⟨by simpa using h, by simpa using hc⟩)))))
    · simp at hc
  · split at hc
    · rename_i h; simp only [Bool.and_eq_true, decide_eq_true_eq] at h
      exact Or.inr (Or.inr (Or.inr (Or.inr (Or.inr (Or.inr ⟨h.1, h.2, by simpa using hc⟩)))))
    · simp at hc

theorem mem_columnChanges {t : Table} {a b : Column} {uc : Bool} {c : Change} (hn : a.name = b.name)
    (hc : c ∈ columnChanges t a b uc) :
    c = .changeColumnType t b a ∨ c = .setColumnComment t a ∨ c = .setNotNull t a ∨
      c = .setAutoIncrement t a ∨ c = .setDefaultValue t a := by
  rw [columnChanges_eq _ _ _ _ hn] at hc
  simp only [List.mem_append] at hc
  rcases hc with hc | hc | hc | hc | hc <;> (split at hc <;> simp at hc) <;> simp [hc]

theorem keptColumns_name {t o : Table} {p : Column × Column} (hp : p ∈ keptColumns t o) :
    p.1.name = p.2.name := by
  obtain ⟨_, h2⟩ := mem_keptColumns.1 hp
  exact (lastBy_some h2).2.symm

theorem tableChanges_inside {sched : List (Column × Column) → List (Column × Column)}
    {t o : Table} {uc : Bool} {suffix : Str} (hn : o.name = t.name) :
    ∀ c ∈ tableChanges sched t o uc suffix, insideTable c = true ∧ c.depTable.name = t.name := by
  intro c hc
  rcases mem_tableChanges hc with ⟨_, _, rfl⟩ | ⟨p, hp, hc⟩ | ⟨_, _, rfl⟩ | ⟨n, _, rfl⟩ | ⟨p, _, rfl⟩ |
    ⟨_, rfl⟩ | ⟨_, _, rfl⟩
  · exact ⟨rfl, rfl⟩
  · rcases mem_columnChanges (keptColumns_name hp) hc with rfl | rfl | rfl | rfl | rfl <;> exact ⟨rfl, rfl⟩
  all_goals first | exact ⟨rfl, rfl⟩ | exact ⟨rfl, hn⟩

theorem filterMap_eq_nil_of {α β : Type} {f : α → Option β} {l : List α} (h : ∀ a ∈ l, f a = none) :
    l.filterMap f = [] := List.filterMap_eq_nil_iff.2 h

/-- The kept part of the diff has no changes of whole tables. -/
theorem kept_inside (opt : DiffOption) (sched : Sched) :
    ∀ c ∈ (keptTables opt).flatMap (fun e =>
      tableChanges (sched.columns e.1) e.2.1 e.2.2 opt.useComments opt.uniqueNameSuffix),
      insideTable c = true ∧ ∃ i t o, (i, t, o) ∈ keptTables opt ∧ c.depTable.name = t.name := by
  intro c hc
  obtain ⟨⟨i, t, o⟩, he, hc⟩ := List.mem_flatMap.1 hc
  obtain ⟨_, _, h3⟩ := mem_keptTables.1 he
  have := tableChanges_inside (lastBy_some h3).2 c hc
  exact ⟨this.1, i, t, o, he, this.2⟩

theorem droppedTables_diff (opt : DiffOption) (sched : Sched) :
    droppedTables (changesOf (getDiff opt sched)) =
      (tableRenames opt).2.slice.filterMap opt.diffFrom.tablesByName := by
  rw [changesOf_eq, allChanges_eq, droppedTables]
  simp only [List.filterMap_append]
  rw [filterMap_eq_nil_of (l := (keptTables opt).flatMap _)]
  · rw [filterMap_eq_nil_of (l := (sched.tables _).flatMap _), filterMap_eq_nil_of (l := (notRenamed _).map _)]
    · simp [List.filterMap_map]
    · intro c hc; obtain ⟨t, _, rfl⟩ := List.mem_map.1 hc; rfl
    · intro c hc
      obtain ⟨p, _, hc⟩ := List.mem_flatMap.1 hc
      rw [renameBlock_changes] at hc
      simp only [List.mem_append] at hc
      rcases hc with hc | hc | hc
      · split at hc <;> simp at hc; subst hc; rfl
      · simp at hc; subst hc; rfl
      · split at hc <;> simp at hc; subst hc; rfl
  · intro c hc
    have := (kept_inside opt sched c hc).1
    cases c <;> first | rfl | simp [insideTable] at this

theorem createdTables_diff (opt : DiffOption) (sched : Sched) :
    createdTables (changesOf (getDiff opt sched)) = notRenamed (tableRenames opt).1 := by
  rw [changesOf_eq, allChanges_eq, createdTables]
  simp only [List.filterMap_append]
  rw [filterMap_eq_nil_of (l := (keptTables opt).flatMap _)]
  · rw [filterMap_eq_nil_of (l := (sched.tables _).flatMap _), filterMap_eq_nil_of (l := (List.filterMap _ _).map _)]
    · simp [List.filterMap_map]
    · intro c hc; obtain ⟨t, _, rfl⟩ := List.mem_map.1 hc; rfl
    · intro c hc
      obtain ⟨p, _, hc⟩ := List.mem_flatMap.1 hc
      rw [renameBlock_changes] at hc
      simp only [List.mem_append] at hc
      rcases hc with hc | hc | hc
      · split at hc <;> simp at hc; subst hc; rfl
      · simp at hc; subst hc; rfl
      · split at hc <;> simp at hc; subst hc; rfl
  · intro c hc
    have := (kept_inside opt sched c hc).1
    cases c <;> first | rfl | simp [insideTable] at this

theorem tableRenamings_diff (opt : DiffOption) (sched : Sched) :
    tableRenamings (changesOf (getDiff opt sched)) =
      (sched.tables (renamedPairs (tableRenames opt).1)).map (fun p => (p.2, p.1)) := by
  rw [changesOf_eq, allChanges_eq, tableRenamings]
  simp only [List.filterMap_append]
  rw [filterMap_eq_nil_of (l := (keptTables opt).flatMap _)]
  · rw [filterMap_eq_nil_of (l := (notRenamed _).map _), filterMap_eq_nil_of (l := (List.filterMap _ _).map _)]
    · simp only [List.nil_append, List.append_nil]
      generalize sched.tables (renamedPairs (tableRenames opt).1) = l
      induction l with
      | nil => rfl
      | cons p l ih =>
        rw [List.flatMap_cons, List.filterMap_append, ih, List.map_cons, renameBlock_changes]
        split <;> split <;> rfl
    · intro c hc; obtain ⟨t, _, rfl⟩ := List.mem_map.1 hc; rfl
    · intro c hc; obtain ⟨t, _, rfl⟩ := List.mem_map.1 hc; rfl
  · intro c hc
    have := (kept_inside opt sched c hc).1
    cases c <;> first | rfl | simp [insideTable] at this

theorem renamedPairs_source {opt : DiffOption} {p : Table × Table}
    (hp : p ∈ renamedPairs (tableRenames opt).1) :
    p.1 ∈ addedTables opt ∧ p.1.columns = p.2.columns ∧ p.2.name ∈ (removedTableNames opt).keys ∧
      opt.diffFrom.tablesByName p.2.name = some p.2 := by
  obtain ⟨h1, h2, n, h3, h4⟩ := findRenames_match _ _ _ _ p hp
  have hn := (lastBy_some h4).2
  exact ⟨h1, by simpa using h2, hn ▸ h3, hn ▸ h4⟩

theorem isRenamed_iff (a b : Column) (uc : Bool) : a.isRenamed b (!uc) = true ↔ SameShape uc a b := by
  simp only [Column.isRenamed, Bool.and_eq_true, beq_iff_eq, Bool.or_eq_true, Bool.not_eq_true']
  constructor
  · rintro ⟨⟨⟨⟨⟨⟨⟨⟨⟨h1, h2⟩, h3⟩, h4⟩, h5⟩, h6⟩, h7⟩, h8⟩, h9⟩, h10⟩
    exact ⟨h1, h3, h4, h5, h6, h7, h8, h9, h10, fun h => h2.resolve_left (by simp [h])⟩
  · intro h
    refine ⟨⟨⟨⟨⟨⟨⟨⟨⟨h.type, ?_⟩, h.size⟩, h.scale⟩, h.notNull⟩, h.primaryKey⟩, h.uniqueKey⟩,
      h.autoIncremental⟩, h.defaultValue⟩, h.onUpdate⟩
    cases uc
    · exact Or.inl rfl
    · exact Or.inr (h.description rfl)

theorem columnPairs_spec {t o : Table} {uc : Bool} {p : Column × Column}
    (hp : p ∈ renamedPairs (columnRenames t o uc).1) :
    p.1 ∈ t.columns ∧ p.1.name ∉ o.columns.map (·.name) ∧ p.2 ∈ o.columns ∧
      p.2.name ∉ t.columns.map (·.name) ∧ o.columnNameMap p.2.name = some p.2 ∧ SameShape uc p.1 p.2 := by
  obtain ⟨h1, h2, n, h3, h4⟩ := findRenames_match _ _ _ _ p hp
  obtain ⟨h5, h6⟩ := mem_addedColumns.1 h1
  obtain ⟨h7, h8⟩ := lastBy_some h4
  obtain ⟨_, h10⟩ := mem_removedNames.1 h3
  subst h8
  exact ⟨h5, h6, h7, h10, h4, (isRenamed_iff _ _ _).1 h2⟩

theorem changesOf_diffTable (sched : List (Column × Column) → List (Column × Column)) (author : Str)
    (t o : Table) (uc : Bool) (suffix : Str) (id : ChangeSetID) :
    changesOf (diffTable sched author t o uc suffix id).out = tableChanges sched t o uc suffix := by
  rw [diffTable_eq, runPieces_eq, tableChanges, ← blockChanges_toBlock id.minor]
  simp [changesOf, stamp, blockChanges, List.flatMap_map]

theorem columnChanges_none {β : Type} (f : Change → Option β) {t o : Table} {uc : Bool}
    (h1 : ∀ b a, f (.changeColumnType t b a) = none) (h2 : ∀ a, f (.setColumnComment t a) = none)
    (h3 : ∀ a, f (.setNotNull t a) = none) (h4 : ∀ a, f (.setAutoIncrement t a) = none)
    (h5 : ∀ a, f (.setDefaultValue t a) = none) :
    ((keptColumns t o).flatMap (fun p => columnChanges t p.1 p.2 uc)).filterMap f = [] := by
  apply filterMap_eq_nil_of
  intro c hc
  obtain ⟨p, hp, hc⟩ := List.mem_flatMap.1 hc
  rcases mem_columnChanges (keptColumns_name hp) hc with rfl | rfl | rfl | rfl | rfl
  · exact h1 _ _
  · exact h2 _
  · exact h3 _
  · exact h4 _
  · exact h5 _

theorem filterMap_ite {α β : Type} (f : α → Option β) (b : Bool) (l : List α) (h : ∀ a ∈ l, f a = none) :
    (if b then l else []).filterMap f = [] := by
  cases b
  · rfl
  · exact filterMap_eq_nil_of h

theorem droppedColumns_tableChanges (sched : List (Column × Column) → List (Column × Column))
    (t o : Table) (uc : Bool) (suffix : Str) :
    droppedColumns (tableChanges sched t o uc suffix) = (columnRenames t o uc).2.slice := by
  rw [tableChanges_eq, droppedColumns]
  simp only [List.filterMap_append]
  rw [columnChanges_none _ (fun _ _ => rfl) (fun _ => rfl) (fun _ => rfl) (fun _ => rfl) (fun _ => rfl),
    filterMap_ite _ _ _ (by simp), filterMap_ite _ _ _ (by simp), filterMap_ite _ _ _ (by simp),
    filterMap_ite _ _ _ (by simp)]
  simp [List.filterMap_map]

theorem columnRenamings_tableChanges (sched : List (Column × Column) → List (Column × Column))
    (t o : Table) (uc : Bool) (suffix : Str) :
    columnRenamings (tableChanges sched t o uc suffix) =
      (sched (renamedPairs (columnRenames t o uc).1)).map (fun p => (p.2, p.1)) := by
  rw [tableChanges_eq, columnRenamings]
  simp only [List.filterMap_append]
  rw [columnChanges_none _ (fun _ _ => rfl) (fun _ => rfl) (fun _ => rfl) (fun _ => rfl) (fun _ => rfl),
    filterMap_ite _ _ _ (by simp), filterMap_ite _ _ _ (by simp), filterMap_ite _ _ _ (by simp),
    filterMap_ite _ _ _ (by simp)]
  simp [List.filterMap_map]

theorem perm_flatMap_left {α β : Type} {l m : List α} (f : α → List β) (h : l.Perm m) :
    (l.flatMap f).Perm (m.flatMap f) := h.flatMap_right f

theorem perm_short {α : Type} {l m : List α} (h : l.Perm m) (hl : m.length ≤ 1) : l = m := by
  match m, hl with
  | [], _ => exact h.eq_nil
  | [a], _ => exact h.eq_singleton

/-- A second schedule: reverse order. -/
def revSched : Sched := ⟨List.reverse, fun _ => List.reverse⟩

theorem revSched_fair : revSched.Fair := ⟨fun _ => List.reverse_perm _, fun _ _ => List.reverse_perm _⟩

theorem mem_allChanges {opt : DiffOption} {sched : Sched} {c : Change}
    (h : c ∈ changesOf (getDiff opt sched)) :
    (∃ i t o, (i, t, o) ∈ keptTables opt ∧
      c ∈ tableChanges (sched.columns i) t o opt.useComments opt.uniqueNameSuffix) ∨
    (∃ t, c = .dropTable t) ∨ (∃ n t, c = .dropUnique n t) ∨ (∃ o n, c = .renameTable o n) ∨
    (∃ n t, c = .createUnique n t) ∨ (∃ t, c = .createTable t) := by
  rw [changesOf_eq, allChanges_eq] at h
  simp only [List.mem_append] at h
  rcases h with h | h | h | h
  · obtain ⟨⟨i, t, o⟩, he, hc⟩ := List.mem_flatMap.1 h
    exact Or.inl ⟨i, t, o, he, hc⟩
  · obtain ⟨t, _, rfl⟩ := List.mem_map.1 h; exact Or.inr (Or.inl ⟨t, rfl⟩)
  · obtain ⟨p, _, hc⟩ := List.mem_flatMap.1 h
    rw [renameBlock_changes] at hc
    simp only [List.mem_append] at hc
    rcases hc with hc | hc | hc
    · split at hc <;> simp at hc
      exact Or.inr (Or.inr (Or.inl ⟨_, _, hc⟩))
    · simp at hc; exact Or.inr (Or.inr (Or.inr (Or.inl ⟨_, _, hc⟩)))
    · split at hc <;> simp at hc
      exact Or.inr (Or.inr (Or.inr (Or.inr (Or.inl ⟨_, _, hc⟩))))
  · obtain ⟨t, _, rfl⟩ := List.mem_map.1 h
    exact Or.inr (Or.inr (Or.inr (Or.inr (Or.inr ⟨t, rfl⟩))))

theorem shapeKey_iff (uc : Bool) (a b : Column) : shapeKey uc a = shapeKey uc b ↔ SameShape uc a b := by
  constructor
  · intro h
    simp only [shapeKey, Column.mk.injEq] at h
    obtain ⟨_, h2, h3, h4, h5, h6, h7, h8, h9, h10, h11, _, _⟩ := h
    exact ⟨h2, h4, h5, h6, h7, h8, h9, h10, h11, fun hu => by simpa [hu] using h3⟩
  · intro h
    simp only [shapeKey, Column.mk.injEq]
    refine ⟨trivial, h.type, ?_, h.size, h.scale, h.notNull, h.primaryKey, h.uniqueKey, h.autoIncremental,
      h.defaultValue, h.onUpdate, trivial, trivial⟩
    cases uc
    · rfl
    · simpa using h.description rfl

theorem removedNames_columns {t o : Table} (ho : (o.columns.map (·.name)).Nodup) :
    ((removedNames t o).keys.filterMap o.columnNameMap).Perm
      (o.columns.filter (fun c => decide (c.name ∉ t.columns.map (·.name)))) := by
  have hnd1 : ((removedNames t o).keys.filterMap o.columnNameMap).Nodup := by
    refine List.Nodup.filterMap ?_ (nodup_removedNames t o)
    intro a a' b hb hb'
    rw [Option.mem_def] at hb hb'
    rw [← (lastBy_some hb).2, ← (lastBy_some hb').2]
  rw [List.perm_ext_iff_of_nodup hnd1 ((List.Nodup.of_map _ ho).filter _)]
  intro c
  rw [List.mem_filterMap, List.mem_filter, decide_eq_true_eq]
  constructor
  · rintro ⟨n, hn, hc⟩
    obtain ⟨h1, h2⟩ := lastBy_some hc
    subst h2
    exact ⟨h1, (mem_removedNames.1 hn).2⟩
  · rintro ⟨h1, h2⟩
    exact ⟨c.name, mem_removedNames.2 ⟨List.mem_map_of_mem h1, h2⟩, lastBy_nodup ho h1⟩

theorem notRenamed_nil_of {t o : Table} {uc : Bool} (ho : (o.columns.map (·.name)).Nodup)
    (h : NoNetAdditions uc t o) : notRenamed (columnRenames t o uc).1 = [] := by
  refine findRenames_all _ _ (shapeKey uc) (fun a b => by rw [isRenamed_iff, shapeKey_iff]) _ _
    (nodup_removedNames t o) ?_
  intro k
  rw [((removedNames_columns ho).map _).count_eq]
  refine le_trans (le_of_eq ?_) (h k)
  congr 2
  apply List.filter_congr
  intro c _
  rw [Bool.eq_iff_iff, Table.columnNameMap, lastBy_isNone, decide_eq_true_eq]

theorem columnChanges_reshapes {t o : Table} {uc : Bool} :
    ∀ c ∈ (keptColumns t o).flatMap (fun p => columnChanges t p.1 p.2 uc), reshapes c = false ∧
      (∀ n x, c ≠ .dropUnique n x) ∧ (∀ n x, c ≠ .createUnique n x) := by
  intro c hc
  obtain ⟨p, hp, hc⟩ := List.mem_flatMap.1 hc
  rcases mem_columnChanges (keptColumns_name hp) hc with rfl | rfl | rfl | rfl | rfl <;> simp [reshapes]

theorem columnChanges_mentions {t : Table} {a b : Column} {uc : Bool} {c : Change} (hn : a.name = b.name)
    (hc : c ∈ columnChanges t a b uc) (x : Column) (y : Column) (hn' : x.name = y.name)
    (hx : c ∈ columnChanges t x y uc) : a = x := by
  rcases mem_columnChanges hn hc with rfl | rfl | rfl | rfl | rfl <;>
    rcases mem_columnChanges hn' hx with h | h | h | h | h <;> cases h <;> rfl

end Octo
