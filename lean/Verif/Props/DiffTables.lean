import Verif.Props.Diff

/-! Property theorems C28, C29 and C31-C33: the schema diff. -/

namespace Octo
open Spec

/-! ## C28 – iteration order -/

/-- C28: two runs on the same input report the same changes. -/
theorem C28_same_changes (opt : DiffOption) (s1 s2 : Sched) (h1 : s1.Fair) (h2 : s2.Fair) :
    (changesOf (getDiff opt s1)).Perm (changesOf (getDiff opt s2)) := by
  simp only [changesOf_eq, allChanges_eq]
  refine List.Perm.append ?_ (List.Perm.append_left _ (List.Perm.append_right _ ?_))
  · refine List.Perm.flatMap_left _ ?_
    rintro ⟨i, t, o⟩ _
    simp only [tableChanges_eq]
    refine List.Perm.append_left _ (List.Perm.append_left _ (List.Perm.append_left _
      (List.Perm.append_left _ (List.Perm.append_right _ ?_))))
    exact ((h1.2 i _).trans (h2.2 i _).symm).map _
  · exact perm_flatMap_left _ ((h1.1 _).trans (h2.1 _).symm)

/-- C28: the only freedom between two runs is the order of the column renames inside a table (a
contiguous run of changes) and the order of the table-rename blocks. -/
theorem C28_up_to_renames (opt : DiffOption) (s1 s2 : Sched) (h1 : s1.Fair) (h2 : s2.Fair) :
    ∃ (tabs : List (List Change × List Change × List Change × List Change))
      (drops creates : List Change) (blocks1 blocks2 : List (List Change)),
      (∀ q ∈ tabs, q.2.1.Perm q.2.2.1 ∧ ∀ c ∈ q.2.1, ∃ t o n, c = .renameColumn t o n) ∧
      blocks1.Perm blocks2 ∧
      (∀ b ∈ blocks1, ∃ o n, b =
        (if o.uniqueKeyNameSet.size > 0 then [.dropUnique (o.name ++ opt.uniqueNameSuffix) o] else []) ++
        [.renameTable o n] ++
        (if n.uniqueKeyNameSet.size > 0 then [.createUnique (n.name ++ opt.uniqueNameSuffix) n] else [])) ∧
      changesOf (getDiff opt s1) =
        tabs.flatMap (fun q => q.1 ++ q.2.1 ++ q.2.2.2) ++ drops ++ blocks1.flatten ++ creates ∧
      changesOf (getDiff opt s2) =
        tabs.flatMap (fun q => q.1 ++ q.2.2.1 ++ q.2.2.2) ++ drops ++ blocks2.flatten ++ creates := by
  let pre : Table → Table → List Change := fun t o =>
    (if opt.useComments && t.description != o.description then [.setTableComment t] else []) ++
    ((keptColumns t o).flatMap (fun p => columnChanges t p.1 p.2 opt.useComments) ++
    ((if uniqueChanged t o && decide (o.uniqueKeyNameSet.size > 0) then
      [.dropUnique (t.name ++ opt.uniqueNameSuffix) o] else []) ++
    (columnRenames t o opt.useComments).2.slice.map (fun n => .dropColumn t n)))
  let post : Table → Table → List Change := fun t o =>
    (if !t.primaryKeyNameSet.equals o.primaryKeyNameSet then [.updatePrimaryKey o t] else []) ++
    (if uniqueChanged t o && decide (t.uniqueKeyNameSet.size > 0) then
      [.createUnique (t.name ++ opt.uniqueNameSuffix) t] else [])
  let ren : Sched → Nat × Table × Table → List Change := fun s e =>
    (s.columns e.1 (renamedPairs (columnRenames e.2.1 e.2.2 opt.useComments).1)).map
      (fun p => .renameColumn e.2.1 p.2 p.1)
  have hsplit : ∀ (s : Sched) e, tableChanges (s.columns e.1) e.2.1 e.2.2 opt.useComments opt.uniqueNameSuffix =
      pre e.2.1 e.2.2 ++ ren s e ++ post e.2.1 e.2.2 := by
    intro s e; rw [tableChanges_eq]; simp only [pre, post, ren, List.append_assoc]
  refine ⟨(keptTables opt).map (fun e => (pre e.2.1 e.2.2, ren s1 e, ren s2 e, post e.2.1 e.2.2)),
    ((tableRenames opt).2.slice.filterMap opt.diffFrom.tablesByName).map Change.dropTable,
    (notRenamed (tableRenames opt).1).map Change.createTable,
    (s1.tables (renamedPairs (tableRenames opt).1)).map (fun p => blockChanges (renameBlock opt.uniqueNameSuffix p)),
    (s2.tables (renamedPairs (tableRenames opt).1)).map (fun p => blockChanges (renameBlock opt.uniqueNameSuffix p)),
    ?_, ?_, ?_, ?_, ?_⟩
  · intro q hq
    obtain ⟨e, _, rfl⟩ := List.mem_map.1 hq
    refine ⟨((h1.2 _ _).trans (h2.2 _ _).symm).map _, ?_⟩
    intro c hc
    obtain ⟨p, _, rfl⟩ := List.mem_map.1 hc
    exact ⟨_, _, _, rfl⟩
  · exact ((h1.1 _).trans (h2.1 _).symm).map _
  · intro b hb
    obtain ⟨p, _, rfl⟩ := List.mem_map.1 hb
    exact ⟨p.2, p.1, by rw [renameBlock_changes, List.append_assoc]⟩
  · simp only [changesOf_eq, allChanges_eq, hsplit, List.append_assoc, List.flatMap_def, List.map_map]; rfl
  · simp only [changesOf_eq, allChanges_eq, hsplit, List.append_assoc, List.flatMap_def, List.map_map]; rfl

/-- C28: with at most one table rename, and at most one column rename per table, two runs give the
same result, ids included. -/
theorem C28_identical (opt : DiffOption) (s1 s2 : Sched) (h1 : s1.Fair) (h2 : s2.Fair)
    (ht : (tableRenamings (changesOf (getDiff opt s1))).length ≤ 1)
    (hc : ∀ t ∈ opt.diffTo.tables, (columnRenamings ((changesOf (getDiff opt s1)).filter
      (fun c => c.depTable == t))).length ≤ 1) :
    getDiff opt s1 = getDiff opt s2 := by
  have e1 : ∀ s : Sched, s.Fair →
      s.tables (renamedPairs (tableRenames opt).1) = renamedPairs (tableRenames opt).1 := by
    intro s hs
    refine perm_short (hs.1 _) ?_
    rw [tableRenamings_diff, List.length_map, (h1.1 _).length_eq] at ht
    exact ht
  have e2 : ∀ s : Sched, s.Fair → ∀ i t o, (i, t, o) ∈ keptTables opt →
      s.columns i (renamedPairs (columnRenames t o opt.useComments).1) =
        renamedPairs (columnRenames t o opt.useComments).1 := by
    intro s hs i t o he
    refine perm_short (hs.2 i _) ?_
    have ht := List.mem_of_getElem? (mem_keptTables.1 he).1
    refine le_trans ?_ (hc t ht)
    rw [← (h1.2 i _).length_eq]
    rw [changesOf_eq, allChanges_eq]
    let f : Change → Option (Column × Column) := fun | .renameColumn _ o n => some (o, n) | _ => none
    have hsub : ((s1.columns i (renamedPairs (columnRenames t o opt.useComments).1)).map
        (fun p => Change.renameColumn t p.2 p.1)).Sublist
        (((keptTables opt).flatMap (fun e => tableChanges (s1.columns e.1) e.2.1 e.2.2 opt.useComments
          opt.uniqueNameSuffix) ++
      (((tableRenames opt).2.slice.filterMap opt.diffFrom.tablesByName).map Change.dropTable ++
      ((s1.tables (renamedPairs (tableRenames opt).1)).flatMap
        (fun p => blockChanges (renameBlock opt.uniqueNameSuffix p)) ++
      (notRenamed (tableRenames opt).1).map Change.createTable))).filter (fun c => c.depTable == t)) := by
      have hall : ((s1.columns i (renamedPairs (columnRenames t o opt.useComments).1)).map
        (fun p => Change.renameColumn t p.2 p.1)).filter (fun c => c.depTable == t) =
        ((s1.columns i (renamedPairs (columnRenames t o opt.useComments).1)).map
        (fun p => Change.renameColumn t p.2 p.1)) := by
        rw [List.filter_eq_self]
        intro c hc
        obtain ⟨p, _, rfl⟩ := List.mem_map.1 hc
        simp [Change.depTable]
      rw [← hall]
      refine List.Sublist.filter _ (List.Sublist.trans ?_ (List.sublist_append_left _ _))
      have h3 : (tableChanges (s1.columns i) t o opt.useComments opt.uniqueNameSuffix).Sublist
          ((keptTables opt).flatMap (fun e => tableChanges (s1.columns e.1) e.2.1 e.2.2 opt.useComments
          opt.uniqueNameSuffix)) := by
        rw [List.flatMap_def]
        exact List.sublist_flatten_of_mem (List.mem_map.2 ⟨(i, t, o), he, rfl⟩)
      refine List.Sublist.trans ?_ h3
      rw [tableChanges_eq]
      refine List.Sublist.trans ?_ (List.sublist_append_right _ _)
      refine List.Sublist.trans ?_ (List.sublist_append_right _ _)
      refine List.Sublist.trans ?_ (List.sublist_append_right _ _)
      refine List.Sublist.trans ?_ (List.sublist_append_right _ _)
      exact List.sublist_append_left _ _
    have h4 := (hsub.filterMap f).length_le
    have h5 : (((s1.columns i (renamedPairs (columnRenames t o opt.useComments).1)).map
        (fun p => Change.renameColumn t p.2 p.1)).filterMap f).length =
        (s1.columns i (renamedPairs (columnRenames t o opt.useComments).1)).length := by
      rw [List.filterMap_map]; simp [f]
    rw [h5] at h4
    exact h4
  rw [getDiff_eq, getDiff_eq]
  congr 1
  simp only [diffBlocks, renameBlocks, e1 s1 h1, e1 s2 h2, keptBlocks]
  congr 2
  apply List.map_congr_left
  rintro ⟨i, t, o⟩ he
  simp only [tableBlock, tablePieces, e2 s1 h1 i t o he, e2 s2 h2 i t o he]

example : getDiff exOpt idSched = getDiff exOpt revSched :=
  C28_identical exOpt _ _ idSched_fair revSched_fair (by decide +kernel) (by decide +kernel)

/-- C28: with two renames the order really depends on the iteration order, so the bound in
`C28_identical` cannot be dropped. -/
theorem C28_order_visible : ∃ opt, getDiff opt idSched ≠ getDiff opt revSched := by
  refine ⟨{ diffFrom := { tables := [{ name := "a"ₛ, columns := [{ name := "x"ₛ }] },
                                      { name := "b"ₛ, columns := [{ name := "y"ₛ }] }] }
            diffTo := { tables := [{ name := "c"ₛ, columns := [{ name := "x"ₛ }] },
                                    { name := "d"ₛ, columns := [{ name := "y"ₛ }] }] } }, ?_⟩
  decide +kernel

/-! ## C29 – group filter -/

/-- C29 does not hold: comparing a schema with itself restricted to group `a` drops the table of
group `b`. -/
theorem C29_violated : ¬∀ (opt : DiffOption) (sched : Sched), sched.Fair → DistinctNames opt.diffFrom →
    DistinctNames opt.diffTo → ∀ c ∈ changesOf (getDiff opt sched), passes opt.tableFilter c.depTable = true := by
  intro h
  let s : Schema := { tables := [{ name := "x"ₛ, group := "a"ₛ, columns := [{ name := "i"ₛ, type := "int32"ₛ }] },
                                 { name := "y"ₛ, group := "b"ₛ, columns := [{ name := "j"ₛ, type := "int64"ₛ }] }] }
  have := h { diffFrom := s, diffTo := s, tableFilter := getTableFilterFn "a"ₛ } idSched idSched_fair
    (by unfold DistinctNames; decide) (by unfold DistinctNames; decide) (.dropTable s.tables[1]) (by decide +kernel)
  revert this
  decide +kernel

/-- C29, exact extent of the damage: every old table without selected counterpart, of whatever
group, is dropped or renamed away. -/
theorem C29_unselected_dropped_or_renamed (opt : DiffOption) (sched : Sched) (hs : sched.Fair)
    (hfrom : (opt.diffFrom.tables.map (·.name)).Nodup) (t : Table) (ht : t ∈ opt.diffFrom.tables)
    (hn : ∀ u ∈ opt.diffTo.tables, passes opt.tableFilter u = true → u.name ≠ t.name) :
    .dropTable t ∈ changesOf (getDiff opt sched) ∨ ∃ n, .renameTable t n ∈ changesOf (getDiff opt sched) := by
  have h1 := (C26_tables_accounted opt sched hs hfrom).1
  have h2 : t ∈ opt.diffFrom.tables.filter (fun t =>
      decide (t.name ∉ (opt.diffTo.tables.filter (passes opt.tableFilter)).map (·.name))) := by
    rw [List.mem_filter, decide_eq_true_eq]
    refine ⟨ht, fun hm => ?_⟩
    obtain ⟨u, hu, e⟩ := List.mem_map.1 hm
    obtain ⟨h3, h4⟩ := List.mem_filter.1 hu
    exact hn u h3 h4 e
  rcases List.mem_append.1 (h1.mem_iff.2 h2) with h | h
  · left
    obtain ⟨c, hc, e⟩ := List.mem_filterMap.1 h
    split at e
    · simp only [Option.some.injEq] at e; exact e ▸ hc
    · cases e
  · right
    obtain ⟨p, hp, rfl⟩ := List.mem_map.1 h
    obtain ⟨c, hc, e⟩ := List.mem_filterMap.1 hp
    split at e
    · simp only [Option.some.injEq] at e; subst e; exact ⟨_, hc⟩
    · cases e

/-- C29, restricted: when every old table without selected counterpart is itself in the selected
groups, every change concerns a table one of whose versions is in the selected groups.  Missing for
the full claim: nothing bounds the old tables (see `C29_violated`). -/
theorem C29_groups_partial (opt : DiffOption) (sched : Sched) (hs : sched.Fair)
    (hold : ∀ t ∈ opt.diffFrom.tables, (∀ u ∈ opt.diffTo.tables, passes opt.tableFilter u = true →
      u.name ≠ t.name) → passes opt.tableFilter t = true) :
    ∀ c ∈ changesOf (getDiff opt sched), ∃ t, (t ∈ opt.diffFrom.tables ∨ t ∈ opt.diffTo.tables) ∧
      passes opt.tableFilter t = true ∧ t.name = c.depTable.name := by
  have hrem : ∀ n ∈ (removedTableNames opt).keys, ∀ t, opt.diffFrom.tablesByName n = some t →
      passes opt.tableFilter t = true := by
    intro n hn t ht
    obtain ⟨h1, h2⟩ := lastBy_some ht
    refine hold t h1 fun u hu hp e => (mem_removedTableNames.1 hn).2 ?_
    exact List.mem_map.2 ⟨u, List.mem_filter.2 ⟨hu, hp⟩, e.trans h2⟩
  intro c hc
  rw [changesOf_eq, allChanges_eq] at hc
  simp only [List.mem_append] at hc
  rcases hc with hc | hc | hc | hc
  · obtain ⟨_, i, t, o, he, hd⟩ := kept_inside opt sched c hc
    obtain ⟨h1, h2, _⟩ := mem_keptTables.1 he
    exact ⟨t, Or.inr (List.mem_of_getElem? h1), h2, hd.symm⟩
  · obtain ⟨t, ht, rfl⟩ := List.mem_map.1 hc
    obtain ⟨n, hn, ht⟩ := List.mem_filterMap.1 ht
    refine ⟨t, Or.inl (lastBy_some ht).1, hrem n ?_ t ht, rfl⟩
    exact findRenames_rest_subset _ _ _ _ n (mem_slice.1 hn)
  · obtain ⟨p, hp, hc⟩ := List.mem_flatMap.1 hc
    obtain ⟨h1, _, h3, h4⟩ := renamedPairs_source ((hs.1 _).mem_iff.1 hp)
    obtain ⟨h5, h6, _⟩ := mem_addedTables.1 h1
    rw [renameBlock_changes] at hc
    simp only [List.mem_append] at hc
    rcases hc with hc | hc | hc
    · split at hc <;> simp at hc
      subst hc; exact ⟨p.2, Or.inl (lastBy_some h4).1, hrem _ h3 _ h4, rfl⟩
    · simp at hc
      subst hc; exact ⟨p.2, Or.inl (lastBy_some h4).1, hrem _ h3 _ h4, rfl⟩
    · split at hc <;> simp at hc
      subst hc; exact ⟨p.1, Or.inr h5, h6, rfl⟩
  · obtain ⟨t, ht, rfl⟩ := List.mem_map.1 hc
    have h1 := (findRenames_split opt.diffFrom.tablesByName (fun a b => a.columns == b.columns)
      (addedTables opt) (removedTableNames opt)).mem_iff.1 (List.mem_append_right _ ht)
    obtain ⟨h5, h6, _⟩ := mem_addedTables.1 h1
    exact ⟨t, Or.inr h5, h6, rfl⟩

/-- Two versions of a schema whose group `a` loses a table, next to an untouched group. -/
def exGroups : DiffOption :=
  { diffFrom := { tables := [{ name := "x"ₛ, group := "a"ₛ, columns := [{ name := "i"ₛ }] },
                             { name := "z"ₛ, group := "a"ₛ, columns := [{ name := "k"ₛ }] }] }
    diffTo := { tables := [{ name := "x"ₛ, group := "a"ₛ, columns := [{ name := "i"ₛ, notNull := true }] },
                           { name := "y"ₛ, group := "b"ₛ, columns := [{ name := "j"ₛ }] }] }
    tableFilter := getTableFilterFn "a"ₛ }

example : ∀ t ∈ exGroups.diffFrom.tables, (∀ u ∈ exGroups.diffTo.tables,
    passes exGroups.tableFilter u = true → u.name ≠ t.name) → passes exGroups.tableFilter t = true := by
  decide +kernel

example : (changesOf (getDiff exGroups idSched)).length = 2 := by decide +kernel

/-! ## C31 – added columns -/

/-- C31: no diff ever contains an add-column change. -/
theorem C31_never_reported (opt : DiffOption) (sched : Sched) (t : Table) (c : Column) :
    .addColumn t c ∉ changesOf (getDiff opt sched) := by
  intro h
  rcases mem_allChanges h with ⟨i, t', o, he, hc⟩ | ⟨_, h⟩ | ⟨_, _, h⟩ | ⟨_, _, h⟩ | ⟨_, _, h⟩ | ⟨_, h⟩
  · rcases mem_tableChanges hc with ⟨_, _, h⟩ | ⟨p, hp, hc⟩ | ⟨_, _, h⟩ | ⟨n, _, h⟩ | ⟨p, hp, h⟩ | ⟨_, h⟩ |
      ⟨_, _, h⟩
    · cases h
    · rcases mem_columnChanges (keptColumns_name hp) hc with h | h | h | h | h <;> cases h
    all_goals cases h
  all_goals cases h

/-- C31 does not hold: an added column of an existing table is not reported; here the whole diff is
even empty. -/
theorem C31_violated : ¬∀ (opt : DiffOption) (sched : Sched), sched.Fair → DistinctNames opt.diffFrom →
    DistinctNames opt.diffTo → opt.tableFilter = none →
    ∀ t ∈ opt.diffTo.tables, ∀ o ∈ opt.diffFrom.tables, o.name = t.name →
    ∀ c ∈ t.columns, c.name ∉ o.columns.map (·.name) →
      (∃ old, .renameColumn t old c ∈ changesOf (getDiff opt sched)) ∨
      .addColumn t c ∈ changesOf (getDiff opt sched) := by
  intro h
  let o : Table := { name := "x"ₛ, columns := [{ name := "i"ₛ, type := "int32"ₛ }] }
  let t : Table := { name := "x"ₛ, columns := [{ name := "i"ₛ, type := "int32"ₛ },
    { name := "j"ₛ, type := "date"ₛ }] }
  have hd : getDiff { diffFrom := { tables := [o] }, diffTo := { tables := [t] } } idSched = [] := by
    decide +kernel
  have := h { diffFrom := { tables := [o] }, diffTo := { tables := [t] } } idSched idSched_fair
    (by unfold DistinctNames; decide) (by unfold DistinctNames; decide) rfl t (by simp) o (by simp) rfl
    t.columns[1] (by simp [t]) (by decide)
  rw [hd] at this
  simp [changesOf] at this

/-- C31, restricted: when for every shape at least as many columns vanish as appear, every new column
is reported, as the target of a rename.  Missing for the full claim: columns that are additions for
good are never reported (`C31_never_reported`). -/
theorem C31_added_partial (opt : DiffOption) (sched : Sched) (hs : sched.Fair)
    (hf : opt.tableFilter = none) (hfrom : DistinctNames opt.diffFrom)
    (t o : Table) (ht : t ∈ opt.diffTo.tables) (ho : o ∈ opt.diffFrom.tables) (hn : o.name = t.name)
    (hadd : NoNetAdditions opt.useComments t o) (c : Column) (hc : c ∈ t.columns)
    (hc' : c.name ∉ o.columns.map (·.name)) :
    ∃ old, .renameColumn t old c ∈ changesOf (getDiff opt sched) := by
  obtain ⟨i, hi⟩ := List.mem_iff_getElem?.1 ht
  have hk : (i, t, o) ∈ keptTables opt := mem_keptTables.2 ⟨hi, by simp [passes, hf], by
    rw [← hn]; exact lastBy_nodup hfrom.1 ho⟩
  have h1 := findRenames_split o.columnNameMap (fun a b => a.isRenamed b (!opt.useComments))
    (addedColumns t o) (removedNames t o)
  have h2 := notRenamed_nil_of (hfrom.2 o ho) hadd
  rw [columnRenames] at h2
  rw [h2, List.append_nil] at h1
  obtain ⟨p, hp, rfl⟩ := List.mem_map.1 (h1.mem_iff.2 (mem_addedColumns.2 ⟨hc, hc'⟩))
  refine ⟨p.2, ?_⟩
  rw [changesOf_eq, allChanges_eq]
  refine List.mem_append_left _ (List.mem_flatMap.2 ⟨_, hk, ?_⟩)
  rw [tableChanges_eq]
  simp only [List.mem_append]
  right; right; right; right; left
  exact List.mem_map.2 ⟨p, (hs.2 i _).mem_iff.2 hp, rfl⟩

example : NoNetAdditions false exTo.tables[0] exFrom.tables[0] := by
  intro k
  have h1 : (exTo.tables[0].columns.filter (fun c => decide (c.name ∉ exFrom.tables[0].columns.map (·.name)))).map
      (shapeKey false) = [{ type := "int32"ₛ }] := by decide +kernel
  have h2 : (exFrom.tables[0].columns.filter (fun c => decide (c.name ∉ exTo.tables[0].columns.map (·.name)))).map
      (shapeKey false) = [{ type := "int32"ₛ }] := by decide +kernel
  rw [h1, h2]

/-! ## C32 – unique constraints -/

/-- C32: if the set of unique columns changes and the old table had one, the old constraint is dropped
exactly once, under the name table ++ suffix, before any column is dropped, renamed or added. -/
theorem C32_dropped_first (sched : List (Column × Column) → List (Column × Column))
    (author : Str) (t o : Table) (uc : Bool) (suffix : Str) (id : ChangeSetID)
    (hchg : ¬SameUnique t o) (hold : HasUnique o) :
    ∃ a b, changesOf (diffTable sched author t o uc suffix id).out =
        a ++ [.dropUnique (t.name ++ suffix) o] ++ b ∧
      (∀ c ∈ a, reshapes c = false) ∧ (∀ c ∈ a ++ b, ∀ n x, c ≠ .dropUnique n x) := by
  have hu : uniqueChanged t o = true := by
    cases h : uniqueChanged t o
    · exact absurd ((uniqueChanged_iff t o).1 h) hchg
    · rfl
  have ho : decide (o.uniqueKeyNameSet.size > 0) = true := decide_eq_true (size_pos_unique.2 hold)
  rw [changesOf_diffTable, tableChanges_eq, hu, ho]
  simp only [Bool.and_self, if_true]
  refine ⟨_ ++ _, _, by rw [List.append_assoc, List.append_assoc], ?_, ?_⟩
  · intro c hc
    rcases List.mem_append.1 hc with hc | hc
    · split at hc <;> simp at hc
      subst hc; rfl
    · exact (columnChanges_reshapes c hc).1
  · intro c hc
    simp only [List.mem_append] at hc
    rcases hc with (hc | hc) | hc | hc | hc | hc
    · split at hc <;> simp at hc
      subst hc; simp
    · exact (columnChanges_reshapes c hc).2.1
    · obtain ⟨n, _, rfl⟩ := List.mem_map.1 hc; simp
    · obtain ⟨p, _, rfl⟩ := List.mem_map.1 hc; simp
    · split at hc <;> simp at hc
      subst hc; simp
    · split at hc <;> simp at hc
      subst hc; simp

/-- C32: if the set of unique columns changes and the new table has one, the new constraint is created
exactly once, under the name table ++ suffix, after all column changes (nothing follows it). -/
theorem C32_created_last (sched : List (Column × Column) → List (Column × Column))
    (author : Str) (t o : Table) (uc : Bool) (suffix : Str) (id : ChangeSetID)
    (hchg : ¬SameUnique t o) (hnew : HasUnique t) :
    ∃ a, changesOf (diffTable sched author t o uc suffix id).out =
        a ++ [.createUnique (t.name ++ suffix) t] ∧ (∀ c ∈ a, ∀ n x, c ≠ .createUnique n x) := by
  have hu : uniqueChanged t o = true := by
    cases h : uniqueChanged t o
    · exact absurd ((uniqueChanged_iff t o).1 h) hchg
    · rfl
  have hn : decide (t.uniqueKeyNameSet.size > 0) = true := decide_eq_true (size_pos_unique.2 hnew)
  rw [changesOf_diffTable, tableChanges_eq, hu, hn]
  simp only [Bool.and_self, if_true, Bool.true_and]
  refine ⟨_ ++ (_ ++ (_ ++ (_ ++ (_ ++ _)))), by simp only [List.append_assoc]; rfl, ?_⟩
  intro c hc
  simp only [List.mem_append] at hc
  rcases hc with hc | hc | hc | hc | hc | hc
  · split at hc <;> simp at hc
    subst hc; simp
  · exact (columnChanges_reshapes c hc).2.2
  · split at hc <;> simp at hc
    subst hc; simp
  · obtain ⟨n, _, rfl⟩ := List.mem_map.1 hc; simp
  · obtain ⟨p, _, rfl⟩ := List.mem_map.1 hc; simp
  · split at hc <;> simp at hc
    subst hc; simp

/-- C32: a constraint is dropped only if the unique columns changed and there was one, created only if
they changed and there is one. -/
theorem C32_only_when_changed (sched : List (Column × Column) → List (Column × Column))
    (author : Str) (t o : Table) (uc : Bool) (suffix : Str) (id : ChangeSetID) :
    (∀ n x, .dropUnique n x ∈ changesOf (diffTable sched author t o uc suffix id).out →
      ¬SameUnique t o ∧ HasUnique o) ∧
    (∀ n x, .createUnique n x ∈ changesOf (diffTable sched author t o uc suffix id).out →
      ¬SameUnique t o ∧ HasUnique t) := by
  have key : ∀ c ∈ changesOf (diffTable sched author t o uc suffix id).out,
      ((∃ n x, c = .dropUnique n x) → ¬SameUnique t o ∧ HasUnique o) ∧
      ((∃ n x, c = .createUnique n x) → ¬SameUnique t o ∧ HasUnique t) := by
    intro c hc
    rw [changesOf_diffTable] at hc
    have hch : uniqueChanged t o = true → ¬SameUnique t o := by
      intro h hs; rw [(uniqueChanged_iff t o).2 hs] at h; cases h
    rcases mem_tableChanges hc with ⟨_, _, rfl⟩ | ⟨p, hp, hc⟩ | ⟨h1, h2, rfl⟩ | ⟨n, _, rfl⟩ | ⟨p, _, rfl⟩ |
      ⟨_, rfl⟩ | ⟨h1, h2, rfl⟩
    · simp
    · rcases mem_columnChanges (keptColumns_name hp) hc with rfl | rfl | rfl | rfl | rfl <;> simp
    · exact ⟨fun _ => ⟨hch h1, size_pos_unique.1 h2⟩, by simp⟩
    · simp
    · simp
    · simp
    · exact ⟨by simp, fun _ => ⟨hch h1, size_pos_unique.1 h2⟩⟩
  exact ⟨fun n x h => (key _ h).1 ⟨n, x, rfl⟩, fun n x h => (key _ h).2 ⟨n, x, rfl⟩⟩

/-- C32 for renamed tables: the constraint of the old name is dropped immediately before and the one
of the new name created immediately after the rename, when the table has unique columns. -/
theorem C32_renamed_table (opt : DiffOption) (sched : Sched) (hs : sched.Fair) (o n : Table)
    (h : .renameTable o n ∈ changesOf (getDiff opt sched)) (hu : HasUnique o) :
    ∃ a b, changesOf (getDiff opt sched) = a ++ [.dropUnique (o.name ++ opt.uniqueNameSuffix) o,
      .renameTable o n, .createUnique (n.name ++ opt.uniqueNameSuffix) n] ++ b := by
  have h' : (o, n) ∈ tableRenamings (changesOf (getDiff opt sched)) := List.mem_filterMap.2 ⟨_, h, rfl⟩
  have hcols := (C27_table_renames opt sched hs _ h').2.2.2.2.2
  rw [tableRenamings_diff] at h'
  obtain ⟨p, hp, e⟩ := List.mem_map.1 h'
  simp only [Prod.mk.injEq] at e
  obtain ⟨rfl, rfl⟩ := e
  simp only at hcols
  have hun : HasUnique p.1 := by
    obtain ⟨c, hc, hcu⟩ := hu
    exact ⟨c, hcols ▸ hc, hcu⟩
  obtain ⟨l1, l2, hl⟩ := List.append_of_mem hp
  rw [changesOf_eq, allChanges_eq, hl]
  simp only [List.flatMap_append, List.flatMap_cons, renameBlock_changes, if_pos (size_pos_unique.2 hu),
    if_pos (size_pos_unique.2 hun)]
  exact ⟨_ ++ (_ ++ _), _ ++ _, by simp only [List.append_assoc, List.cons_append, List.nil_append]; rfl⟩

example : ¬SameUnique exTo.tables[0] exFrom.tables[0] ∧ HasUnique exFrom.tables[0] := by
  refine ⟨?_, ⟨exFrom.tables[0].columns[1], by decide, by decide⟩⟩
  intro h
  obtain ⟨c, hc, h1, h2⟩ := (h "name"ₛ).2 ⟨exFrom.tables[0].columns[1], by decide, by decide, by decide⟩
  revert h1
  revert c
  decide +kernel

example : (changesOf (getDiff exOpt idSched))[2]? =
    some (.dropUnique "user_uq"ₛ exFrom.tables[0]) := by decide +kernel

/-! ## C33 – column attributes -/

/-- C33: for a column present in both versions, each attribute change is reported exactly when the
attribute differs. -/
theorem C33_attributes_exact (sched : List (Column × Column) → List (Column × Column))
    (author : Str) (t o : Table) (uc : Bool) (suffix : Str) (id : ChangeSetID)
    (ho : (o.columns.map (·.name)).Nodup) (c oc : Column) (hc : c ∈ t.columns) (hoc : oc ∈ o.columns)
    (hn : oc.name = c.name) :
    let cs := changesOf (diffTable sched author t o uc suffix id).out
    (.changeColumnType t oc c ∈ cs ↔ ¬(c.type = oc.type ∧ c.size = oc.size ∧ c.scale = oc.scale)) ∧
    (.setColumnComment t c ∈ cs ↔ uc = true ∧ c.description ≠ oc.description) ∧
    (.setNotNull t c ∈ cs ↔ c.notNull ≠ oc.notNull) ∧
    (.setAutoIncrement t c ∈ cs ↔ c.autoIncremental ≠ oc.autoIncremental) ∧
    (.setDefaultValue t c ∈ cs ↔ c.defaultValue ≠ oc.defaultValue) := by
  intro cs
  have hk : (c, oc) ∈ keptColumns t o :=
    mem_keptColumns.2 ⟨hc, by rw [← hn]; exact lastBy_nodup ho hoc⟩
  have huniq : ∀ p ∈ keptColumns t o, p.1 = c → p.2 = oc := by
    intro p hp e
    have := (mem_keptColumns.1 hp).2
    rw [e, (mem_keptColumns.1 hk).2] at this
    exact (Option.some.inj this).symm
  have hin : ∀ x ∈ columnChanges t c oc uc, x ∈ cs := by
    intro x hx
    simp only [cs, changesOf_diffTable, tableChanges_eq]
    exact List.mem_append_right _ (List.mem_append_left _ (List.mem_flatMap.2 ⟨_, hk, hx⟩))
  have hout : ∀ x ∈ cs, (x = .changeColumnType t oc c ∨ x = .setColumnComment t c ∨ x = .setNotNull t c ∨
      x = .setAutoIncrement t c ∨ x = .setDefaultValue t c) → x ∈ columnChanges t c oc uc := by
    intro x hx hcase
    simp only [cs, changesOf_diffTable] at hx
    rcases mem_tableChanges hx with ⟨_, _, rfl⟩ | ⟨p, hp, hpc⟩ | ⟨_, _, rfl⟩ | ⟨_, _, rfl⟩ | ⟨_, _, rfl⟩ |
      ⟨_, rfl⟩ | ⟨_, _, rfl⟩
    · simp at hcase
    · have hpc1 : p.1 = c := by
        rcases mem_columnChanges (keptColumns_name hp) hpc with h | h | h | h | h <;>
          rcases hcase with h' | h' | h' | h' | h' <;> rw [h] at h' <;> cases h' <;> rfl
      rw [hpc1, huniq p hp hpc1] at hpc
      exact hpc
    all_goals simp at hcase
  have hmem : ∀ x, (x = .changeColumnType t oc c ∨ x = .setColumnComment t c ∨ x = .setNotNull t c ∨
      x = .setAutoIncrement t c ∨ x = .setDefaultValue t c) → (x ∈ cs ↔ x ∈ columnChanges t c oc uc) :=
    fun x hx => ⟨fun h => hout x h hx, hin x⟩
  have hcol := columnChanges_eq t c oc uc hn.symm
  have hite : ∀ (b : Bool) (x y : Change), (x ∈ if b = true then [y] else []) ↔ b = true ∧ x = y := by
    intro b x y; cases b <;> simp
  refine ⟨?_, ?_, ?_, ?_, ?_⟩
  · rw [hmem _ (by simp), hcol]
    simp only [List.mem_append, hite]
    simp
    constructor
    · rintro (⟨h | h⟩ | h) <;> simp_all
    · intro h
      by_cases h1 : c.type = oc.type
      · by_cases h2 : c.size = oc.size
        · exact Or.inr (h h1 h2)
        · exact Or.inl (Or.inr h2)
      · exact Or.inl (Or.inl h1)
  · rw [hmem _ (by simp), hcol]
    simp only [List.mem_append, hite]
    simp
  · rw [hmem _ (by simp), hcol]
    simp only [List.mem_append, hite]
    simp
  · rw [hmem _ (by simp), hcol]
    simp only [List.mem_append, hite]
    simp
  · rw [hmem _ (by simp), hcol]
    simp only [List.mem_append, hite]
    simp

/-- C33: no change of a table is reported twice. -/
theorem C33_reported_once (sched : List (Column × Column) → List (Column × Column))
    (hs : ∀ l, (sched l).Perm l)
    (author : Str) (t o : Table) (uc : Bool) (suffix : Str) (id : ChangeSetID)
    (ht : (t.columns.map (·.name)).Nodup) :
    (changesOf (diffTable sched author t o uc suffix id).out).Nodup := by
  rw [changesOf_diffTable, tableChanges_eq]
  have hite : ∀ (b : Bool) (y : Change), (if b = true then [y] else []).Nodup := by
    intro b y; cases b <;> simp
  have hkn : (keptColumns t o).Nodup := by
    refine List.Nodup.filterMap ?_ (List.Nodup.of_map _ ht)
    intro a a' b hb hb'
    simp only [Option.mem_def, Option.map_eq_some_iff] at hb hb'
    obtain ⟨_, _, rfl⟩ := hb
    obtain ⟨_, _, e⟩ := hb'
    simp only [Prod.mk.injEq] at e
    exact e.1.symm
  have h1 : ((keptColumns t o).flatMap (fun p => columnChanges t p.1 p.2 uc)).Nodup := by
    rw [List.nodup_flatMap]
    refine ⟨?_, ?_⟩
    · intro p hp
      rw [columnChanges_eq _ _ _ _ (keptColumns_name hp)]
      split <;> split <;> split <;> split <;> split <;> simp
    · refine List.Pairwise.imp_of_mem ?_ hkn
      intro p q hp hq hne c hc1 hc2
      have e := columnChanges_mentions (keptColumns_name hp) hc1 _ _ (keptColumns_name hq) hc2
      apply hne
      have h1 := (mem_keptColumns.1 hp).2
      have h2 := (mem_keptColumns.1 hq).2
      rw [e, h2, Option.some.injEq] at h1
      exact Prod.ext e h1.symm
  have h2 : ((columnRenames t o uc).2.slice.map (fun n => Change.dropColumn t n)).Nodup := by
    refine List.Nodup.map ?_ ((slice_perm _).nodup_iff.2 (findRenames_nodup _ _ _ _ (nodup_removedNames t o)))
    intro a b h; simpa using h
  have h3 : ((sched (renamedPairs (columnRenames t o uc).1)).map
      (fun p => Change.renameColumn t p.2 p.1)).Nodup := by
    refine List.Nodup.map ?_ ((hs _).nodup_iff.2 ?_)
    · intro a b h; simp only [Change.renameColumn.injEq, true_and] at h; exact Prod.ext h.2 h.1
    · refine List.Nodup.of_map Prod.fst ?_
      have h4 := (findRenames_split o.columnNameMap (fun a b => a.isRenamed b (!uc))
        (addedColumns t o) (removedNames t o)).nodup_iff.2 ((List.Nodup.of_map _ ht).filter _)
      exact (List.nodup_append.1 h4).1
  have kind : ∀ c ∈ (keptColumns t o).flatMap (fun p => columnChanges t p.1 p.2 uc),
      ∃ a b, c = .changeColumnType t b a ∨ c = .setColumnComment t a ∨ c = .setNotNull t a ∨
      c = .setAutoIncrement t a ∨ c = .setDefaultValue t a := by
    intro c hc
    obtain ⟨p, hp, hc⟩ := List.mem_flatMap.1 hc
    exact ⟨p.1, p.2, mem_columnChanges (keptColumns_name hp) hc⟩
  have dropKind : ∀ c ∈ (columnRenames t o uc).2.slice.map (fun n => Change.dropColumn t n),
      ∃ n, c = .dropColumn t n := by
    intro c hc; obtain ⟨n, _, rfl⟩ := List.mem_map.1 hc; exact ⟨n, rfl⟩
  have renKind : ∀ c ∈ (sched (renamedPairs (columnRenames t o uc).1)).map
      (fun p => Change.renameColumn t p.2 p.1), ∃ a b, c = .renameColumn t a b := by
    intro c hc; obtain ⟨n, _, rfl⟩ := List.mem_map.1 hc; exact ⟨_, _, rfl⟩
  have ite : ∀ (b : Bool) (y : Change), ∀ c ∈ (if b = true then [y] else []), c = y := by
    intro b y c hc; cases b <;> simp at hc; exact hc
  refine List.nodup_append.2 ⟨hite _ _, List.nodup_append.2 ⟨h1, List.nodup_append.2 ⟨hite _ _,
    List.nodup_append.2 ⟨h2, List.nodup_append.2 ⟨h3, List.nodup_append.2 ⟨hite _ _, hite _ _, ?_⟩, ?_⟩,
      ?_⟩, ?_⟩, ?_⟩, ?_⟩
  · intro a ha b hb
    rw [ite _ _ a ha, ite _ _ b hb]; simp
  · intro a ha b hb
    obtain ⟨x, y, rfl⟩ := renKind a ha
    rcases List.mem_append.1 hb with hb | hb <;> rw [ite _ _ b hb] <;> simp
  · intro a ha b hb
    obtain ⟨x, rfl⟩ := dropKind a ha
    rcases List.mem_append.1 hb with hb | hb
    · obtain ⟨x, y, rfl⟩ := renKind b hb; simp
    · rcases List.mem_append.1 hb with hb | hb <;> rw [ite _ _ b hb] <;> simp
  · intro a ha b hb
    rw [ite _ _ a ha]
    rcases List.mem_append.1 hb with hb | hb
    · obtain ⟨x, rfl⟩ := dropKind b hb; simp
    · rcases List.mem_append.1 hb with hb | hb
      · obtain ⟨x, y, rfl⟩ := renKind b hb; simp
      · rcases List.mem_append.1 hb with hb | hb <;> rw [ite _ _ b hb] <;> simp
  · intro a ha b hb
    obtain ⟨x, y, ha⟩ := kind a ha
    have hb' : (∃ n u, b = .dropUnique n u) ∨ (∃ n, b = .dropColumn t n) ∨ (∃ u v, b = .renameColumn t u v) ∨
        (∃ u v, b = .updatePrimaryKey u v) ∨ (∃ n u, b = .createUnique n u) := by
      rcases List.mem_append.1 hb with hb | hb
      · exact Or.inl ⟨_, _, ite _ _ b hb⟩
      · rcases List.mem_append.1 hb with hb | hb
        · exact Or.inr (Or.inl (dropKind b hb))
        · rcases List.mem_append.1 hb with hb | hb
          · exact Or.inr (Or.inr (Or.inl (renKind b hb)))
          · rcases List.mem_append.1 hb with hb | hb
            · exact Or.inr (Or.inr (Or.inr (Or.inl ⟨_, _, ite _ _ b hb⟩)))
            · exact Or.inr (Or.inr (Or.inr (Or.inr ⟨_, _, ite _ _ b hb⟩)))
    rcases hb' with ⟨_, _, rfl⟩ | ⟨_, rfl⟩ | ⟨_, _, rfl⟩ | ⟨_, _, rfl⟩ | ⟨_, _, rfl⟩ <;>
      rcases ha with rfl | rfl | rfl | rfl | rfl <;> simp
  · intro a ha b hb
    rw [ite _ _ a ha]
    rcases List.mem_append.1 hb with hb | hb
    · obtain ⟨x, y, hb⟩ := kind b hb
      rcases hb with rfl | rfl | rfl | rfl | rfl <;> simp
    rcases List.mem_append.1 hb with hb | hb
    · rw [ite _ _ b hb]; simp
    rcases List.mem_append.1 hb with hb | hb
    · obtain ⟨x, rfl⟩ := dropKind b hb; simp
    rcases List.mem_append.1 hb with hb | hb
    · obtain ⟨x, y, rfl⟩ := renKind b hb; simp
    · rcases List.mem_append.1 hb with hb | hb <;> rw [ite _ _ b hb] <;> simp

example : changesOf (diffTable id [] exTo.tables[0] exFrom.tables[0] false "_uq"ₛ ⟨1, 0⟩).out =
    [.changeColumnType exTo.tables[0] exFrom.tables[0].columns[1] exTo.tables[0].columns[1],
     .setNotNull exTo.tables[0] exTo.tables[0].columns[1],
     .dropUnique "user_uq"ₛ exFrom.tables[0],
     .renameColumn exTo.tables[0] exFrom.tables[0].columns[2] exTo.tables[0].columns[2]] := by decide +kernel

end Octo
