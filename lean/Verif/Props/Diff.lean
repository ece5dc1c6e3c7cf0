import Verif.Lemmas.DiffProps

/-! Property theorems C24-C29 and C31-C33: the schema diff. -/

namespace Octo
open Spec

/-! ## C24 – self diff -/

/-- C24: comparing a schema with itself, without group filter, yields no change set at all. -/
theorem C24_self_diff_empty (opt : DiffOption) (sched : Sched) (hs : sched.Fair)
    (hself : opt.diffTo = opt.diffFrom) (hf : opt.tableFilter = none) (hd : DistinctNames opt.diffFrom) :
    getDiff opt sched = [] := by
  have hadd : addedTables opt = [] := by
    apply List.eq_nil_iff_forall_not_mem.2
    intro t ht
    obtain ⟨h1, _, h2⟩ := mem_addedTables.1 ht
    rw [hself] at h1
    exact h2 (List.mem_map_of_mem h1)
  have hrem : removedTableNames opt = ⟨[]⟩ := by
    apply set_eq_empty
    intro n hn
    obtain ⟨h1, h2⟩ := mem_removedTableNames.1 hn
    rw [hself, hf] at h2
    exact h2 (by simpa [passes] using h1)
  have hren : tableRenames opt = ([], ⟨[]⟩) := by rw [tableRenames, hadd, hrem]; rfl
  have hkept : keptBlocks opt sched = [] := by
    rw [keptBlocks, List.filter_eq_nil_iff]
    intro b hb
    obtain ⟨⟨i, t, o⟩, he, rfl⟩ := List.mem_map.1 hb
    obtain ⟨h1, _, h2⟩ := mem_keptTables.1 he
    have ht : t ∈ opt.diffFrom.tables := hself ▸ List.mem_of_getElem? h1
    rw [Schema.tablesByName, lastBy_nodup hd.1 ht, Option.some.injEq] at h2
    subst h2
    simp only [tableBlock]
    rw [tablePieces_self _ (hs.2 i) _ _ _ (hd.2 _ ht)]
    simp [toBlock]
  have hsn : sched.tables [] = [] := List.Perm.eq_nil (hs.1 [])
  rw [getDiff_eq, diffBlocks, hkept, dropBlocks, renameBlocks, createBlocks, hren]
  simp [renamedPairs, notRenamed, hsn, StringSet.slice, StringSet.sliceOrd, sortStrings, number]

/-- Two schemas used as concrete cases. -/
def exFrom : Schema :=
  { author := "me"ₛ, version := "1"ₛ, tables := [
      { name := "user"ₛ, columns := [
          { name := "id"ₛ, type := "int64"ₛ, primaryKey := true, notNull := true },
          { name := "name"ₛ, type := "varchar"ₛ, size := 20, uniqueKey := true },
          { name := "age"ₛ, type := "int32"ₛ }] },
      { name := "log"ₛ, columns := [{ name := "msg"ₛ, type := "varchar"ₛ, size := 10, uniqueKey := true }] },
      { name := "old"ₛ, columns := [{ name := "x"ₛ, type := "int32"ₛ }] } ] }

def exTo : Schema :=
  { author := "me"ₛ, version := "2"ₛ, tables := [
      { name := "user"ₛ, columns := [
          { name := "id"ₛ, type := "int64"ₛ, primaryKey := true, notNull := true },
          { name := "name"ₛ, type := "varchar"ₛ, size := 40, notNull := true },
          { name := "years"ₛ, type := "int32"ₛ }] },
      { name := "journal"ₛ, columns := [{ name := "msg"ₛ, type := "varchar"ₛ, size := 10, uniqueKey := true }] },
      { name := "new"ₛ, columns := [{ name := "y"ₛ, type := "date"ₛ }] } ] }

def exOpt : DiffOption := { diffFrom := exFrom, diffTo := exTo, uniqueNameSuffix := "_uq"ₛ }

theorem exFrom_distinct : DistinctNames exFrom := by unfold DistinctNames exFrom; decide
theorem exTo_distinct : DistinctNames exTo := by unfold DistinctNames exTo; decide

example : getDiff { diffFrom := exFrom, diffTo := exFrom, useComments := true } idSched = [] :=
  C24_self_diff_empty _ _ idSched_fair rfl rfl exFrom_distinct

/-! ## C25 – ids -/

/-- C25: the ids of the change sets of a diff are pairwise different, for every input (no
restriction on names), filter, option and iteration order. -/
theorem C25_ids_unique (opt : DiffOption) (sched : Sched) :
    ((getDiff opt sched).map (·.id)).Nodup := by
  rw [getDiff_eq]
  exact (number_ids _ _ _ (diffBlocks_nodup opt sched)).1

example : (getDiff exOpt idSched).map (·.id) =
    ["1-1"ₛ, "1-2"ₛ, "1-3"ₛ, "1-4"ₛ, "2"ₛ, "3"ₛ, "3-1"ₛ, "3-2"ₛ, "4"ₛ] := by decide +kernel

/-- C25: every change set of a diff contains exactly one change and carries the requested author
(the author of the new schema if none is given). -/
theorem C25_author_and_content (opt : DiffOption) (sched : Sched) :
    ∀ s ∈ getDiff opt sched, s.author = (if opt.author ≠ [] then opt.author else opt.diffTo.author) ∧
      ∃ c, s.changes = [c] := by
  have hnum : ∀ (author : Str) (m : Nat) (bs : List Block), ∀ s ∈ number author m bs,
      s.author = author ∧ ∃ b ∈ bs, ∃ p ∈ b, s.changes = p.2 := by
    intro author m bs
    induction bs generalizing m with
    | nil => simp [number]
    | cons b bs ih =>
      intro s hs
      rcases List.mem_append.1 (by simpa [number] using hs) with hs | hs
      · obtain ⟨p, hp, rfl⟩ := List.mem_map.1 hs
        exact ⟨rfl, b, List.mem_cons_self, p, hp, rfl⟩
      · obtain ⟨h1, b', hb', h2⟩ := ih (m + 1) s hs
        exact ⟨h1, b', List.mem_cons_of_mem _ hb', h2⟩
  have hblock : ∀ (k : Nat) (ps : Pieces), (∀ q ∈ ps, q.1 = true → ∃ c, q.2 = [c]) →
      ∀ p ∈ toBlock k ps, ∃ c, p.2 = [c] := by
    intro k ps
    induction ps generalizing k with
    | nil => simp [toBlock]
    | cons q ps ih =>
      obtain ⟨e, cs⟩ := q
      intro h p hp
      have ih' := ih (k + 1) (fun q hq => h q (List.mem_cons_of_mem _ hq))
      cases e
      · exact ih' p (by simpa [toBlock] using hp)
      · simp only [toBlock, if_true] at hp
        rcases List.mem_cons.1 hp with rfl | hp
        · exact h _ List.mem_cons_self rfl
        · exact ih' p hp
  have hw : ∀ (b : Bool) (c : Change), ∀ q ∈ whenP b [c], q.1 = true → ∃ c, q.2 = [c] := by
    intro b c q hq _
    cases b
    · simp [whenP] at hq
    · simp only [whenP, if_true, List.mem_singleton] at hq
      subst hq; exact ⟨c, rfl⟩
  intro s hs
  rw [getDiff_eq] at hs
  obtain ⟨h1, b, hb, p, hp, h2⟩ := hnum _ _ _ s hs
  refine ⟨h1, ?_⟩
  rw [h2]
  simp only [diffBlocks, List.mem_append] at hb
  rcases hb with hb | hb | hb | hb
  · obtain ⟨e, _, rfl⟩ := List.mem_map.1 (List.mem_filter.1 hb).1
    refine hblock _ _ ?_ p hp
    intro q hq
    simp only [tablePieces, List.mem_append] at hq
    rcases hq with hq | hq | hq | hq | hq | hq | hq | hq
    · exact hw _ _ q hq
    · obtain ⟨x, _, hx⟩ := List.mem_flatMap.1 hq
      simp only [columnPieces, List.mem_append] at hx
      rcases hx with hx | hx | hx | hx | hx | hx <;> exact hw _ _ q hx
    · exact hw _ _ q hq
    · obtain ⟨x, _, rfl⟩ := List.mem_map.1 hq; intro _; exact ⟨_, rfl⟩
    · obtain ⟨x, _, rfl⟩ := List.mem_map.1 hq; intro _; exact ⟨_, rfl⟩
    · split at hq
      · simp only [List.mem_singleton] at hq
        subst hq; simp
      · simp at hq
    · exact hw _ _ q hq
    · exact hw _ _ q hq
  · obtain ⟨e, _, rfl⟩ := List.mem_map.1 hb
    simp only [List.mem_singleton] at hp; subst hp; exact ⟨_, rfl⟩
  · obtain ⟨e, _, rfl⟩ := List.mem_map.1 hb
    simp only [renameBlock, List.mem_append] at hp
    rcases hp with hp | hp | hp
    · split at hp <;> simp at hp
      subst hp; exact ⟨_, rfl⟩
    · simp at hp; subst hp; exact ⟨_, rfl⟩
    · split at hp <;> simp at hp
      subst hp; exact ⟨_, rfl⟩
  · obtain ⟨e, _, rfl⟩ := List.mem_map.1 hb
    simp only [List.mem_singleton] at hp; subst hp; exact ⟨_, rfl⟩

example : (getDiff { exOpt with author := "bob"ₛ } idSched).map (·.author) =
    List.replicate 9 "bob"ₛ := by decide +kernel

/-! ## C26 – every table is accounted for -/

/-- C26: with distinct table names, the dropped tables and the rename sources are together exactly
the old tables without a counterpart (each once), and the created tables and the rename targets are
together exactly the new tables without a counterpart (each once).  `opt.tableFilter` may be any
filter; without one the selected tables are all new tables. -/
theorem C26_tables_accounted (opt : DiffOption) (sched : Sched) (hs : sched.Fair)
    (hfrom : (opt.diffFrom.tables.map (·.name)).Nodup) :
    let cs := changesOf (getDiff opt sched)
    let selected := opt.diffTo.tables.filter (passes opt.tableFilter)
    (droppedTables cs ++ (tableRenamings cs).map Prod.fst).Perm
      (opt.diffFrom.tables.filter (fun t => decide (t.name ∉ selected.map (·.name)))) ∧
    (createdTables cs ++ (tableRenamings cs).map Prod.snd).Perm
      (selected.filter (fun t => decide (t.name ∉ opt.diffFrom.tables.map (·.name)))) := by
  intro cs selected
  have hname : ∀ n r, opt.diffFrom.tablesByName n = some r → r.name = n := fun n r h => (lastBy_some h).2
  refine ⟨?_, ?_⟩
  · rw [droppedTables_diff, tableRenamings_diff, List.map_map]
    have hpart := findRenames_partition opt.diffFrom.tablesByName (fun a b => a.columns == b.columns)
      Table.name hname (addedTables opt) (removedTableNames opt) (nodup_removedTableNames opt)
    have e1 : ((sched.tables (renamedPairs (tableRenames opt).1)).map (Prod.fst ∘ fun p => (p.2, p.1))).Perm
        (((renamedPairs (tableRenames opt).1).map (fun p => p.2.name)).filterMap opt.diffFrom.tablesByName) := by
      refine ((hs.1 _).map _).trans (List.Perm.of_eq ?_)
      rw [List.filterMap_map]
      have : ∀ l : List (Table × Table), (∀ p ∈ l, opt.diffFrom.tablesByName p.2.name = some p.2) →
          l.map (Prod.fst ∘ fun p => (p.2, p.1)) =
            l.filterMap (opt.diffFrom.tablesByName ∘ fun p => p.2.name) := by
        intro l
        induction l with
        | nil => intro _; rfl
        | cons p l ih =>
          intro h
          rw [List.map_cons, ih (fun q hq => h q (List.mem_cons_of_mem _ hq)),
            List.filterMap_cons_some (by simpa using h p List.mem_cons_self)]
          rfl
      exact this _ (fun p hp => (renamedPairs_source hp).2.2.2)
    have e2 : ((tableRenames opt).2.slice.filterMap opt.diffFrom.tablesByName).Perm
        ((tableRenames opt).2.keys.filterMap opt.diffFrom.tablesByName) := (slice_perm _).filterMap _
    refine ((e2.append e1).trans List.perm_append_comm).trans ?_
    rw [← List.filterMap_append]
    refine (hpart.filterMap _).trans ?_
    have hnd1 : ((removedTableNames opt).keys.filterMap opt.diffFrom.tablesByName).Nodup := by
      refine List.Nodup.filterMap ?_ (nodup_removedTableNames opt)
      intro a a' b hb hb'
      rw [Option.mem_def] at hb hb'
      rw [← hname _ _ hb, ← hname _ _ hb']
    have hnd2 : (opt.diffFrom.tables.filter (fun t => decide (t.name ∉ selected.map (·.name)))).Nodup :=
      (List.Nodup.of_map _ hfrom).filter _
    rw [List.perm_ext_iff_of_nodup hnd1 hnd2]
    intro t
    rw [List.mem_filterMap, List.mem_filter, decide_eq_true_eq]
    constructor
    · rintro ⟨n, hn, ht⟩
      obtain ⟨h1, h2⟩ := lastBy_some ht
      subst h2
      exact ⟨h1, (mem_removedTableNames.1 hn).2⟩
    · rintro ⟨h1, h2⟩
      exact ⟨t.name, mem_removedTableNames.2 ⟨List.mem_map_of_mem h1, h2⟩, lastBy_nodup hfrom h1⟩
  · rw [createdTables_diff, tableRenamings_diff, List.map_map]
    have h1 := findRenames_split opt.diffFrom.tablesByName (fun a b => a.columns == b.columns)
      (addedTables opt) (removedTableNames opt)
    have e1 : ((sched.tables (renamedPairs (tableRenames opt).1)).map (Prod.snd ∘ fun p => (p.2, p.1))).Perm
        ((renamedPairs (tableRenames opt).1).map Prod.fst) := (hs.1 _).map _
    refine ((List.Perm.append_left _ e1).trans List.perm_append_comm).trans (h1.trans (List.Perm.of_eq ?_))
    simp only [addedTables, selected, List.filter_filter]
    apply List.filter_congr
    intro t _
    rw [Bool.and_comm]
    congr 1
    rw [Bool.eq_iff_iff, Schema.tablesByName, lastBy_isNone, decide_eq_true_eq]

/-- C26: no table name is both dropped and renamed away, and no table is dropped, renamed away,
created or renamed to twice. -/
theorem C26_no_table_twice (opt : DiffOption) (sched : Sched) (hs : sched.Fair)
    (hfrom : (opt.diffFrom.tables.map (·.name)).Nodup) (hto : (opt.diffTo.tables.map (·.name)).Nodup) :
    let cs := changesOf (getDiff opt sched)
    ((droppedTables cs ++ (tableRenamings cs).map Prod.fst).map (·.name)).Nodup ∧
    ((createdTables cs ++ (tableRenamings cs).map Prod.snd).map (·.name)).Nodup := by
  intro cs
  obtain ⟨h1, h2⟩ := C26_tables_accounted opt sched hs hfrom
  refine ⟨((h1.map _).nodup_iff).2 ?_, ((h2.map _).nodup_iff).2 ?_⟩
  · exact hfrom.sublist (List.filter_sublist.map _)
  · exact hto.sublist ((List.filter_sublist.trans List.filter_sublist).map _)

/-- C26: every other change belongs to a table that exists, under that name, before and after, or to
the unique constraint of a renamed table. -/
theorem C26_inside_changes (opt : DiffOption) (sched : Sched) :
    ∀ c ∈ changesOf (getDiff opt sched), insideTable c = true →
      (∃ t ∈ opt.diffTo.tables, ∃ o ∈ opt.diffFrom.tables, t.name = o.name ∧
        passes opt.tableFilter t = true ∧ c.depTable.name = t.name) ∨
      (∃ p ∈ tableRenamings (changesOf (getDiff opt sched)),
        c = .dropUnique (p.1.name ++ opt.uniqueNameSuffix) p.1 ∨
        c = .createUnique (p.2.name ++ opt.uniqueNameSuffix) p.2) := by
  intro c hc hi
  rw [tableRenamings_diff]
  rw [changesOf_eq, allChanges_eq] at hc
  simp only [List.mem_append] at hc
  rcases hc with hc | hc | hc | hc
  · obtain ⟨_, i, t, o, he, hd⟩ := kept_inside opt sched c hc
    obtain ⟨h1, h2, h3⟩ := mem_keptTables.1 he
    obtain ⟨h4, h5⟩ := lastBy_some h3
    exact Or.inl ⟨t, List.mem_of_getElem? h1, o, h4, h5.symm, h2, hd⟩
  · obtain ⟨t, _, rfl⟩ := List.mem_map.1 hc; simp [insideTable] at hi
  · obtain ⟨p, hp, hc⟩ := List.mem_flatMap.1 hc
    refine Or.inr ⟨(p.2, p.1), List.mem_map.2 ⟨p, hp, rfl⟩, ?_⟩
    rw [renameBlock_changes] at hc
    simp only [List.mem_append] at hc
    rcases hc with hc | hc | hc
    · split at hc <;> simp at hc; exact Or.inl hc
    · simp at hc; subst hc; simp [insideTable] at hi
    · split at hc <;> simp at hc; exact Or.inr hc
  · obtain ⟨t, _, rfl⟩ := List.mem_map.1 hc; simp [insideTable] at hi

example : (tableRenamings (changesOf (getDiff exOpt idSched))).map (fun p => (p.1.name, p.2.name)) =
    [("log"ₛ, "journal"ₛ)] := by decide +kernel
example : (droppedTables (changesOf (getDiff exOpt idSched))).map (·.name) = ["old"ₛ] := by decide +kernel
example : (createdTables (changesOf (getDiff exOpt idSched))).map (·.name) = ["new"ₛ] := by decide +kernel
example : (droppedTables (changesOf (getDiff exOpt idSched)) ++
    (tableRenamings (changesOf (getDiff exOpt idSched))).map Prod.fst).Perm
      (exFrom.tables.filter (fun t => decide (t.name ∉ (exTo.tables.filter (passes none)).map (·.name)))) :=
  (C26_tables_accounted exOpt idSched idSched_fair exFrom_distinct.1).1

/-! ## C27 – renames -/

/-- C27: a table rename is reported only from an old table that has no selected counterpart to a new
table of an unused name, and only if the two column lists are identical. -/
theorem C27_table_renames (opt : DiffOption) (sched : Sched) (hs : sched.Fair) :
    ∀ p ∈ tableRenamings (changesOf (getDiff opt sched)),
      p.1 ∈ opt.diffFrom.tables ∧ p.2 ∈ opt.diffTo.tables ∧ passes opt.tableFilter p.2 = true ∧
      p.1.name ∉ (opt.diffTo.tables.filter (passes opt.tableFilter)).map (·.name) ∧
      p.2.name ∉ opt.diffFrom.tables.map (·.name) ∧ p.1.columns = p.2.columns := by
  intro p hp
  rw [tableRenamings_diff] at hp
  obtain ⟨q, hq, rfl⟩ := List.mem_map.1 hp
  obtain ⟨h1, h2, h3, h4⟩ := renamedPairs_source ((hs.1 _).mem_iff.1 hq)
  obtain ⟨h5, h6, h7⟩ := mem_addedTables.1 h1
  exact ⟨(lastBy_some h4).1, h5, h6, (mem_removedTableNames.1 h3).2, h7, h2.symm⟩

/-- C27: a column rename is reported only inside a table present in both versions, from a vanished to
a new column of the same shape. -/
theorem C27_column_renames (opt : DiffOption) (sched : Sched) (hs : sched.Fair)
    (t : Table) (old new : Column) (h : .renameColumn t old new ∈ changesOf (getDiff opt sched)) :
    t ∈ opt.diffTo.tables ∧ ∃ o ∈ opt.diffFrom.tables, o.name = t.name ∧
      old ∈ o.columns ∧ new ∈ t.columns ∧ old.name ∉ t.columns.map (·.name) ∧
      new.name ∉ o.columns.map (·.name) ∧ SameShape opt.useComments new old := by
  rw [changesOf_eq, allChanges_eq] at h
  simp only [List.mem_append] at h
  rcases h with h | h | h | h
  · obtain ⟨⟨i, t', o⟩, he, hc⟩ := List.mem_flatMap.1 h
    obtain ⟨h1, _, h3⟩ := mem_keptTables.1 he
    obtain ⟨h4, h5⟩ := lastBy_some h3
    rcases mem_tableChanges hc with ⟨_, _, h⟩ | ⟨p, hp, hc⟩ | ⟨_, _, h⟩ | ⟨n, _, h⟩ | ⟨p, hp, h⟩ | ⟨_, h⟩ |
      ⟨_, _, h⟩
    · cases h
    · rcases mem_columnChanges (keptColumns_name hp) hc with h | h | h | h | h <;> cases h
    · cases h
    · cases h
    · cases h
      obtain ⟨e1, e2, e3, e4, _, e6⟩ := columnPairs_spec (((hs.2 i) _).mem_iff.1 hp)
      exact ⟨List.mem_of_getElem? h1, o, h4, h5, e3, e1, e4, e2, e6⟩
    · cases h
    · cases h
  · obtain ⟨t, _, h⟩ := List.mem_map.1 h; cases h
  · obtain ⟨p, hp, hc⟩ := List.mem_flatMap.1 h
    rw [renameBlock_changes] at hc
    simp only [List.mem_append] at hc
    rcases hc with hc | hc | hc
    · split at hc <;> simp at hc
    · simp at hc
    · split at hc <;> simp at hc
  · obtain ⟨t, _, h⟩ := List.mem_map.1 h; cases h

/-- C27: inside a table, the dropped columns and the rename sources are together exactly the vanished
columns, each once. -/
theorem C27_columns_accounted (sched : List (Column × Column) → List (Column × Column))
    (hs : ∀ l, (sched l).Perm l) (author : Str) (t o : Table) (uc : Bool) (suffix : Str) (id : ChangeSetID)
    (ho : (o.columns.map (·.name)).Nodup) :
    let cs := changesOf (diffTable sched author t o uc suffix id).out
    (droppedColumns cs ++ (columnRenamings cs).map (·.1.name)).Perm
      ((o.columns.map (·.name)).filter (fun n => decide (n ∉ t.columns.map (·.name)))) := by
  intro cs
  simp only [cs, changesOf_diffTable, droppedColumns_tableChanges, columnRenamings_tableChanges,
    List.map_map]
  have hpart := findRenames_partition o.columnNameMap (fun a b => a.isRenamed b (!uc))
    Column.name (fun n r h => (lastBy_some h).2) (addedColumns t o) (removedNames t o) (nodup_removedNames t o)
  refine (((slice_perm _).append ((hs _).map _)).trans List.perm_append_comm).trans (hpart.trans ?_)
  rw [List.perm_ext_iff_of_nodup (nodup_removedNames t o) (ho.filter _)]
  intro n
  rw [mem_removedNames, List.mem_filter, decide_eq_true_eq]

example : columnRenamings (changesOf (getDiff exOpt idSched)) =
    [({ name := "age"ₛ, type := "int32"ₛ }, { name := "years"ₛ, type := "int32"ₛ })] := by decide +kernel
example : ∃ p, p ∈ tableRenamings (changesOf (getDiff exOpt idSched)) := by
  exact ⟨(exFrom.tables[1], exTo.tables[1]), by decide +kernel⟩

end Octo
