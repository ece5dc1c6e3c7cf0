import Verif.Lemmas.MigrateDb
import Verif.Props.DiffTables

/-! Property theorem C30: applying the diff migrates a database. -/

namespace Octo
open Spec

/-- C30, restricted: for schemas with distinct names, without group filter, and where in every table
that exists in both versions each new column is matched by a vanished column of the same shape, the
reported changes are accepted one after the other by a database with the old structure and turn it
into the new one.  Missing for the full claim: tables that gain columns for good
(`C30_violated`), and the column attributes that are not compared at all (`C30_unseen`). -/
theorem C30_apply_partial (opt : DiffOption) (sched : Sched) (hs : sched.Fair)
    (hf : opt.tableFilter = none) (hfrom : DistinctNames opt.diffFrom) (hto : DistinctNames opt.diffTo)
    (hadd : ∀ t ∈ opt.diffTo.tables, ∀ o ∈ opt.diffFrom.tables, o.name = t.name →
      NoNetAdditions opt.useComments t o) :
    Runs ((changesOf (getDiff opt sched)).map (meaning opt.useComments opt.uniqueNameSuffix))
      (dbOf (attrOf opt.useComments) opt.uniqueNameSuffix opt.diffFrom)
      (dbOf (attrOf opt.useComments) opt.uniqueNameSuffix opt.diffTo) := by
  have hkept : ∀ e ∈ keptTables opt, e.2.1 ∈ opt.diffTo.tables ∧ e.2.2 ∈ opt.diffFrom.tables ∧
      e.2.2.name = e.2.1.name := by
    rintro ⟨i, t, o⟩ he
    obtain ⟨h1, _, h3⟩ := mem_keptTables.1 he
    exact ⟨List.mem_of_getElem? h1, (lastBy_some h3).1, (lastBy_some h3).2⟩
  have h := migrate_db (attrOf opt.useComments) opt.uniqueNameSuffix opt sched.tables hs.1 hf hfrom.1 hto.1
    (fun e => (tableChanges (sched.columns e.1) e.2.1 e.2.2 opt.useComments opt.uniqueNameSuffix).map
      (topOf opt.useComments))
    (fun p => (blockChanges (renameBlock opt.uniqueNameSuffix p)).map (meaning opt.useComments opt.uniqueNameSuffix))
    (fun t => [meaning opt.useComments opt.uniqueNameSuffix (.createTable t)])
    (by
      intro e he
      obtain ⟨h1, h2, h3⟩ := hkept e he
      exact tRuns_tableChanges _ (hs.2 e.1) _ _ _ _ h3 (hto.2 _ h1) (hfrom.2 _ h2) (hadd _ h1 _ h2 h3))
    (by
      intro p hp d hd hn
      obtain ⟨h1, h2, h3, h4⟩ := renamedPairs_source hp
      rw [renameBlock_changes]
      have hne : p.1.name ≠ p.2.name := by
        intro e
        have := (mem_addedTables.1 h1).2.2
        rw [e] at this
        exact this (mem_removedTableNames.1 h3).1
      have := runs_renameBlock h2 hne d hd hn
      simp only [List.map_append, apply_ite (List.map (meaning opt.useComments opt.uniqueNameSuffix)),
        List.map_cons, List.map_nil, meaning]
      exact this)
    (fun t _ d hd => runs_one ⟨hd, rfl⟩)
  convert h using 1
  rw [changesOf_eq, allChanges_eq]
  simp only [List.map_append, List.map_flatMap, List.map_map]
  congr 1
  · apply List.flatMap_congr
    intro e he
    have := meaning_inside (sched := sched.columns e.1) (uc := opt.useComments) (suffix := opt.uniqueNameSuffix)
      (suffix' := opt.uniqueNameSuffix) (hkept e he).2.2
    rw [this, List.map_map]
  · congr 1
    · have : ∀ l : List Str, (∀ n ∈ l, (opt.diffFrom.tablesByName n).isSome) →
          (l.filterMap opt.diffFrom.tablesByName).map
            (meaning opt.useComments opt.uniqueNameSuffix ∘ Change.dropTable) = l.map DbOp.dropTable := by
        intro l hl
        induction l with
        | nil => rfl
        | cons n l ih =>
          obtain ⟨t, ht⟩ := Option.isSome_iff_exists.1 (hl n (by simp))
          rw [List.filterMap_cons_some ht, List.map_cons, List.map_cons, ih (fun m hm => hl m (by simp [hm]))]
          simp [meaning, (lastBy_some ht).2]
      apply this
      intro n hn
      have := findRenames_rest_subset _ _ _ _ n (mem_slice.1 hn)
      exact lastBy_isSome.2 (mem_removedTableNames.1 this).1
    · congr 1
      rw [List.map_eq_flatMap]
      rfl

/-- C30 does not hold in general: here the diff is empty although a column was added. -/
theorem C30_violated : ¬∀ (opt : DiffOption) (sched : Sched), sched.Fair → opt.tableFilter = none →
    DistinctNames opt.diffFrom → DistinctNames opt.diffTo →
    Runs ((changesOf (getDiff opt sched)).map (meaning opt.useComments opt.uniqueNameSuffix))
      (dbOf (attrOf opt.useComments) opt.uniqueNameSuffix opt.diffFrom)
      (dbOf (attrOf opt.useComments) opt.uniqueNameSuffix opt.diffTo) := by
  intro h
  let o : Table := { name := "x"ₛ, columns := [{ name := "i"ₛ, type := "int32"ₛ }] }
  let t : Table := { name := "x"ₛ, columns := [{ name := "i"ₛ, type := "int32"ₛ },
    { name := "j"ₛ, type := "date"ₛ }] }
  have hd : getDiff { diffFrom := { tables := [o] }, diffTo := { tables := [t] } } idSched = [] := by
    decide +kernel
  have h1 := h { diffFrom := { tables := [o] }, diffTo := { tables := [t] } } idSched idSched_fair rfl
    (by unfold DistinctNames; decide) (by unfold DistinctNames; decide)
  rw [hd] at h1
  have h2 := congrFun h1 "x"ₛ
  have e1 := dbOf_some (attr := attrOf false) (suffix := []) (s := { tables := [t] }) (by decide) (List.mem_singleton.2 rfl)
  have e2 := dbOf_some (attr := attrOf false) (suffix := []) (s := { tables := [o] }) (by decide) (List.mem_singleton.2 rfl)
  have h3 : some (dbTable (attrOf false) [] t) = some (dbTable (attrOf false) [] o) := e1.symm.trans (h2.trans e2)
  have h4 := congrArg (fun T => T.cols "j"ₛ) (Option.some.inj h3)
  revert h4
  simp only [dbTable]
  decide +kernel

/-- C30: two versions can differ in the on-update expression, in the values of an enum, in the
reference of a column or in the indices of a table without any change being reported. -/
theorem C30_unseen : ∃ o t : Table, o.name = t.name ∧ (o.columns.map (·.onUpdate)) ≠ (t.columns.map (·.onUpdate)) ∧
    (o.columns.map (·.values)) ≠ (t.columns.map (·.values)) ∧ (o.columns.map (·.ref)) ≠ (t.columns.map (·.ref)) ∧
    o.indices ≠ t.indices ∧
    ∀ sched : Sched, sched.Fair → getDiff { diffFrom := { tables := [o] }, diffTo := { tables := [t] }, useComments := true } sched = [] := by
  refine ⟨{ name := "x"ₛ, columns := [{ name := "i"ₛ, type := "enum"ₛ, values := ["a"ₛ] }] },
    { name := "x"ₛ
      columns := [{ name := "i"ₛ, type := "enum"ₛ, values := ["b"ₛ], onUpdate := "b"ₛ, ref := some ⟨"y"ₛ, "z"ₛ, []⟩ }]
      indices := [{ name := "k"ₛ, columns := ["i"ₛ] }] },
    rfl, by decide, by decide, by decide, by decide, ?_⟩
  intro sched hs
  refine (C28_identical _ idSched sched idSched_fair hs ?_ ?_).symm.trans ?_
  · decide +kernel
  · decide +kernel
  · decide +kernel

example : ∀ t ∈ exTo.tables, ∀ o ∈ exFrom.tables, o.name = t.name → NoNetAdditions false t o := by
  intro t ht o ho hn k
  have : (t, o) = (exTo.tables[0], exFrom.tables[0]) := by
    revert t o; decide +kernel
  simp only [Prod.mk.injEq] at this
  obtain ⟨rfl, rfl⟩ := this
  have h1 : (exTo.tables[0].columns.filter (fun c => decide (c.name ∉ exFrom.tables[0].columns.map (·.name)))).map
      (shapeKey false) = [{ type := "int32"ₛ }] := by decide +kernel
  have h2 : (exFrom.tables[0].columns.filter (fun c => decide (c.name ∉ exTo.tables[0].columns.map (·.name)))).map
      (shapeKey false) = [{ type := "int32"ₛ }] := by decide +kernel
  rw [h1, h2]

/-! ## C32, C33 for the whole diff -/

/-- C33 (and C32): in the whole diff, the changes of a table present in both versions are exactly the
changes of comparing the two versions of that table, in that order. -/
theorem C33_whole_diff (opt : DiffOption) (sched : Sched) (hs : sched.Fair)
    (hfrom : (opt.diffFrom.tables.map (·.name)).Nodup) (hto : (opt.diffTo.tables.map (·.name)).Nodup)
    (i : Nat) (t o : Table) (ht : opt.diffTo.tables[i]? = some t) (hp : passes opt.tableFilter t = true)
    (ho : o ∈ opt.diffFrom.tables) (hn : o.name = t.name) (author : Str) (id : ChangeSetID) :
    (changesOf (getDiff opt sched)).filter (fun c => c.depTable.name == t.name) =
      changesOf (diffTable (sched.columns i) author t o opt.useComments opt.uniqueNameSuffix id).out := by
  have he : (i, t, o) ∈ keptTables opt := mem_keptTables.2 ⟨ht, hp, by rw [← hn]; exact lastBy_nodup hfrom ho⟩
  have htm := List.mem_of_getElem? ht
  have hmo : t.name ∈ opt.diffFrom.tables.map (·.name) := hn ▸ List.mem_map_of_mem ho
  have hmt : t.name ∈ (opt.diffTo.tables.filter (passes opt.tableFilter)).map (·.name) :=
    List.mem_map_of_mem (List.mem_filter.2 ⟨htm, hp⟩)
  rw [changesOf_diffTable, changesOf_eq, allChanges_eq]
  simp only [List.filter_append]
  have hnil : ∀ (l : List Change), (∀ c ∈ l, c.depTable.name ≠ t.name) →
      l.filter (fun c => c.depTable.name == t.name) = [] := by
    intro l hl
    rw [List.filter_eq_nil_iff]
    intro c hc h
    exact hl c hc (by simpa using h)
  have hrem : ∀ n ∈ (removedTableNames opt).keys, n ≠ t.name := by
    rintro n h rfl; exact (mem_removedTableNames.1 h).2 hmt
  have hadd : ∀ u ∈ addedTables opt, u.name ≠ t.name := by
    intro u hu e; exact (mem_addedTables.1 hu).2.2 (e ▸ hmo)
  rw [hnil (((tableRenames opt).2.slice.filterMap opt.diffFrom.tablesByName).map .dropTable) ?_,
    hnil ((sched.tables (renamedPairs (tableRenames opt).1)).flatMap _) ?_,
    hnil ((notRenamed (tableRenames opt).1).map .createTable) ?_, List.append_nil, List.append_nil, List.append_nil]
  · -- the kept tables
    have hkey : ∀ (l : List (Nat × Table × Table)), l.Nodup → (∀ e ∈ l, e ∈ keptTables opt) → (i, t, o) ∈ l →
        (l.flatMap (fun e => tableChanges (sched.columns e.1) e.2.1 e.2.2 opt.useComments
          opt.uniqueNameSuffix)).filter (fun c => c.depTable.name == t.name) =
        tableChanges (sched.columns i) t o opt.useComments opt.uniqueNameSuffix := by
      have hother : ∀ e ∈ keptTables opt, e ≠ (i, t, o) → e.2.1.name ≠ t.name := by
        rintro ⟨j, u, p⟩ hu hne e
        obtain ⟨h1, _, h3⟩ := mem_keptTables.1 hu
        have hut : u = t := eq_of_nodup_map hto (List.mem_of_getElem? h1) htm e
        subst hut
        have hij : j = i := by
          have hnd := List.Nodup.of_map _ hto
          obtain ⟨hj, ej⟩ := List.getElem?_eq_some_iff.1 h1
          obtain ⟨hi, ei⟩ := List.getElem?_eq_some_iff.1 ht
          exact (List.Nodup.getElem_inj_iff hnd).1 (ej.trans ei.symm)
        subst hij
        rw [(mem_keptTables.1 he).2.2, Option.some.injEq] at h3
        exact hne (by rw [h3])
      intro l hnd hsub hmem
      obtain ⟨l1, l2, rfl⟩ := List.append_of_mem hmem
      have hdis : ∀ e, e ∈ l1 ∨ e ∈ l2 → e ≠ (i, t, o) := by
        rintro e he' rfl
        rw [List.nodup_append] at hnd
        rcases he' with h | h
        · exact hnd.2.2 _ h _ (by simp) rfl
        · exact (List.nodup_cons.1 hnd.2.1).1 h
      have hz : ∀ l' : List (Nat × Table × Table), (∀ e ∈ l', e ∈ l1 ∨ e ∈ l2) →
          (l'.flatMap (fun e => tableChanges (sched.columns e.1) e.2.1 e.2.2 opt.useComments
          opt.uniqueNameSuffix)).filter (fun c => c.depTable.name == t.name) = [] := by
        intro l' hl'
        apply hnil
        intro c hc
        obtain ⟨e, he', hc⟩ := List.mem_flatMap.1 hc
        have hk : e ∈ keptTables opt := hsub e (by
          rcases hl' e he' with h | h <;> simp [h])
        have hno := hother e hk (hdis e (hl' e he'))
        rw [(tableChanges_inside (lastBy_some (mem_keptTables.1 hk).2.2).2 c hc).2]
        exact hno
      rw [List.flatMap_append, List.flatMap_cons, List.filter_append, List.filter_append,
        hz l1 (fun e h => Or.inl h), hz l2 (fun e h => Or.inr h), List.nil_append, List.append_nil,
        List.filter_eq_self]
      intro c hc
      rw [(tableChanges_inside hn c hc).2]
      simp
    refine hkey _ ?_ (fun _ h => h) he
    -- positions are distinct
    have hz : (opt.diffTo.tables.zipIdx).Nodup := by
      refine List.Nodup.of_map Prod.fst ?_
      rw [List.zipIdx_map_fst]
      exact List.Nodup.of_map _ hto
    refine List.Nodup.filterMap ?_ hz
    rintro ⟨a, j⟩ ⟨a', j'⟩ ⟨k, u, p⟩ h1 h2
    simp only [Option.mem_def] at h1 h2
    split at h1
    · split at h2
      · obtain ⟨_, _, e1⟩ := Option.map_eq_some_iff.1 h1
        obtain ⟨_, _, e2⟩ := Option.map_eq_some_iff.1 h2
        simp only [Prod.mk.injEq] at e1 e2
        simp only [Prod.mk.injEq]
        exact ⟨e1.2.1.trans e2.2.1.symm, e1.1.trans e2.1.symm⟩
      · cases h2
    · cases h1
  · intro c hc
    obtain ⟨u, hu, rfl⟩ := List.mem_map.1 hc
    exact hadd u ((findRenames_split opt.diffFrom.tablesByName (fun a b : Table => a.columns == b.columns)
      (addedTables opt) (removedTableNames opt)).mem_iff.1 (List.mem_append_right _ hu))
  · intro c hc
    obtain ⟨p, hp', hc⟩ := List.mem_flatMap.1 hc
    obtain ⟨h1, _, h3, _⟩ := renamedPairs_source ((hs.1 _).mem_iff.1 hp')
    rw [renameBlock_changes] at hc
    simp only [List.mem_append] at hc
    rcases hc with hc | hc | hc
    · split at hc <;> simp at hc
      subst hc; exact hrem _ h3
    · simp at hc
      subst hc; exact hrem _ h3
    · split at hc <;> simp at hc
      subst hc; exact hadd _ h1
  · intro c hc
    obtain ⟨u, hu, rfl⟩ := List.mem_map.1 hc
    obtain ⟨n, hn', hu⟩ := List.mem_filterMap.1 hu
    have := hrem n (findRenames_rest_subset _ _ _ _ n (mem_slice.1 hn'))
    rw [← (lastBy_some hu).2] at this
    exact this

/-- C33: the first table of the example is in both versions. -/
example := C33_whole_diff ⟨none, exFrom, exTo, [], [], false⟩ idSched idSched_fair (by decide) (by decide) 0 exTo.tables[0]
  exFrom.tables[0] rfl rfl (.head _) rfl

end Octo
