import Verif.Props.DiffBack

/-! Property C147: what a diff does to the stored values. -/

namespace Octo
open Spec

/-- What becomes of a cell. -/
theorem cell_fate (opt : DiffOption) (s : Sched) (hs : s.Fair) (hf : opt.tableFilter = none)
    (ha : DistinctNames opt.diffFrom)
    (o : Table) (ho : o ∈ opt.diffFrom.tables) (c : Column) (hco : c ∈ o.columns) :
    (cellAfter (changesOf (getDiff opt s)) (o.name, c.name) = some (o.name, c.name) ∧
      ∃ t ∈ opt.diffTo.tables, t.name = o.name ∧ ∃ n ∈ t.columns, n.name = c.name) ∨
    (∃ t, (o, t) ∈ tableRenamings (changesOf (getDiff opt s)) ∧
      cellAfter (changesOf (getDiff opt s)) (o.name, c.name) = some (t.name, c.name)) ∨
    (∃ i t n, (i, t, o) ∈ keptTables opt ∧ (n, c) ∈ renamedPairs (columnRenames t o opt.useComments).1 ∧
      cellAfter (changesOf (getDiff opt s)) (o.name, c.name) = some (t.name, n.name)) ∨
    (cellAfter (changesOf (getDiff opt s)) (o.name, c.name) = none ∧
      (o ∈ droppedTables (changesOf (getDiff opt s)) ∨
       ∃ t, .dropColumn t c.name ∈ changesOf (getDiff opt s) ∧ t.name = o.name)) := by
  obtain ⟨_, a2⟩ := accounted opt s hs hf ha.1
  rcases cellAfter_first (fun _ h => h) (moved_rests hs hf ha.1 (o.name, c.name)) with ⟨e, hno⟩ | ⟨d, hd, hne, e⟩
  · refine Or.inl ⟨e, ?_⟩
    by_cases hname : o.name ∈ opt.diffTo.tables.map (·.name)
    · obtain ⟨t, ht, hto⟩ := List.mem_map.1 hname
      refine ⟨t, ht, hto, ?_⟩
      by_contra hcol
      have hcol' : c.name ∉ t.columns.map (·.name) := fun h => hcol (by
        obtain ⟨n, hn, e⟩ := List.mem_map.1 h; exact ⟨n, hn, e⟩)
      obtain ⟨i, hi⟩ := List.mem_iff_getElem?.1 ht
      have hkept : (i, t, o) ∈ keptTables opt :=
        mem_keptTables.2 ⟨hi, by rw [hf]; rfl, by rw [hto]; exact lastBy_nodup ha.1 ho⟩
      have hin := (columns_matching t o opt.useComments (ha.2 o ho)).2.mem_iff.2
        (mem_addedColumns.2 ⟨hco, hcol'⟩)
      rcases List.mem_append.1 hin with h | h
      · obtain ⟨n, hn, hc'⟩ := List.mem_filterMap.1 h
        obtain ⟨_, rfl⟩ := lastBy_some hc'
        have := hno _ (mem_dropColumn.2 ⟨i, o, hkept, hn⟩)
        rw [cellStep, if_pos ⟨hto, rfl⟩] at this
        cases this
      · obtain ⟨p, hp, rfl⟩ := List.mem_map.1 h
        obtain ⟨q, hq, rfl⟩ := List.mem_map.1 hp
        have := hno _ ((mem_renameColumn hs).2 ⟨i, o, hkept, hq⟩)
        rw [cellStep, if_pos ⟨hto, rfl⟩] at this
        exact hcol ⟨q.1, (columnPairs_spec hq).1, (Prod.mk.inj (Option.some.inj this)).2⟩
    · exfalso
      rcases List.mem_append.1 (a2.mem_iff.2 (mem_onlyIn.2 ⟨ho, hname⟩)) with h | h
      · have := hno _ (mem_dropTable.2 h)
        rw [cellStep, if_pos rfl] at this
        cases this
      · obtain ⟨p, hp, rfl⟩ := List.mem_map.1 h
        have := hno _ (mem_renameTable.2 hp)
        rw [cellStep, if_pos rfl] at this
        exact hname (List.mem_map.2 ⟨p.2, (C27_table_renames opt s hs p hp).2.1, (Prod.mk.inj (Option.some.inj this)).1⟩)
  · rw [e]
    refine Or.inr ?_
    rcases cellStep_touch hne with ⟨t, rfl, e1⟩ | ⟨o', t, rfl, e1⟩ | ⟨t, rfl, e1⟩ | ⟨t, a, n, rfl, e1, e2⟩
    · have hm := mem_dropTable.1 hd
      have := (mem_onlyIn.1 (a2.mem_iff.1 (List.mem_append_left _ hm))).1
      rw [eq_of_nodup_map ha.1 this ho e1] at hm
      exact Or.inr (Or.inr ⟨by rw [cellStep, if_pos e1], Or.inl hm⟩)
    · have hm := mem_renameTable.1 hd
      have : o' ∈ opt.diffFrom.tables := (C27_table_renames opt s hs _ hm).1
      rw [eq_of_nodup_map ha.1 this ho e1] at hm
      exact Or.inl ⟨t, hm, by rw [cellStep, if_pos e1]⟩
    · exact Or.inr (Or.inr ⟨by rw [cellStep, if_pos ⟨e1, rfl⟩], Or.inr ⟨t, hd, e1⟩⟩)
    · obtain ⟨i, o', hk, hp⟩ := (mem_renameColumn hs).1 hd
      obtain ⟨g1, g2, g3⟩ := kept_spec hk
      have hoo : o' = o := eq_of_nodup_map ha.1 g2 ho (g3.trans e1)
      subst hoo
      have hac : a = c := eq_of_nodup_map (ha.2 o' g2) (columnPairs_spec hp).2.2.1 hco e2
      subst hac
      exact Or.inr (Or.inl ⟨i, t, n, hk, hp, by rw [cellStep, if_pos ⟨e1, rfl⟩, e1]⟩)

/-- C147: a value survives a diff in a cell of the new schema: under the same names; or, in a renamed
table, in the same column; or in a renamed column of the same shape. -/
theorem C147_place (opt : DiffOption) (s : Sched) (hs : s.Fair) (hf : opt.tableFilter = none)
    (ha : DistinctNames opt.diffFrom)
    (o : Table) (ho : o ∈ opt.diffFrom.tables) (c : Column) (hco : c ∈ o.columns) (y : Str × Str)
    (hy : cellAfter (changesOf (getDiff opt s)) (o.name, c.name) = some y) :
    ∃ t ∈ opt.diffTo.tables, ∃ n ∈ t.columns, y = (t.name, n.name) ∧
      ((t.name = o.name ∧ n.name = c.name) ∨ (t.columns = o.columns ∧ n = c) ∨
       (t.name = o.name ∧ SameShape opt.useComments n c)) := by
  rcases cell_fate opt s hs hf ha o ho c hco with ⟨h, t, ht, e1, n, hn, e2⟩ | ⟨t, hm, h⟩ | ⟨i, t, n, hk, hp, h⟩ | ⟨h, _⟩
  · exact ⟨t, ht, n, hn, by rw [e1, e2]; exact (Option.some.inj (h.symm.trans hy)).symm, Or.inl ⟨e1, e2⟩⟩
  · obtain ⟨_, g2, _, _, _, g6⟩ := C27_table_renames opt s hs _ hm
    exact ⟨t, g2, c, by rw [← g6]; exact hco, (Option.some.inj (h.symm.trans hy)).symm, Or.inr (Or.inl ⟨g6.symm, rfl⟩)⟩
  · obtain ⟨g1, _, g3⟩ := kept_spec hk
    have := columnPairs_spec hp
    exact ⟨t, g1, n, this.1, (Option.some.inj (h.symm.trans hy)).symm, Or.inr (Or.inr ⟨g3.symm, this.2.2.2.2.2⟩)⟩
  · rw [h] at hy; cases hy

/-- C147: the values of two cells never end up in the same cell. -/
theorem C147_apart (opt : DiffOption) (s : Sched) (hs : s.Fair) (hf : opt.tableFilter = none)
    (ha : DistinctNames opt.diffFrom) (hc : DistinctNames opt.diffTo)
    (o : Table) (ho : o ∈ opt.diffFrom.tables) (c : Column) (hco : c ∈ o.columns)
    (o' : Table) (ho' : o' ∈ opt.diffFrom.tables) (c' : Column) (hco' : c' ∈ o'.columns) (y : Str × Str)
    (hy : cellAfter (changesOf (getDiff opt s)) (o.name, c.name) = some y)
    (hy' : cellAfter (changesOf (getDiff opt s)) (o'.name, c'.name) = some y) : o = o' ∧ c = c' := by
  have names : o.name = o'.name → c.name = c'.name → o = o' ∧ c = c' := fun e1 e2 => by
    obtain rfl := eq_of_nodup_map ha.1 ho ho' e1
    exact ⟨rfl, eq_of_nodup_map (ha.2 o ho) hco hco' e2⟩
  have moved : ∀ (a b t : Table) (x z : Str), a ∈ opt.diffFrom.tables →
      (b, t) ∈ tableRenamings (changesOf (getDiff opt s)) → (a.name, x) ≠ (t.name, z) := by
    intro a b t x z h1 h2 e
    exact (C27_table_renames opt s hs _ h2).2.2.2.2.1 (List.mem_map.2 ⟨a, h1, (Prod.mk.inj e).1⟩)
  have fresh : ∀ (a b : Table) (x : Column) (i : Nat) (t : Table) (n d : Column), a ∈ opt.diffFrom.tables →
      x ∈ a.columns → (i, t, b) ∈ keptTables opt → (n, d) ∈ renamedPairs (columnRenames t b opt.useComments).1 →
      (a.name, x.name) ≠ (t.name, n.name) := by
    intro a b x i t n d h1 h2 hk hp e
    obtain ⟨e1, e2⟩ := Prod.mk.inj e
    obtain ⟨_, g2, g3⟩ := kept_spec hk
    have : a = b := eq_of_nodup_map ha.1 h1 g2 (e1.trans g3.symm)
    subst this
    exact (columnPairs_spec hp).2.1 (List.mem_map.2 ⟨x, h2, e2⟩)
  obtain ⟨a1, _⟩ := accounted opt s hs hf ha.1
  have hkeep : ∀ i t b, (i, t, b) ∈ keptTables opt → ∃ a ∈ opt.diffFrom.tables, a.name = t.name := by
    intro i t b hk
    exact ⟨b, (kept_spec hk).2.1, (kept_spec hk).2.2⟩
  rcases cell_fate opt s hs hf ha o ho c hco with ⟨h, _⟩ | ⟨t, hm, h⟩ | ⟨i, t, n, hk, hp, h⟩ | ⟨h, _⟩ <;>
  rcases cell_fate opt s hs hf ha o' ho' c' hco' with ⟨h', _⟩ | ⟨t', hm', h'⟩ | ⟨i', t', n', hk', hp', h'⟩ | ⟨h', _⟩ <;>
  first
  | (rw [h] at hy; cases hy; done)
  | (rw [h'] at hy'; cases hy'; done)
  | skip
  all_goals have e := Option.some.inj (h.symm.trans (hy.trans (hy'.symm.trans h')))
  · exact names (Prod.mk.inj e).1 (Prod.mk.inj e).2
  · exact absurd e (moved _ _ _ _ _ ho hm')
  · exact absurd e (fresh _ _ _ _ _ _ _ ho hco hk' hp')
  · exact absurd e.symm (moved _ _ _ _ _ ho' hm)
  · obtain ⟨e1, e2⟩ := Prod.mk.inj e
    have ht : t = t' := eq_of_nodup_map hc.1 (C27_table_renames opt s hs _ hm).2.1
      (C27_table_renames opt s hs _ hm').2.1 e1
    subst ht
    have hnd : ((tableRenamings (changesOf (getDiff opt s))).map Prod.snd).Nodup := by
      have : (onlyIn opt.diffTo opt.diffFrom).Nodup := (List.Nodup.of_map _ hc.1).filter _
      exact (List.nodup_append.1 (a1.nodup_iff.2 this)).2.1
    have := List.inj_on_of_nodup_map hnd hm hm' rfl
    cases this
    exact names rfl e2
  · obtain ⟨a, ha1, ha2⟩ := hkeep _ _ _ hk'
    exact absurd (show (a.name, n'.name) = (t.name, c.name) by rw [ha2]; exact e.symm) (moved _ _ _ _ _ ha1 hm)
  · exact absurd e.symm (fresh _ _ _ _ _ _ _ ho' hco' hk hp)
  · obtain ⟨a, ha1, ha2⟩ := hkeep _ _ _ hk
    exact absurd (show (a.name, n.name) = (t'.name, c'.name) by rw [ha2]; exact e) (moved _ _ _ _ _ ha1 hm')
  · obtain ⟨e1, e2⟩ := Prod.mk.inj e
    obtain ⟨g1, g2, g3⟩ := kept_spec hk
    obtain ⟨k1, k2, k3⟩ := kept_spec hk'
    have ht : t = t' := eq_of_nodup_map hc.1 g1 k1 e1
    subst ht
    have hoo : o = o' := eq_of_nodup_map ha.1 g2 k2 (g3.trans k3.symm)
    subst hoo
    have hnn : n = n' := eq_of_nodup_map (hc.2 t g1) (columnPairs_spec hp).1 (columnPairs_spec hp').1 e2
    subst hnn
    have hnd : ((renamedPairs (columnRenames t o opt.useComments).1).map Prod.fst).Nodup := by
      have : (addedColumns t o).Nodup := (List.Nodup.of_map _ (hc.2 t g1)).filter _
      exact (List.nodup_append.1 ((findRenames_split _ _ _ _).nodup_iff.2 this)).1
    have := List.inj_on_of_nodup_map hnd hp hp' rfl
    cases this
    exact ⟨rfl, rfl⟩

/-- C147: a value is lost exactly if its table is dropped or its column is dropped from its table; in
particular values whose table and column the new schema has are where they were. -/
theorem C147_lost_exact (opt : DiffOption) (s : Sched) (hs : s.Fair) (hf : opt.tableFilter = none)
    (ha : DistinctNames opt.diffFrom) (hc : (opt.diffTo.tables.map (·.name)).Nodup)
    (o : Table) (ho : o ∈ opt.diffFrom.tables) (c : Column) (hco : c ∈ o.columns) :
    (cellAfter (changesOf (getDiff opt s)) (o.name, c.name) = none ↔
      o ∈ droppedTables (changesOf (getDiff opt s)) ∨
      ∃ t, .dropColumn t c.name ∈ changesOf (getDiff opt s) ∧ t.name = o.name) ∧
    (∀ t ∈ opt.diffTo.tables, t.name = o.name → c.name ∈ t.columns.map (·.name) →
      cellAfter (changesOf (getDiff opt s)) (o.name, c.name) = some (o.name, c.name)) := by
  obtain ⟨_, a2⟩ := accounted opt s hs hf ha.1
  constructor
  · constructor
    · intro h
      rcases cell_fate opt s hs hf ha o ho c hco with ⟨h', _⟩ | ⟨_, _, h'⟩ | ⟨_, _, _, _, _, h'⟩ | ⟨_, h'⟩
      · rw [h'] at h; cases h
      · rw [h'] at h; cases h
      · rw [h'] at h; cases h
      · exact h'
    · intro h
      have hnd : (onlyIn opt.diffFrom opt.diffTo).Nodup := (List.Nodup.of_map _ ha.1).filter _
      have hsum := a2.nodup_iff.2 hnd
      rcases cell_fate opt s hs hf ha o ho c hco with ⟨h', t, ht, e1, n, hn, e2⟩ | ⟨t, hm, h'⟩ |
        ⟨i, t, n, hk, hp, h'⟩ | ⟨h', _⟩
      · exfalso
        rcases h with h | ⟨t', h, e3⟩
        · exact (mem_onlyIn.1 (a2.mem_iff.1 (List.mem_append_left _ h))).2 (List.mem_map.2 ⟨t, ht, e1⟩)
        · obtain ⟨i, o', hk, hr⟩ := mem_dropColumn.1 h
          obtain ⟨g1, _, _⟩ := kept_spec hk
          have : t' = t := eq_of_nodup_map hc g1 ht (e3.trans e1.symm)
          subst this
          exact (mem_removedNames.1 (findRenames_rest_subset _ _ _ _ _ hr)).2 (List.mem_map.2 ⟨n, hn, e2⟩)
      · exfalso
        rcases h with h | ⟨t', h, e3⟩
        · exact absurd rfl ((List.nodup_append.1 hsum).2.2 _ h _ (List.mem_map_of_mem (f := Prod.fst) hm))
        · obtain ⟨i, o', hk, hr⟩ := mem_dropColumn.1 h
          obtain ⟨g1, _, _⟩ := kept_spec hk
          exact (mem_onlyIn.1 (a2.mem_iff.1 (List.mem_append_right _ (List.mem_map_of_mem (f := Prod.fst) hm)))).2
            (List.mem_map.2 ⟨t', g1, e3⟩)
      · exfalso
        obtain ⟨g1, g2, g3⟩ := kept_spec hk
        rcases h with h | ⟨t', h, e3⟩
        · exact (mem_onlyIn.1 (a2.mem_iff.1 (List.mem_append_left _ h))).2 (List.mem_map.2 ⟨t, g1, g3.symm⟩)
        · obtain ⟨i', o', hk', hr⟩ := mem_dropColumn.1 h
          obtain ⟨k1, k2, k3⟩ := kept_spec hk'
          have ht : t' = t := eq_of_nodup_map hc k1 g1 (e3.trans g3)
          subst ht
          have hoo : o' = o := eq_of_nodup_map ha.1 k2 g2 (k3.trans g3.symm)
          subst hoo
          have hcols := (columns_matching t' o' opt.useComments (ha.2 o' g2)).2
          have hcnd := hcols.nodup_iff.2 ((List.Nodup.of_map _ (ha.2 o' g2)).filter _)
          exact absurd rfl ((List.nodup_append.1 hcnd).2.2 c
            (List.mem_filterMap.2 ⟨c.name, hr, lastBy_nodup (ha.2 o' g2) hco⟩) c
            (List.mem_map.2 ⟨(c, n), List.mem_map.2 ⟨_, hp, rfl⟩, rfl⟩))
      · exact h'
  · intro t ht e hcol
    refine cellAfter_same fun d hd => ?_
    by_contra h
    rcases touched_gone hs hf ha.1 hd h with ⟨h3, _⟩ | ⟨t', h3, _, _, h4, _, _, h5⟩
    · exact h3 (List.mem_map.2 ⟨t, ht, e⟩)
    · rw [eq_of_nodup_map hc h3 ht (h4.trans e.symm)] at h5
      exact h5 hcol

/-- Two changes of a diff that touch the same cell do the same to it. -/
theorem touch_unique {opt : DiffOption} {s : Sched} (hs : s.Fair) (hf : opt.tableFilter = none)
    (ha : DistinctNames opt.diffFrom) (hc : (opt.diffTo.tables.map (·.name)).Nodup) {x : Str × Str} {c c' : Change}
    (h : c ∈ changesOf (getDiff opt s)) (h' : c' ∈ changesOf (getDiff opt s))
    (ht : cellStep c x ≠ some x) (ht' : cellStep c' x ≠ some x) : cellStep c x = cellStep c' x := by
  obtain ⟨_, a2⟩ := accounted opt s hs hf ha.1
  have hsum : ((droppedTables (changesOf (getDiff opt s)) ++
      (tableRenamings (changesOf (getDiff opt s))).map Prod.fst).map (·.name)).Nodup := by
    refine (a2.map _).nodup_iff.2 ?_
    rw [onlyIn]
    exact (List.Nodup.sublist ((List.filter_sublist).map _) ha.1)
  rw [List.map_append, List.map_map] at hsum
  have hdis : ∀ a b, a ∈ droppedTables (changesOf (getDiff opt s)) →
      b ∈ tableRenamings (changesOf (getDiff opt s)) → a.name ≠ b.1.name := fun a b h1 h2 =>
    (List.nodup_append.1 hsum).2.2 _ (List.mem_map_of_mem (f := (·.name)) h1) _
      (List.mem_map_of_mem (f := (fun t : Table => t.name) ∘ Prod.fst) h2)
  have hgone : ∀ t, t ∈ droppedTables (changesOf (getDiff opt s)) ∨
      (∃ n, (t, n) ∈ tableRenamings (changesOf (getDiff opt s))) → t.name ∉ opt.diffTo.tables.map (·.name) := by
    rintro t (h | ⟨n, h⟩)
    · exact (mem_onlyIn.1 (a2.mem_iff.1 (List.mem_append_left _ h))).2
    · exact (mem_onlyIn.1 (a2.mem_iff.1 (List.mem_append_right _ (List.mem_map_of_mem (f := Prod.fst) h)))).2
  have hkept : ∀ t i o, (i, t, o) ∈ keptTables opt → t.name ∈ opt.diffTo.tables.map (·.name) := fun t i o h =>
    List.mem_map_of_mem (kept_spec h).1
  have hsame : ∀ {i t o j u p}, (i, t, o) ∈ keptTables opt → (j, u, p) ∈ keptTables opt → t.name = u.name →
      t = u ∧ o = p := by
    intro i t o j u p h1 h2 e
    obtain ⟨g1, g2, g3⟩ := kept_spec h1
    obtain ⟨k1, k2, k3⟩ := kept_spec h2
    exact ⟨eq_of_nodup_map hc g1 k1 e, eq_of_nodup_map ha.1 g2 k2 (g3.trans (e.trans k3.symm))⟩
  have hcol : ∀ {i t o} {n a : Column}, (i, t, o) ∈ keptTables opt →
      (n, a) ∈ renamedPairs (columnRenames t o opt.useComments).1 →
      a.name ∉ (columnRenames t o opt.useComments).2.keys := by
    intro i t o n a hk hp hr
    obtain ⟨_, g2, _⟩ := kept_spec hk
    have hcnd := (columns_matching t o opt.useComments (ha.2 o g2)).2.nodup_iff.2
      ((List.Nodup.of_map _ (ha.2 o g2)).filter _)
    exact (List.nodup_append.1 hcnd).2.2 a
      (List.mem_filterMap.2 ⟨a.name, hr, (columnPairs_spec hp).2.2.2.2.1⟩) a
      (List.mem_map.2 ⟨(a, n), List.mem_map.2 ⟨_, hp, rfl⟩, rfl⟩) rfl
  rcases cellStep_touch ht with ⟨t, rfl, e⟩ | ⟨o, t, rfl, e⟩ | ⟨t, rfl, e⟩ | ⟨t, a, n, rfl, e1, e2⟩ <;>
  rcases cellStep_touch ht' with ⟨t', rfl, e'⟩ | ⟨o', t', rfl, e'⟩ | ⟨t', rfl, e'⟩ | ⟨t', a', n', rfl, e1', e2'⟩
  · rw [cellStep, cellStep, if_pos e, if_pos e']
  · exact absurd (e.trans e'.symm) (hdis t (o', t') (mem_dropTable.1 h) (mem_renameTable.1 h'))
  · obtain ⟨i, p, hk, _⟩ := mem_dropColumn.1 h'
    exact absurd (by rw [e, ← e']; exact hkept _ _ _ hk) (hgone t (Or.inl (mem_dropTable.1 h)))
  · obtain ⟨i, p, hk, _⟩ := (mem_renameColumn hs).1 h'
    exact absurd (by rw [e, ← e1']; exact hkept _ _ _ hk) (hgone t (Or.inl (mem_dropTable.1 h)))
  · exact absurd (e'.trans e.symm) (hdis t' (o, t) (mem_dropTable.1 h') (mem_renameTable.1 h))
  · have := List.inj_on_of_nodup_map (List.nodup_append.1 hsum).2.1 (mem_renameTable.1 h) (mem_renameTable.1 h')
      (e.trans e'.symm)
    cases this
    rfl
  · obtain ⟨i, p, hk, _⟩ := mem_dropColumn.1 h'
    exact absurd (by rw [e, ← e']; exact hkept _ _ _ hk) (hgone o (Or.inr ⟨t, mem_renameTable.1 h⟩))
  · obtain ⟨i, p, hk, _⟩ := (mem_renameColumn hs).1 h'
    exact absurd (by rw [e, ← e1']; exact hkept _ _ _ hk) (hgone o (Or.inr ⟨t, mem_renameTable.1 h⟩))
  · obtain ⟨i, p, hk, _⟩ := mem_dropColumn.1 h
    exact absurd (by rw [e', ← e]; exact hkept _ _ _ hk) (hgone t' (Or.inl (mem_dropTable.1 h')))
  · obtain ⟨i, p, hk, _⟩ := mem_dropColumn.1 h
    exact absurd (by rw [e', ← e]; exact hkept _ _ _ hk) (hgone o' (Or.inr ⟨t', mem_renameTable.1 h'⟩))
  · rw [cellStep, cellStep, if_pos ⟨e, rfl⟩, if_pos ⟨e', rfl⟩]
  · obtain ⟨i, p, hk, hr⟩ := mem_dropColumn.1 h
    obtain ⟨i', p', hk', hp⟩ := (mem_renameColumn hs).1 h'
    obtain ⟨rfl, rfl⟩ := hsame hk hk' (e.trans e1'.symm)
    exact absurd (by rw [e2']; exact hr) (hcol hk' hp)
  · obtain ⟨i, p, hk, _⟩ := (mem_renameColumn hs).1 h
    exact absurd (by rw [e', ← e1]; exact hkept _ _ _ hk) (hgone t' (Or.inl (mem_dropTable.1 h')))
  · obtain ⟨i, p, hk, _⟩ := (mem_renameColumn hs).1 h
    exact absurd (by rw [e', ← e1]; exact hkept _ _ _ hk) (hgone o' (Or.inr ⟨t', mem_renameTable.1 h'⟩))
  · obtain ⟨i, p, hk, hp⟩ := (mem_renameColumn hs).1 h
    obtain ⟨i', p', hk', hr⟩ := mem_dropColumn.1 h'
    obtain ⟨rfl, rfl⟩ := hsame hk hk' (e1.trans e'.symm)
    exact absurd (by rw [e2]; exact hr) (hcol hk hp)
  · obtain ⟨i, p, hk, hp⟩ := (mem_renameColumn hs).1 h
    obtain ⟨i', p', hk', hp'⟩ := (mem_renameColumn hs).1 h'
    obtain ⟨rfl, rfl⟩ := hsame hk hk' (e1.trans e1'.symm)
    obtain ⟨_, g2, _⟩ := kept_spec hk
    have : a = a' := eq_of_nodup_map (ha.2 p g2) (columnPairs_spec hp).2.2.1 (columnPairs_spec hp').2.2.1
      (e2.trans e2'.symm)
    subst this
    have hcnd := (columns_matching t p opt.useComments (ha.2 p g2)).2.nodup_iff.2
      ((List.Nodup.of_map _ (ha.2 p g2)).filter _)
    have := List.inj_on_of_nodup_map (List.nodup_append.1 hcnd).2.1 (List.mem_map.2 ⟨_, hp, rfl⟩)
      (List.mem_map.2 ⟨_, hp', rfl⟩) rfl
    cases this
    rfl

/-- The changes that touch cells do not depend on the iteration order of maps. -/
theorem touch_orders {opt : DiffOption} {s s' : Sched} (hs : s.Fair) (hs' : s'.Fair) {c : Change} {x : Str × Str}
    (h : c ∈ changesOf (getDiff opt s)) (ht : cellStep c x ≠ some x) : c ∈ changesOf (getDiff opt s') := by
  rcases cellStep_touch ht with ⟨t, rfl, e⟩ | ⟨o, t, rfl, e⟩ | ⟨t, rfl, e⟩ | ⟨t, a, n, rfl, e1, e2⟩
  · rw [mem_dropTable, droppedTables_diff] at h ⊢
    exact h
  · rw [mem_renameTable, tableRenamings_diff] at h ⊢
    exact (((hs.1 _).trans (hs'.1 _).symm).map _).mem_iff.1 h
  · exact mem_dropColumn.2 (mem_dropColumn.1 h)
  · exact (mem_renameColumn hs').2 ((mem_renameColumn hs).1 h)

/-- C147: where a value ends up does not depend on the iteration order of maps. -/
theorem C147_orders (opt : DiffOption) (s s' : Sched) (hs : s.Fair) (hs' : s'.Fair) (hf : opt.tableFilter = none)
    (ha : DistinctNames opt.diffFrom) (hc : (opt.diffTo.tables.map (·.name)).Nodup) (x : Str × Str) :
    cellAfter (changesOf (getDiff opt s)) x = cellAfter (changesOf (getDiff opt s')) x := by
  rcases cellAfter_first (fun _ h => h) (moved_rests hs hf ha.1 x) with ⟨e, hno⟩ | ⟨c, h, hne, e⟩ <;>
  rcases cellAfter_first (fun _ h => h) (moved_rests hs' hf ha.1 x) with ⟨e', hno'⟩ | ⟨c', h', hne', e'⟩
  · rw [e, e']
  · exact absurd (hno c' (touch_orders hs' hs h' hne')) hne'
  · exact absurd (hno' c (touch_orders hs hs' h hne)) hne
  · rw [e, e']
    exact touch_unique hs hf ha hc h (touch_orders hs' hs h' hne') hne hne'

/-- The fate of the cells of the running example: kept, moved with the column, moved with the table,
lost. -/
example : ([("user"ₛ, "name"ₛ), ("user"ₛ, "age"ₛ), ("log"ₛ, "msg"ₛ), ("old"ₛ, "x"ₛ)].map
    (cellAfter (changesOf (getDiff exOpt idSched)))) =
    [some ("user"ₛ, "name"ₛ), some ("user"ₛ, "years"ₛ), some ("journal"ₛ, "msg"ₛ), none] := by decide +kernel

end Octo
