import Verif.Props.Diff

/-! Property C146: a diff and the diff in the other direction. -/

namespace Octo
namespace Spec

/-- Where the value of a cell, given by table and column, is found after a change; `none` if the change
drops it. -/
def cellStep : Change → Str × Str → Option (Str × Str)
  | .dropTable t, x => if t.name = x.1 then none else some x
  | .renameTable o t, x => if o.name = x.1 then some (t.name, x.2) else some x
  | .dropColumn t d, x => if t.name = x.1 ∧ d = x.2 then none else some x
  | .renameColumn t o c, x => if t.name = x.1 ∧ o.name = x.2 then some (x.1, c.name) else some x
  | _, x => some x

/-- Where the value of a cell is found after a list of changes. -/
def cellAfter : List Change → Str × Str → Option (Str × Str)
  | [], x => some x
  | c :: cs, x => (cellStep c x).bind (cellAfter cs)

end Spec
open Spec

section Greedy
variable {α κ : Type} [DecidableEq κ]

theorem count_append_map {β : Type} (f : β → κ) (l m : List β) (k : κ) :
    ((l ++ m).map f).count k = (l.map f).count k + (m.map f).count k := by
  rw [List.map_append, List.count_append]

/-- A maximal matching of equal keys leaves over, for each key, the surplus of the larger side. -/
theorem matching_counts (key : α → κ) (C D : List α) (R : List (α × α)) (N O : List α)
    (hN : (C ++ R.map Prod.snd).Perm N) (hO : (D ++ R.map Prod.fst).Perm O)
    (hk : ∀ p ∈ R, key p.1 = key p.2) (hmax : ∀ c ∈ C, ∀ d ∈ D, key c ≠ key d) (k : κ) :
    (C.map key).count k = (N.map key).count k - (O.map key).count k ∧
    (D.map key).count k = (O.map key).count k - (N.map key).count k ∧
    (R.map fun p => key p.1).count k = min ((N.map key).count k) ((O.map key).count k) := by
  have h1 := (hN.map key).count_eq k
  have h2 := (hO.map key).count_eq k
  rw [count_append_map] at h1 h2
  have e1 : (R.map Prod.snd).map key = R.map fun p => key p.1 := by
    rw [List.map_map]; exact List.map_congr_left fun p hp => (hk p hp).symm
  have e2 : (R.map Prod.fst).map key = R.map fun p => key p.1 := by rw [List.map_map]; rfl
  rw [e1] at h1
  rw [e2] at h2
  have h3 : (C.map key).count k = 0 ∨ (D.map key).count k = 0 := by
    by_contra h
    obtain ⟨h4, h5⟩ := not_or.1 h
    obtain ⟨c, hc, ec⟩ := List.mem_map.1 (List.count_pos_iff.1 (Nat.pos_of_ne_zero h4))
    obtain ⟨d, hd, ed⟩ := List.mem_map.1 (List.count_pos_iff.1 (Nat.pos_of_ne_zero h5))
    exact hmax c hc d hd (ec.trans ed.symm)
  omega

/-- Two maximal matchings in opposite directions leave over the same keys. -/
theorem matching_back (key : α → κ) (C D C' D' : List α) (R R' : List (α × α)) (N O : List α)
    (hN : (C ++ R.map Prod.snd).Perm N) (hO : (D ++ R.map Prod.fst).Perm O)
    (hk : ∀ p ∈ R, key p.1 = key p.2) (hmax : ∀ c ∈ C, ∀ d ∈ D, key c ≠ key d)
    (hN' : (C' ++ R'.map Prod.snd).Perm O) (hO' : (D' ++ R'.map Prod.fst).Perm N)
    (hk' : ∀ p ∈ R', key p.1 = key p.2) (hmax' : ∀ c ∈ C', ∀ d ∈ D', key c ≠ key d) :
    (C.map key).Perm (D'.map key) ∧ (D.map key).Perm (C'.map key) ∧
    (R.map fun p => key p.1).Perm (R'.map fun p => key p.1) := by
  have h := matching_counts key C D R N O hN hO hk hmax
  have h' := matching_counts key C' D' R' O N hN' hO' hk' hmax'
  refine ⟨List.perm_iff_count.2 fun k => ?_, List.perm_iff_count.2 fun k => ?_, List.perm_iff_count.2 fun k => ?_⟩
  · rw [(h k).1, (h' k).2.1]
  · rw [(h k).2.1, (h' k).1]
  · rw [(h k).2.2, (h' k).2.2, Nat.min_comm]

omit [DecidableEq κ] in
/-- When no two elements of a side share a key, a maximal matching pairs exactly the elements with
equal keys. -/
theorem matching_unique (key : α → κ) (C D : List α) (R : List (α × α)) (N O : List α)
    (hN : (C ++ R.map Prod.snd).Perm N) (hO : (D ++ R.map Prod.fst).Perm O)
    (hk : ∀ p ∈ R, key p.1 = key p.2) (hmax : ∀ c ∈ C, ∀ d ∈ D, key c ≠ key d)
    (hn : (N.map key).Nodup) (ho : (O.map key).Nodup) (p : α × α) :
    p ∈ R ↔ p.1 ∈ O ∧ p.2 ∈ N ∧ key p.1 = key p.2 := by
  constructor
  · intro hp
    exact ⟨hO.mem_iff.1 (List.mem_append_right _ (List.mem_map_of_mem hp)),
      hN.mem_iff.1 (List.mem_append_right _ (List.mem_map_of_mem hp)), hk p hp⟩
  · rintro ⟨h1, h2, h3⟩
    rcases List.mem_append.1 (hO.mem_iff.2 h1) with hd | hd
    · rcases List.mem_append.1 (hN.mem_iff.2 h2) with hc | hc
      · exact absurd h3.symm (hmax _ hc _ hd)
      · obtain ⟨q, hq, e⟩ := List.mem_map.1 hc
        have e1 : q.1 = p.1 := List.inj_on_of_nodup_map ho
          (hO.mem_iff.1 (List.mem_append_right _ (List.mem_map_of_mem hq))) h1
          ((hk q hq).trans (by rw [e]; exact h3.symm))
        rw [show p = q from Prod.ext e1.symm e.symm]
        exact hq
    · obtain ⟨q, hq, e⟩ := List.mem_map.1 hd
      have e1 : q.2 = p.2 := List.inj_on_of_nodup_map hn
        (hN.mem_iff.1 (List.mem_append_right _ (List.mem_map_of_mem hq))) h2
        ((hk q hq).symm.trans (by rw [e]; exact h3))
      rw [show p = q from Prod.ext e.symm e1.symm]
      exact hq

omit [DecidableEq κ] in
/-- … so the matching in the other direction is the inverse. -/
theorem matching_inverse (key : α → κ) (C D C' D' : List α) (R R' : List (α × α)) (N O : List α)
    (hN : (C ++ R.map Prod.snd).Perm N) (hO : (D ++ R.map Prod.fst).Perm O)
    (hk : ∀ p ∈ R, key p.1 = key p.2) (hmax : ∀ c ∈ C, ∀ d ∈ D, key c ≠ key d)
    (hN' : (C' ++ R'.map Prod.snd).Perm O) (hO' : (D' ++ R'.map Prod.fst).Perm N)
    (hk' : ∀ p ∈ R', key p.1 = key p.2) (hmax' : ∀ c ∈ C', ∀ d ∈ D', key c ≠ key d)
    (hn : (N.map key).Nodup) (ho : (O.map key).Nodup) :
    R'.Perm (R.map Prod.swap) := by
  have nd : ∀ (X : List α) (S : List (α × α)) (Y : List α), (X ++ S.map Prod.snd).Perm Y → (Y.map key).Nodup →
      S.Nodup := fun X S Y h hy =>
    List.Nodup.of_map Prod.snd (List.nodup_append.1 (h.nodup_iff.2 (List.Nodup.of_map key hy))).2.1
  have h1 := nd C R N hN hn
  have h2 := nd C' R' O hN' ho
  rw [List.perm_ext_iff_of_nodup h2 (h1.map Prod.swap_injective)]
  intro p
  rw [matching_unique key C' D' R' O N hN' hO' hk' hmax' ho hn p, List.mem_map]
  constructor
  · rintro ⟨a, b, c⟩
    exact ⟨p.swap, (matching_unique key C D R N O hN hO hk hmax hn ho p.swap).2 ⟨b, a, c.symm⟩, Prod.swap_swap p⟩
  · rintro ⟨q, hq, rfl⟩
    obtain ⟨a, b, c⟩ := (matching_unique key C D R N O hN hO hk hmax hn ho q).1 hq
    exact ⟨b, a, c.symm⟩

end Greedy

/-- No created table has the columns of a dropped one. -/
theorem created_not_dropped (opt : DiffOption) (sched : Sched) :
    ∀ c ∈ createdTables (changesOf (getDiff opt sched)), ∀ d ∈ droppedTables (changesOf (getDiff opt sched)),
      c.columns ≠ d.columns := by
  intro c hc d hd
  rw [createdTables_diff] at hc
  rw [droppedTables_diff] at hd
  obtain ⟨n, hn, e⟩ := List.mem_filterMap.1 hd
  have := findRenames_maximal opt.diffFrom.tablesByName (fun a b => a.columns == b.columns) (addedTables opt)
    (removedTableNames opt) c hc n ((slice_perm _).mem_iff.1 hn) d e
  intro h
  rw [h] at this
  simp at this

/-- The tables of a schema without a counterpart in another. -/
def Spec.onlyIn (a b : Schema) : List Table := a.tables.filter fun t => decide (t.name ∉ b.tables.map (·.name))

/-- The bookkeeping of C26 without a filter. -/
theorem accounted (opt : DiffOption) (sched : Sched) (hs : sched.Fair) (hf : opt.tableFilter = none)
    (hfrom : (opt.diffFrom.tables.map (·.name)).Nodup) :
    (createdTables (changesOf (getDiff opt sched)) ++ (tableRenamings (changesOf (getDiff opt sched))).map Prod.snd).Perm
      (onlyIn opt.diffTo opt.diffFrom) ∧
    (droppedTables (changesOf (getDiff opt sched)) ++ (tableRenamings (changesOf (getDiff opt sched))).map Prod.fst).Perm
      (onlyIn opt.diffFrom opt.diffTo) := by
  have h := C26_tables_accounted opt sched hs hfrom
  have e : opt.diffTo.tables.filter (passes opt.tableFilter) = opt.diffTo.tables := by
    rw [List.filter_eq_self]; intro t _; rw [hf]; rfl
  simp only [e] at h
  exact ⟨h.2, h.1⟩

/-- C146: a diff and the diff in the other direction: what the first creates the second drops, table by
table the same column lists, and vice versa; both report the same number of renames, of tables with
the same column lists – for every choice of the iteration orders and of the other options. -/
theorem C146_tables (fwd bwd : DiffOption) (s s' : Sched) (hs : s.Fair) (hs' : s'.Fair)
    (hf : fwd.tableFilter = none) (hb : bwd.tableFilter = none)
    (h1 : bwd.diffFrom = fwd.diffTo) (h2 : bwd.diffTo = fwd.diffFrom)
    (ha : (fwd.diffFrom.tables.map (·.name)).Nodup) (hc : (fwd.diffTo.tables.map (·.name)).Nodup) :
    let cs := changesOf (getDiff fwd s)
    let cs' := changesOf (getDiff bwd s')
    ((createdTables cs).map (·.columns)).Perm ((droppedTables cs').map (·.columns)) ∧
    ((droppedTables cs).map (·.columns)).Perm ((createdTables cs').map (·.columns)) ∧
    ((tableRenamings cs).map (·.1.columns)).Perm ((tableRenamings cs').map (·.1.columns)) := by
  intro cs cs'
  obtain ⟨a1, a2⟩ := accounted fwd s hs hf ha
  obtain ⟨b1, b2⟩ := accounted bwd s' hs' hb (by rw [h1]; exact hc)
  rw [h1, h2] at b1 b2
  exact matching_back Table.columns _ _ _ _ _ _ _ _ a1 a2 (fun p hp => (C27_table_renames fwd s hs p hp).2.2.2.2.2)
    (created_not_dropped fwd s) b1 b2 (fun p hp => (C27_table_renames bwd s' hs' p hp).2.2.2.2.2)
    (created_not_dropped bwd s')

/-- C146: if neither of the two versions has two unmatched tables with the same column list, the renames
of the diff in the other direction are exactly the reversed ones. -/
theorem C146_renames_partial (fwd bwd : DiffOption) (s s' : Sched) (hs : s.Fair) (hs' : s'.Fair)
    (hf : fwd.tableFilter = none) (hb : bwd.tableFilter = none)
    (h1 : bwd.diffFrom = fwd.diffTo) (h2 : bwd.diffTo = fwd.diffFrom)
    (ha : (fwd.diffFrom.tables.map (·.name)).Nodup) (hc : (fwd.diffTo.tables.map (·.name)).Nodup)
    (hn : ((onlyIn fwd.diffTo fwd.diffFrom).map (·.columns)).Nodup)
    (ho : ((onlyIn fwd.diffFrom fwd.diffTo).map (·.columns)).Nodup) :
    (tableRenamings (changesOf (getDiff bwd s'))).Perm
      ((tableRenamings (changesOf (getDiff fwd s))).map Prod.swap) := by
  obtain ⟨a1, a2⟩ := accounted fwd s hs hf ha
  obtain ⟨b1, b2⟩ := accounted bwd s' hs' hb (by rw [h1]; exact hc)
  rw [h1, h2] at b1 b2
  exact matching_inverse Table.columns _ _ _ _ _ _ _ _ a1 a2
    (fun p hp => (C27_table_renames fwd s hs p hp).2.2.2.2.2)
    (created_not_dropped fwd s) b1 b2 (fun p hp => (C27_table_renames bwd s' hs' p hp).2.2.2.2.2)
    (created_not_dropped bwd s') hn ho


/-! ### Columns -/

/-- The columns of a table that another version of it has not. -/
theorem columns_matching (t o : Table) (uc : Bool) (ho : (o.columns.map (·.name)).Nodup) :
    (notRenamed (columnRenames t o uc).1 ++
      ((renamedPairs (columnRenames t o uc).1).map Prod.swap).map Prod.snd).Perm (addedColumns t o) ∧
    ((columnRenames t o uc).2.keys.filterMap o.columnNameMap ++
      ((renamedPairs (columnRenames t o uc).1).map Prod.swap).map Prod.fst).Perm (addedColumns o t) := by
  constructor
  · rw [List.map_map]
    exact List.perm_append_comm.trans (findRenames_split _ _ _ _)
  · have hname : ∀ n r, o.columnNameMap n = some r → r.name = n := fun n r h => (lastBy_some h).2
    have hpart := findRenames_partition o.columnNameMap (fun a b => a.isRenamed b (!uc))
      Column.name hname (addedColumns t o) (removedNames t o) (nodup_removedNames t o)
    have e1 : ((renamedPairs (columnRenames t o uc).1).map Prod.swap).map Prod.fst =
        ((renamedPairs (columnRenames t o uc).1).map fun p => p.2.name).filterMap o.columnNameMap := by
      rw [List.map_map, List.filterMap_map]
      have : ∀ l : List (Column × Column), (∀ p ∈ l, o.columnNameMap p.2.name = some p.2) →
          l.map (Prod.fst ∘ Prod.swap) = l.filterMap (o.columnNameMap ∘ fun p => p.2.name) := by
        intro l
        induction l with
        | nil => intro _; rfl
        | cons p l ih =>
          intro h
          rw [List.map_cons, ih (fun q hq => h q (List.mem_cons_of_mem _ hq)),
            List.filterMap_cons_some (by simpa using h p List.mem_cons_self)]
          rfl
      exact this _ fun p hp => (columnPairs_spec hp).2.2.2.2.1
    rw [e1]
    refine List.perm_append_comm.trans ?_
    rw [← List.filterMap_append]
    refine (hpart.filterMap _).trans ?_
    have hnd1 : ((removedNames t o).keys.filterMap o.columnNameMap).Nodup := by
      refine List.Nodup.filterMap ?_ (nodup_removedNames t o)
      intro a a' b hb hb'
      rw [Option.mem_def] at hb hb'
      rw [← hname _ _ hb, ← hname _ _ hb']
    have hnd2 : (addedColumns o t).Nodup := (List.Nodup.of_map _ ho).filter _
    rw [List.perm_ext_iff_of_nodup hnd1 hnd2]
    intro c
    rw [List.mem_filterMap, mem_addedColumns]
    constructor
    · rintro ⟨n, hn, hc⟩
      obtain ⟨h1, rfl⟩ := lastBy_some hc
      exact ⟨h1, (mem_removedNames.1 hn).2⟩
    · rintro ⟨h1, h2⟩
      exact ⟨c.name, mem_removedNames.2 ⟨List.mem_map_of_mem h1, h2⟩, lastBy_nodup ho h1⟩

theorem columns_maximal (t o : Table) (uc : Bool) :
    ∀ c ∈ notRenamed (columnRenames t o uc).1, ∀ d ∈ (columnRenames t o uc).2.keys.filterMap o.columnNameMap,
      shapeKey uc c ≠ shapeKey uc d := by
  intro c hc d hd h
  obtain ⟨n, hn, e⟩ := List.mem_filterMap.1 hd
  have := findRenames_maximal o.columnNameMap (fun a b => a.isRenamed b (!uc)) (addedColumns t o)
    (removedNames t o) c hc n hn d e
  rw [(isRenamed_iff c d uc).2 ((shapeKey_iff uc c d).1 h)] at this
  cases this

theorem columns_same (t o : Table) (uc : Bool) :
    ∀ p ∈ (renamedPairs (columnRenames t o uc).1).map Prod.swap, shapeKey uc p.1 = shapeKey uc p.2 := by
  intro p hp
  obtain ⟨q, hq, rfl⟩ := List.mem_map.1 hp
  exact ((shapeKey_iff uc _ _).2 (columnPairs_spec hq).2.2.2.2.2).symm

/-- When the columns only one version has are all of different shapes, exactly those of equal shape
are paired. -/
theorem columns_unique (t o : Table) (uc : Bool) (ho : (o.columns.map (·.name)).Nodup)
    (h1 : ((addedColumns t o).map (shapeKey uc)).Nodup) (h2 : ((addedColumns o t).map (shapeKey uc)).Nodup)
    (c d : Column) : (c, d) ∈ renamedPairs (columnRenames t o uc).1 ↔
      d ∈ addedColumns o t ∧ c ∈ addedColumns t o ∧ shapeKey uc d = shapeKey uc c := by
  rw [← matching_unique (shapeKey uc) _ _ _ _ _ (columns_matching t o uc ho).1 (columns_matching t o uc ho).2
    (columns_same t o uc) (columns_maximal t o uc) h1 h2 (d, c), List.mem_map]
  constructor
  · intro h; exact ⟨_, h, rfl⟩
  · rintro ⟨q, hq, e⟩
    rw [show (c, d) = q from by rw [← Prod.swap_swap q, e]; rfl]
    exact hq

/-! ### Cells -/

theorem cellStep_some {c : Change} {x y : Str × Str} (h : cellStep c x = some y) (hne : y ≠ x) :
    (∃ o t, c = .renameTable o t ∧ o.name = x.1 ∧ y = (t.name, x.2)) ∨
    (∃ t o n, c = .renameColumn t o n ∧ t.name = x.1 ∧ o.name = x.2 ∧ y = (x.1, n.name)) := by
  cases c <;> simp only [cellStep] at h <;>
    first
    | exact absurd (Option.some.inj h).symm hne
    | skip
  · split at h
    · cases h
    · exact absurd (Option.some.inj h).symm hne
  · split at h
    · rename_i o t e
      exact Or.inl ⟨o, t, rfl, e, (Option.some.inj h).symm⟩
    · exact absurd (Option.some.inj h).symm hne
  · split at h
    · cases h
    · exact absurd (Option.some.inj h).symm hne
  · split at h
    · rename_i t o n e
      exact Or.inr ⟨t, o, n, rfl, e.1, e.2, (Option.some.inj h).symm⟩
    · exact absurd (Option.some.inj h).symm hne

theorem cellAfter_same {cs : List Change} {x : Str × Str} (h : ∀ c ∈ cs, cellStep c x = some x) :
    cellAfter cs x = some x := by
  induction cs with
  | nil => rfl
  | cons c cs ih =>
    rw [cellAfter, h c List.mem_cons_self, Option.bind_some]
    exact ih fun d hd => h d (List.mem_cons_of_mem _ hd)

/-- If the places a cell may be moved to are not touched by any change, the first change that touches
the cell decides. -/
theorem cellAfter_first {cs all : List Change} {x : Str × Str} (hsub : ∀ c ∈ cs, c ∈ all)
    (h : ∀ c ∈ all, ∀ y, cellStep c x = some y → y ≠ x → ∀ d ∈ all, cellStep d y = some y) :
    cellAfter cs x = some x ∧ (∀ c ∈ cs, cellStep c x = some x) ∨
    ∃ c ∈ cs, cellStep c x ≠ some x ∧ cellAfter cs x = cellStep c x := by
  induction cs with
  | nil => exact Or.inl ⟨rfl, nofun⟩
  | cons c cs ih =>
    by_cases hc : cellStep c x = some x
    · rw [cellAfter, hc, Option.bind_some]
      rcases ih (fun d hd => hsub d (List.mem_cons_of_mem _ hd)) with ⟨h1, h2⟩ | ⟨d, hd, h1, h2⟩
      · exact Or.inl ⟨h1, fun d hd => by
          rcases List.mem_cons.1 hd with rfl | hd
          · exact hc
          · exact h2 d hd⟩
      · exact Or.inr ⟨d, List.mem_cons_of_mem _ hd, h1, h2⟩
    · refine Or.inr ⟨c, List.mem_cons_self, hc, ?_⟩
      rw [cellAfter]
      cases e : cellStep c x with
      | none => rfl
      | some y =>
        rw [Option.bind_some]
        exact cellAfter_same fun d hd => h c (hsub c List.mem_cons_self) y e
          (fun e' => hc (by rw [e, e'])) d (hsub d (List.mem_cons_of_mem _ hd))

/-- What a diff says about a cell. -/
theorem mem_dropTable {opt : DiffOption} {sched : Sched} {t : Table} :
    .dropTable t ∈ changesOf (getDiff opt sched) ↔ t ∈ droppedTables (changesOf (getDiff opt sched)) := by
  rw [droppedTables, List.mem_filterMap]
  constructor
  · intro h; exact ⟨_, h, rfl⟩
  · rintro ⟨c, hc, e⟩
    cases c <;> first | (cases e; exact hc) | cases e

theorem mem_renameTable {opt : DiffOption} {sched : Sched} {o t : Table} :
    .renameTable o t ∈ changesOf (getDiff opt sched) ↔ (o, t) ∈ tableRenamings (changesOf (getDiff opt sched)) := by
  rw [tableRenamings, List.mem_filterMap]
  constructor
  · intro h; exact ⟨_, h, rfl⟩
  · rintro ⟨c, hc, e⟩
    cases c <;> first | (cases e; exact hc) | cases e

theorem mem_renameColumn {opt : DiffOption} {sched : Sched} (hs : sched.Fair) {t : Table} {a b : Column} :
    .renameColumn t a b ∈ changesOf (getDiff opt sched) ↔ ∃ i o, (i, t, o) ∈ keptTables opt ∧
      (b, a) ∈ renamedPairs (columnRenames t o opt.useComments).1 := by
  constructor
  · intro h
    rcases mem_allChanges h with ⟨i, t', o, he, hc⟩ | ⟨_, e⟩ | ⟨_, _, e⟩ | ⟨_, _, e⟩ | ⟨_, _, e⟩ | ⟨_, e⟩ <;>
      try cases e
    rcases mem_tableChanges hc with ⟨_, _, e⟩ | ⟨p, hp, hc⟩ | ⟨_, _, e⟩ | ⟨n, _, e⟩ | ⟨p, hp, e⟩ | ⟨_, e⟩ |
      ⟨_, _, e⟩
    · cases e
    · rcases mem_columnChanges (keptColumns_name hp) hc with h | h | h | h | h <;> cases h
    · cases e
    · cases e
    · cases e
      exact ⟨i, o, he, (hs.2 i _).mem_iff.1 hp⟩
    · cases e
    · cases e
  · rintro ⟨i, o, he, hp⟩
    rw [changesOf_eq, allChanges_eq]
    refine List.mem_append_left _ (List.mem_flatMap.2 ⟨_, he, ?_⟩)
    rw [tableChanges_eq]
    simp only [List.mem_append, List.mem_map]
    exact Or.inr (Or.inr (Or.inr (Or.inr (Or.inl ⟨_, (hs.2 i _).mem_iff.2 hp, rfl⟩))))

theorem mem_dropColumn {opt : DiffOption} {sched : Sched} {t : Table} {n : Str} :
    .dropColumn t n ∈ changesOf (getDiff opt sched) ↔ ∃ i o, (i, t, o) ∈ keptTables opt ∧
      n ∈ (columnRenames t o opt.useComments).2.keys := by
  constructor
  · intro h
    rcases mem_allChanges h with ⟨i, t', o, he, hc⟩ | ⟨_, e⟩ | ⟨_, _, e⟩ | ⟨_, _, e⟩ | ⟨_, _, e⟩ | ⟨_, e⟩ <;>
      try cases e
    rcases mem_tableChanges hc with ⟨_, _, e⟩ | ⟨p, hp, hc⟩ | ⟨_, _, e⟩ | ⟨n, hn, e⟩ | ⟨p, hp, e⟩ | ⟨_, e⟩ |
      ⟨_, _, e⟩
    · cases e
    · rcases mem_columnChanges (keptColumns_name hp) hc with h | h | h | h | h <;> cases h
    · cases e
    · cases e
      exact ⟨i, o, he, hn⟩
    · cases e
    · cases e
    · cases e
  · rintro ⟨i, o, he, hp⟩
    rw [changesOf_eq, allChanges_eq]
    refine List.mem_append_left _ (List.mem_flatMap.2 ⟨_, he, ?_⟩)
    rw [tableChanges_eq]
    simp only [List.mem_append, List.mem_map]
    exact Or.inr (Or.inr (Or.inr (Or.inl ⟨n, (slice_perm _).mem_iff.2 hp, rfl⟩)))

theorem cellStep_touch {c : Change} {x : Str × Str} (h : cellStep c x ≠ some x) :
    (∃ t, c = .dropTable t ∧ t.name = x.1) ∨ (∃ o t, c = .renameTable o t ∧ o.name = x.1) ∨
    (∃ t, c = .dropColumn t x.2 ∧ t.name = x.1) ∨
    (∃ t o n, c = .renameColumn t o n ∧ t.name = x.1 ∧ o.name = x.2) := by
  cases c <;> simp only [cellStep] at h <;> try exact absurd rfl h
  · split at h
    · rename_i t e; exact Or.inl ⟨t, rfl, e⟩
    · exact absurd rfl h
  · split at h
    · rename_i o t e; exact Or.inr (Or.inl ⟨o, t, rfl, e⟩)
    · exact absurd rfl h
  · split at h
    · rename_i t d e; exact Or.inr (Or.inr (Or.inl ⟨t, by rw [e.2], e.1⟩))
    · exact absurd rfl h
  · split at h
    · rename_i t o n e; exact Or.inr (Or.inr (Or.inr ⟨t, o, n, rfl, e.1, e.2⟩))
    · exact absurd rfl h

theorem kept_spec {opt : DiffOption} {i : Nat} {t o : Table} (h : (i, t, o) ∈ keptTables opt) :
    t ∈ opt.diffTo.tables ∧ o ∈ opt.diffFrom.tables ∧ o.name = t.name := by
  obtain ⟨h1, _, h3⟩ := mem_keptTables.1 h
  exact ⟨List.mem_of_getElem? h1, (lastBy_some h3).1, (lastBy_some h3).2⟩

theorem mem_onlyIn {a b : Schema} {t : Table} :
    t ∈ onlyIn a b ↔ t ∈ a.tables ∧ t.name ∉ b.tables.map (·.name) := by
  rw [onlyIn, List.mem_filter, decide_eq_true_eq]

/-- A cell is touched only if it has no place in the new version. -/
theorem touched_gone {opt : DiffOption} {sched : Sched} (hs : sched.Fair) (hf : opt.tableFilter = none)
    (hfrom : (opt.diffFrom.tables.map (·.name)).Nodup) {c : Change}
    (hc : c ∈ changesOf (getDiff opt sched)) {x : Str × Str} (h : cellStep c x ≠ some x) :
    x.1 ∉ opt.diffTo.tables.map (·.name) ∧ (∃ o ∈ opt.diffFrom.tables, o.name = x.1) ∨
    ∃ t ∈ opt.diffTo.tables, ∃ o ∈ opt.diffFrom.tables, t.name = x.1 ∧ o.name = x.1 ∧
      x.2 ∈ o.columns.map (·.name) ∧ x.2 ∉ t.columns.map (·.name) := by
  obtain ⟨_, a2⟩ := accounted opt sched hs hf hfrom
  rcases cellStep_touch h with ⟨t, rfl, e⟩ | ⟨o, t, rfl, e⟩ | ⟨t, rfl, e⟩ | ⟨t, o, n, rfl, e1, e2⟩
  · obtain ⟨h1, h2⟩ := mem_onlyIn.1 (a2.mem_iff.1 (List.mem_append_left _ (mem_dropTable.1 hc)))
    exact Or.inl ⟨by rw [← e]; exact h2, t, h1, e⟩
  · obtain ⟨h1, h2⟩ := mem_onlyIn.1 (a2.mem_iff.1 (List.mem_append_right _
      (List.mem_map_of_mem (f := Prod.fst) (mem_renameTable.1 hc))))
    exact Or.inl ⟨by rw [← e]; exact h2, o, h1, e⟩
  · obtain ⟨i, o, hk, hn⟩ := mem_dropColumn.1 hc
    obtain ⟨h1, h2, h3⟩ := kept_spec hk
    obtain ⟨h4, h5⟩ := mem_removedNames.1 (findRenames_rest_subset _ _ _ _ _ hn)
    exact Or.inr ⟨t, h1, o, h2, e, h3.trans e, h4, h5⟩
  · obtain ⟨i, o', hk, hn⟩ := (mem_renameColumn hs).1 hc
    obtain ⟨h1, h2, h3⟩ := kept_spec hk
    obtain ⟨_, _, h6, h7, _, _⟩ := columnPairs_spec hn
    exact Or.inr ⟨t, h1, o', h2, e1, h3.trans e1, List.mem_map.2 ⟨o, h6, e2⟩, by rw [← e2]; exact h7⟩

/-- A cell is moved to a place that no change touches. -/
theorem moved_rests {opt : DiffOption} {sched : Sched} (hs : sched.Fair) (hf : opt.tableFilter = none)
    (hfrom : (opt.diffFrom.tables.map (·.name)).Nodup) (x : Str × Str) :
    ∀ c ∈ changesOf (getDiff opt sched), ∀ y, cellStep c x = some y → y ≠ x →
      ∀ d ∈ changesOf (getDiff opt sched), cellStep d y = some y := by
  intro c hc y hy hne d hd
  by_contra h
  have hg := touched_gone hs hf hfrom hd h
  rcases cellStep_some hy hne with ⟨o, t, rfl, _, rfl⟩ | ⟨t, o, n, rfl, e1, e2, rfl⟩
  · have := (C27_table_renames opt sched hs (o, t) (mem_renameTable.1 hc)).2.2.2.2.1
    rcases hg with ⟨_, o', h1, h2⟩ | ⟨_, _, o', h1, _, h2, _⟩ <;> exact this (List.mem_map.2 ⟨o', h1, h2⟩)
  · obtain ⟨i, o', hk, hn⟩ := (mem_renameColumn hs).1 hc
    obtain ⟨h1, h2, h3⟩ := kept_spec hk
    obtain ⟨_, h6, _⟩ := columnPairs_spec hn
    rcases hg with ⟨h4, _⟩ | ⟨_, _, o2, h4, _, h5, h7, _⟩
    · exact h4 (List.mem_map.2 ⟨t, h1, e1⟩)
    · have : o2 = o' := eq_of_nodup_map hfrom h4 h2 (by rw [h5, h3, e1])
      rw [this] at h7
      exact h6 h7

/-- No two tables that only one of the versions has are alike, nor two columns that only one version of
a table has. -/
structure Spec.NoTwins (uc : Bool) (a b : Schema) : Prop where
  tables : ((onlyIn a b).map (·.columns)).Nodup
  columns : ∀ t ∈ a.tables, ∀ o ∈ b.tables, o.name = t.name →
    ((t.columns.filter fun c => decide (c.name ∉ o.columns.map (·.name))).map (shapeKey uc)).Nodup

theorem addedColumns_eq (t o : Table) :
    addedColumns t o = t.columns.filter fun c => decide (c.name ∉ o.columns.map (·.name)) := by
  rw [addedColumns]
  refine List.filter_congr fun c _ => ?_
  rw [Bool.eq_iff_iff, Table.columnNameMap, lastBy_isNone, decide_eq_true_eq]

/-- C146: a value that survives the way to the new version comes back to where it was, when the diff in
the other direction is applied – if neither version has two alike tables, or columns in a table, that
the other version has not. -/
theorem C146_values_partial (fwd bwd : DiffOption) (s s' : Sched) (hs : s.Fair) (hs' : s'.Fair)
    (hf : fwd.tableFilter = none) (hb : bwd.tableFilter = none)
    (h1 : bwd.diffFrom = fwd.diffTo) (h2 : bwd.diffTo = fwd.diffFrom) (hu : bwd.useComments = fwd.useComments)
    (ha : DistinctNames fwd.diffFrom) (hc : DistinctNames fwd.diffTo)
    (hn : NoTwins fwd.useComments fwd.diffTo fwd.diffFrom) (ho : NoTwins fwd.useComments fwd.diffFrom fwd.diffTo)
    (o : Table) (hot : o ∈ fwd.diffFrom.tables) (c : Column) (hco : c ∈ o.columns) (y : Str × Str)
    (hy : cellAfter (changesOf (getDiff fwd s)) (o.name, c.name) = some y) :
    cellAfter (changesOf (getDiff bwd s')) y = some (o.name, c.name) := by
  have hbf : (bwd.diffFrom.tables.map (·.name)).Nodup := by rw [h1]; exact hc.1
  rcases cellAfter_first (fun _ h => h) (moved_rests hs hf ha.1 (o.name, c.name)) with ⟨e, _⟩ | ⟨d, hd, hne, e⟩
  · -- the cell stays
    obtain rfl : (o.name, c.name) = y := Option.some.inj (e.symm.trans hy)
    refine cellAfter_same fun d hd => ?_
    by_contra h
    rcases touched_gone hs' hb hbf hd h with ⟨h3, _⟩ | ⟨t, h3, _, _, h4, _, _, h5⟩
    · rw [h2] at h3
      exact h3 (List.mem_map_of_mem hot)
    · rw [h2] at h3
      rw [eq_of_nodup_map ha.1 h3 hot h4] at h5
      exact h5 (List.mem_map_of_mem hco)
  · have hstep := e.symm.trans hy
    have hyne : y ≠ (o.name, c.name) := fun h => hne (by rw [hstep, h])
    have hbwd := cellAfter_first (fun _ h => h) (moved_rests hs' hb hbf y)
    obtain ⟨_, b2⟩ := accounted bwd s' hs' hb hbf
    have hinv := C146_renames_partial fwd bwd s s' hs hs' hf hb h1 h2 ha.1 hc.1 hn.tables ho.tables
    have hnd : ((droppedTables (changesOf (getDiff bwd s')) ++
        (tableRenamings (changesOf (getDiff bwd s'))).map Prod.fst).map (·.name)).Nodup := by
      refine (b2.map _).nodup_iff.2 ?_
      rw [onlyIn]
      exact (List.Nodup.sublist ((List.filter_sublist).map _) hbf)
    rcases cellStep_some hstep hyne with ⟨o', t, rfl, e1, rfl⟩ | ⟨t, a, n, rfl, e1, e2, rfl⟩
    · -- the table is renamed
      have hmem := mem_renameTable.1 hd
      obtain ⟨g1, g2, _, g4, g5, _⟩ := C27_table_renames fwd s hs _ hmem
      have hoo : o' = o := eq_of_nodup_map ha.1 g1 hot e1
      subst hoo
      have hback : (t, o') ∈ tableRenamings (changesOf (getDiff bwd s')) :=
        hinv.mem_iff.2 (List.mem_map.2 ⟨_, hmem, rfl⟩)
      have hno : ∀ i t' o2, (i, t', o2) ∈ keptTables bwd → t'.name ≠ t.name := by
        intro i t' o2 hk hne
        have := (kept_spec hk).1
        rw [h2] at this
        exact g5 (List.mem_map.2 ⟨t', this, hne⟩)
      rcases hbwd with ⟨_, h3⟩ | ⟨d', hd', hne', e'⟩
      · have := h3 _ (mem_renameTable.2 hback)
        simp only [cellStep, if_true] at this
        exact absurd (Prod.mk.inj (Option.some.inj this)).1
          (fun h => g5 (List.mem_map.2 ⟨o', g1, h⟩))
      · rw [e']
        rcases cellStep_touch hne' with ⟨t', rfl, e3⟩ | ⟨t', o2, rfl, e3⟩ | ⟨t', rfl, e3⟩ | ⟨t', a, n, rfl, e3, _⟩
        · rw [List.map_append] at hnd
          exact absurd rfl ((List.nodup_append.1 hnd).2.2 _
            (List.mem_map.2 ⟨t', mem_dropTable.1 hd', e3⟩) _
            (List.mem_map_of_mem (f := (·.name)) (List.mem_map_of_mem (f := Prod.fst) hback)))
        · rw [List.map_append, List.map_map] at hnd
          have := List.inj_on_of_nodup_map (List.nodup_append.1 hnd).2.1 (mem_renameTable.1 hd') hback e3
          cases this
          simp only [cellStep, if_true]
        · obtain ⟨i, o2, hk, _⟩ := mem_dropColumn.1 hd'
          exact absurd e3 (hno i t' o2 hk)
        · obtain ⟨i, o2, hk, _⟩ := (mem_renameColumn hs').1 hd'
          exact absurd e3 (hno i t' o2 hk)
    · -- the column is renamed
      obtain ⟨i, o', hk, hp⟩ := (mem_renameColumn hs).1 hd
      obtain ⟨g1, g2, g3⟩ := kept_spec hk
      have hoo : o' = o := eq_of_nodup_map ha.1 g2 hot (g3.trans e1)
      subst hoo
      have u1 : ((addedColumns t o').map (shapeKey fwd.useComments)).Nodup := by
        rw [addedColumns_eq]; exact hn.columns t g1 o' g2 g3
      have u2 : ((addedColumns o' t).map (shapeKey fwd.useComments)).Nodup := by
        rw [addedColumns_eq]; exact ho.columns o' g2 t g1 g3.symm
      obtain ⟨p1, p2, p3⟩ := (columns_unique t o' fwd.useComments (ha.2 o' g2) u1 u2 n a).1 hp
      have hq : (a, n) ∈ renamedPairs (columnRenames o' t bwd.useComments).1 := by
        rw [hu]
        exact (columns_unique o' t fwd.useComments (hc.2 t g1) u2 u1 a n).2 ⟨p2, p1, p3.symm⟩
      obtain ⟨j, hj⟩ := List.mem_iff_getElem?.1 g2
      have hkept : (j, o', t) ∈ keptTables bwd := by
        refine mem_keptTables.2 ⟨by rw [h2]; exact hj, by rw [hb]; rfl, ?_⟩
        rw [h1, g3]
        exact lastBy_nodup hc.1 g1
      have hback : .renameColumn o' n a ∈ changesOf (getDiff bwd s') := (mem_renameColumn hs').2 ⟨j, t, hkept, hq⟩
      have hkeq : ∀ k t' o2, (k, t', o2) ∈ keptTables bwd → t'.name = o'.name → t' = o' ∧ o2 = t := by
        intro k t' o2 hk' hne
        obtain ⟨k1, k2, k3⟩ := kept_spec hk'
        rw [h2] at k1
        rw [h1] at k2
        exact ⟨eq_of_nodup_map ha.1 k1 g2 hne, eq_of_nodup_map hc.1 k2 g1 (k3.trans (hne.trans g3))⟩
      have hcols := (columns_matching o' t bwd.useComments (hc.2 t g1)).2
      have hcnd : (addedColumns t o').Nodup := List.Nodup.of_map _ u1
      have hcnd2 := hcols.nodup_iff.2 hcnd
      have hin : n ∈ ((renamedPairs (columnRenames o' t bwd.useComments).1).map Prod.swap).map Prod.fst :=
        List.mem_map.2 ⟨(n, a), List.mem_map.2 ⟨_, hq, rfl⟩, rfl⟩
      rcases hbwd with ⟨_, h3⟩ | ⟨d', hd', hne', e'⟩
      · have := h3 _ hback
        simp only [cellStep, and_self, if_true] at this
        exact absurd (Prod.mk.inj (Option.some.inj this)).2
          (fun h => (mem_addedColumns.1 p2).2 (List.mem_map.2 ⟨a, (mem_addedColumns.1 p1).1, h⟩))
      · rw [e']
        rcases cellStep_touch hne' with ⟨t', rfl, e3⟩ | ⟨t', o2, rfl, e3⟩ | ⟨t', rfl, e3⟩ | ⟨t', a', n', rfl, e3, e4⟩
        · have := (mem_onlyIn.1 (b2.mem_iff.1 (List.mem_append_left _ (mem_dropTable.1 hd')))).2
          rw [h2, e3] at this
          exact absurd (List.mem_map_of_mem g2) this
        · have := (mem_onlyIn.1 (b2.mem_iff.1 (List.mem_append_right _
            (List.mem_map_of_mem (f := Prod.fst) (mem_renameTable.1 hd'))))).2
          rw [h2, e3] at this
          exact absurd (List.mem_map_of_mem g2) this
        · obtain ⟨k, o2, hk', hrest⟩ := mem_dropColumn.1 hd'
          obtain ⟨rfl, rfl⟩ := hkeq k t' o2 hk' e3
          exact absurd rfl ((List.nodup_append.1 hcnd2).2.2 n
            (List.mem_filterMap.2 ⟨n.name, hrest, lastBy_nodup (hc.2 o2 g1) (mem_addedColumns.1 p2).1⟩) n hin)
        · obtain ⟨k, o2, hk', hrest⟩ := (mem_renameColumn hs').1 hd'
          obtain ⟨rfl, rfl⟩ := hkeq k t' o2 hk' e3
          have q1 := columnPairs_spec hrest
          have : a' = n := eq_of_nodup_map (hc.2 o2 g1) q1.2.2.1 (mem_addedColumns.1 p2).1 e4
          subst this
          have hnd3 := (List.nodup_append.1 hcnd2).2.1
          have := List.inj_on_of_nodup_map hnd3 (List.mem_map.2 ⟨_, hrest, rfl⟩) (List.mem_map.2 ⟨_, hq, rfl⟩) rfl
          cases this
          simp only [cellStep, and_self, if_true, e2]

/-- The way back of the running example. -/
def exBack : DiffOption := { diffFrom := exTo, diffTo := exFrom, uniqueNameSuffix := "_uq"ₛ }

theorem exTo_noTwins : NoTwins false exTo exFrom :=
  ⟨by unfold onlyIn exTo exFrom; decide +kernel, by unfold exTo exFrom; decide +kernel⟩

theorem exFrom_noTwins : NoTwins false exFrom exTo :=
  ⟨by unfold onlyIn exTo exFrom; decide +kernel, by unfold exTo exFrom; decide +kernel⟩

/-- A renamed column of a kept table and a column of a renamed table come back. -/
example : cellAfter (changesOf (getDiff exOpt idSched)) ("user"ₛ, "age"ₛ) = some ("user"ₛ, "years"ₛ) ∧
    cellAfter (changesOf (getDiff exBack revSched)) ("user"ₛ, "years"ₛ) = some ("user"ₛ, "age"ₛ) := by
  have h : cellAfter (changesOf (getDiff exOpt idSched)) ("user"ₛ, "age"ₛ) = some ("user"ₛ, "years"ₛ) := by
    decide +kernel
  exact ⟨h, C146_values_partial exOpt exBack idSched revSched idSched_fair revSched_fair rfl rfl rfl rfl rfl
    exFrom_distinct exTo_distinct exTo_noTwins exFrom_noTwins exFrom.tables[0] (by decide +kernel)
    { name := "age"ₛ, type := "int32"ₛ } (by decide +kernel) _ h⟩

example : (tableRenamings (changesOf (getDiff exBack idSched))).map (fun p => (p.1.name, p.2.name)) =
    [("journal"ₛ, "log"ₛ)] := by decide +kernel
example : (createdTables (changesOf (getDiff exOpt idSched))).map (·.name) = ["new"ₛ] ∧
    (droppedTables (changesOf (getDiff exBack idSched))).map (·.name) = ["new"ₛ] := by decide +kernel

/-- Two alike tables before, two alike tables after. -/
def twinsFrom : Schema := { tables := [
  { name := "x"ₛ, columns := [{ name := "id"ₛ, type := "int64"ₛ }] },
  { name := "y"ₛ, columns := [{ name := "id"ₛ, type := "int64"ₛ }] }] }
def twinsTo : Schema := { tables := [
  { name := "z"ₛ, columns := [{ name := "id"ₛ, type := "int64"ₛ }] },
  { name := "w"ₛ, columns := [{ name := "id"ₛ, type := "int64"ₛ }] }] }

/-- Two alike columns before and after. -/
def twinColumnsFrom : Schema := { tables := [
  { name := "t"ₛ, columns := [{ name := "p"ₛ, type := "int64"ₛ }, { name := "q"ₛ, type := "int64"ₛ }] }] }
def twinColumnsTo : Schema := { tables := [
  { name := "t"ₛ, columns := [{ name := "s"ₛ, type := "int64"ₛ }, { name := "r"ₛ, type := "int64"ₛ }] }] }

/-- C146: with alike tables, or alike columns of a table, the way there and back exchanges their values:
those of `x` end up in `y`, those of `t.p` in `t.q`. -/
theorem C146_violated : ∃ fwd bwd fwd' bwd' : DiffOption,
    bwd.diffFrom = fwd.diffTo ∧ bwd.diffTo = fwd.diffFrom ∧ DistinctNames fwd.diffFrom ∧ DistinctNames fwd.diffTo ∧
    (cellAfter (changesOf (getDiff fwd idSched)) ("x"ₛ, "id"ₛ)).bind (cellAfter (changesOf (getDiff bwd idSched))) =
      some ("y"ₛ, "id"ₛ) ∧
    (cellAfter (changesOf (getDiff fwd idSched)) ("y"ₛ, "id"ₛ)).bind (cellAfter (changesOf (getDiff bwd idSched))) =
      some ("x"ₛ, "id"ₛ) ∧
    bwd'.diffFrom = fwd'.diffTo ∧ bwd'.diffTo = fwd'.diffFrom ∧ DistinctNames fwd'.diffFrom ∧
    DistinctNames fwd'.diffTo ∧
    (cellAfter (changesOf (getDiff fwd' idSched)) ("t"ₛ, "p"ₛ)).bind (cellAfter (changesOf (getDiff bwd' idSched))) =
      some ("t"ₛ, "q"ₛ) := by
  refine ⟨{ diffFrom := twinsFrom, diffTo := twinsTo }, { diffFrom := twinsTo, diffTo := twinsFrom },
    { diffFrom := twinColumnsFrom, diffTo := twinColumnsTo }, { diffFrom := twinColumnsTo, diffTo := twinColumnsFrom },
    rfl, rfl, ?_, ?_, ?_, ?_, rfl, rfl, ?_, ?_, ?_⟩
  · unfold DistinctNames twinsFrom; decide
  · unfold DistinctNames twinsTo; decide
  · decide +kernel
  · decide +kernel
  · unfold DistinctNames twinColumnsFrom; decide
  · unfold DistinctNames twinColumnsTo; decide
  · decide +kernel

end Octo
