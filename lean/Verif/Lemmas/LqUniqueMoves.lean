import Verif.Lemmas.LqCarry
import Verif.Lemmas.LqMovesDb

/-!
# Changes to the unique columns of a table with further constraints
-/

namespace Octo.Lq
open Octo.Spec

theorem uq_names_iff {t : Table} (ht : (t.columns.map (·.name)).Nodup) {c : Column} (hc : c ∈ t.columns) :
    uqNames t c.name ↔ c.uniqueKey = true := by
  constructor
  · rintro ⟨x, hx, h1, h2⟩; rw [← eq_of_nodup_map ht hx hc h2]; exact h1
  · intro h; exact ⟨c, hc, h, rfl⟩

/-- The constraints that follow the columns are right in the end under the conditions of `UniqueMoves`. -/
theorem unique_carry {uc : Bool} {t o : Table} (ht : (t.columns.map (·.name)).Nodup) (ho : (o.columns.map (·.name)).Nodup) :
    ((∀ n ∈ (columnRenames t o uc).2.keys, ¬uqNames o n) ∧
      uqNames t = fun n => (∃ p ∈ renamedPairs (columnRenames t o uc).1, n = p.1.name ∧ uqNames o p.2.name) ∨
        (n ∉ (renamedPairs (columnRenames t o uc).1).map (fun p => p.2.name) ∧ uqNames o n)) ↔ UniqueMoves uc t o := by
  have hsplit := findRenames_split o.columnNameMap (fun a b => a.isRenamed b (!uc)) (addedColumns t o) (removedNames t o)
  have hpart := findRenames_partition (get := o.columnNameMap) (m := fun a b => a.isRenamed b (!uc))
    (fun c => c.name) (fun n r h => (lastBy_some h).2) (addedColumns t o) (removedNames t o) (nodup_removedNames t o)
  have hmax := findRenames_maximal o.columnNameMap (fun a b => a.isRenamed b (!uc)) (addedColumns t o) (removedNames t o)
  change ((renamedPairs (columnRenames t o uc).1).map Prod.fst ++ notRenamed (columnRenames t o uc).1).Perm _ at hsplit
  change ((renamedPairs (columnRenames t o uc).1).map (fun p => p.2.name) ++ (columnRenames t o uc).2.keys).Perm _ at hpart
  change ∀ a ∈ notRenamed (columnRenames t o uc).1, ∀ n ∈ (columnRenames t o uc).2.keys, _ at hmax
  have hpairs := fun p (hp : p ∈ renamedPairs (columnRenames t o uc).1) => columnPairs_spec hp
  generalize renamedPairs (columnRenames t o uc).1 = pairs at *
  generalize notRenamed (columnRenames t o uc).1 = new at *
  generalize (columnRenames t o uc).2.keys = rest at *
  -- the columns of the new version that come
  have hadd : (addedColumns t o).Perm (columnsNotIn t o) := by
    have h1 : (addedColumns t o).Nodup := by
      have := List.Nodup.of_map _ ht
      exact this.filter _
    unfold columnsNotIn
    rw [List.perm_ext_iff_of_nodup h1 ((List.Nodup.of_map _ ht).filter _)]
    intro c
    rw [mem_addedColumns, List.mem_filter]
    simp
  have hnew : (columnsNotIn t o).Perm (pairs.map Prod.fst ++ new) := (hsplit.trans hadd).symm
  have hgone : (columnsNotIn o t).Perm (pairs.map Prod.snd ++ rest.filterMap o.columnNameMap) := by
    refine (removedNames_columns ho).symm.trans ((hpart.filterMap o.columnNameMap).symm.trans ?_)
    rw [List.filterMap_append]
    refine List.Perm.append_right _ (List.Perm.of_eq ?_)
    rw [List.filterMap_map]
    have : ∀ p ∈ pairs, (o.columnNameMap ∘ fun p : Column × Column => p.2.name) p = some p.2 := fun p hp => (hpairs p hp).2.2.2.2.1
    rw [List.filterMap_congr this]
    exact congrFun List.filterMap_eq_map' pairs
  have hrest : ∀ b ∈ rest.filterMap o.columnNameMap, b.name ∈ rest ∧ b ∈ o.columns ∧ b.name ∉ t.columns.map (·.name) := by
    intro b hb
    obtain ⟨n, hn, e⟩ := List.mem_filterMap.1 hb
    obtain ⟨e1, e2⟩ := lastBy_some e
    refine ⟨by rw [e2]; exact hn, e1, ?_⟩
    rw [e2]
    exact (mem_removedNames.1 (hpart.mem_iff.1 (List.mem_append_right _ hn))).2
  have hrestOf : ∀ n ∈ rest, ∀ b ∈ o.columns, b.name = n → b ∈ rest.filterMap o.columnNameMap := by
    intro n hn b hb e
    exact List.mem_filterMap.2 ⟨n, hn, by rw [← e]; exact lastBy_nodup ho hb⟩
  have hperm : (((columnsNotIn o t).filter (·.uniqueKey)).map (shapeKey uc)).Perm
        (((columnsNotIn t o).filter (·.uniqueKey)).map (shapeKey uc)) ↔
      (∀ b ∈ rest.filterMap o.columnNameMap, b.uniqueKey = false) ∧ ∀ c ∈ new, c.uniqueKey = false := by
    have e1 := ((hgone.filter (·.uniqueKey)).map (shapeKey uc))
    have e2 := ((hnew.filter (·.uniqueKey)).map (shapeKey uc))
    have e3 : ((pairs.map Prod.snd).filter (·.uniqueKey)).map (shapeKey uc) =
        ((pairs.map Prod.fst).filter (·.uniqueKey)).map (shapeKey uc) := by
      clear * - hpairs
      induction pairs with
      | nil => rfl
      | cons p ps ih =>
        have ih := ih (fun q hq => hpairs q (List.mem_cons_of_mem _ hq))
        have hp := (hpairs p List.mem_cons_self).2.2.2.2.2
        simp only [List.map_cons, List.filter_cons, ← hp.uniqueKey]
        split
        · rw [List.map_cons, List.map_cons, ih, (shapeKey_iff uc _ _).2 hp]
        · exact ih
    rw [List.filter_append, List.map_append] at e1 e2
    constructor
    · intro h
      have h1 := (e1.symm.trans h).trans e2
      rw [e3, List.perm_append_left_iff] at h1
      constructor
      · intro b hb
        cases hu : b.uniqueKey with
        | false => rfl
        | true =>
          have := h1.mem_iff.1 (List.mem_map.2 ⟨b, List.mem_filter.2 ⟨hb, hu⟩, rfl⟩)
          obtain ⟨c, hc, e⟩ := List.mem_map.1 this
          have := hmax c (List.mem_filter.1 hc).1 b.name (hrest b hb).1 b (lastBy_nodup ho (hrest b hb).2.1)
          rw [(isRenamed_iff _ _ _).2 ((shapeKey_iff uc _ _).1 e)] at this
          cases this
      · intro c hc
        cases hu : c.uniqueKey with
        | false => rfl
        | true =>
          have := h1.mem_iff.2 (List.mem_map.2 ⟨c, List.mem_filter.2 ⟨hc, hu⟩, rfl⟩)
          obtain ⟨b, hb, e⟩ := List.mem_map.1 this
          have hb := (List.mem_filter.1 hb).1
          have := hmax c hc b.name (hrest b hb).1 b (lastBy_nodup ho (hrest b hb).2.1)
          rw [(isRenamed_iff _ _ _).2 ((shapeKey_iff uc _ _).1 e.symm)] at this
          cases this
    · rintro ⟨h1, h2⟩
      refine e1.trans (List.Perm.trans (List.Perm.of_eq ?_) e2.symm)
      have n1 : (rest.filterMap o.columnNameMap).filter (·.uniqueKey) = [] :=
        List.filter_eq_nil_iff.2 (fun b hb => by rw [h1 b hb]; simp)
      have n2 : new.filter (·.uniqueKey) = [] := List.filter_eq_nil_iff.2 (fun b hb => by rw [h2 b hb]; simp)
      rw [e3, n1, n2]
  have hnd : ∀ c ∈ new, ∀ p ∈ pairs, c ≠ p.1 := by
    intro c hc p hp e
    have h1 : (pairs.map Prod.fst ++ new).Nodup := hnew.nodup_iff.1 ((List.Nodup.of_map _ ht).filter _)
    exact (List.nodup_append.1 h1).2.2 _ (List.mem_map_of_mem hp) _ hc e.symm
  have hnewt : ∀ c ∈ new, c ∈ t.columns ∧ c.name ∉ o.columns.map (·.name) := fun c hc =>
    mem_addedColumns.1 (hsplit.mem_iff.1 (List.mem_append_right _ hc))
  constructor
  · rintro ⟨h1, h2⟩
    have h2 : ∀ n, uqNames t n ↔ _ := fun n => iff_of_eq (congrFun h2 n)
    refine ⟨?_, hperm.2 ⟨?_, ?_⟩⟩
    · intro c hc b hb e
      have h3 := h2 c.name
      rw [uq_names_iff ht hc] at h3
      have h4 : uqNames o c.name ↔ b.uniqueKey = true := by rw [e]; exact uq_names_iff ho hb
      rw [Bool.eq_iff_iff, h3, ← h4]
      constructor
      · rintro (⟨p, hp, e', _⟩ | h)
        · exact absurd (by rw [← e', e]; exact List.mem_map_of_mem hb) (hpairs p hp).2.1
        · exact h.2
      · intro h
        refine Or.inr ⟨?_, h⟩
        intro hm
        obtain ⟨p, hp, e'⟩ := List.mem_map.1 hm
        exact (hpairs p hp).2.2.2.1 (by rw [e']; exact List.mem_map_of_mem hc)
    · intro b hb
      obtain ⟨r1, r2, _⟩ := hrest b hb
      cases hu : b.uniqueKey with
      | false => rfl
      | true => exact absurd ((uq_names_iff ho r2).2 hu) (h1 _ r1)
    · intro c hc
      obtain ⟨r1, r2⟩ := hnewt c hc
      cases hu : c.uniqueKey with
      | false => rfl
      | true =>
        rcases (h2 c.name).1 ((uq_names_iff ht r1).2 hu) with ⟨p, hp, e, _⟩ | ⟨_, b, hb, _, e⟩
        · exact absurd (eq_of_nodup_map ht r1 (hpairs p hp).1 e) (hnd c hc p hp)
        · exact absurd (List.mem_map.2 ⟨b, hb, e⟩) r2
  · rintro ⟨hkept, hrep⟩
    obtain ⟨r1, r2⟩ := hperm.1 hrep
    constructor
    · rintro n hn ⟨b, hb, hu, e⟩
      rw [r1 b (hrestOf n hn b hb e)] at hu
      cases hu
    · funext n
      apply propext
      constructor
      · rintro ⟨c, hc, hu, rfl⟩
        by_cases hm : c.name ∈ o.columns.map (·.name)
        · obtain ⟨b, hb, e⟩ := List.mem_map.1 hm
          refine Or.inr ⟨?_, b, hb, by rw [← hkept c hc b hb e.symm]; exact hu, e⟩
          intro hm'
          obtain ⟨p, hp, e'⟩ := List.mem_map.1 hm'
          exact (hpairs p hp).2.2.2.1 (by rw [e']; exact List.mem_map_of_mem hc)
        · rcases List.mem_append.1 (hsplit.mem_iff.2 (mem_addedColumns.2 ⟨hc, hm⟩)) with h | h
          · obtain ⟨p, hp, rfl⟩ := List.mem_map.1 h
            obtain ⟨_, _, q3, _, _, q6⟩ := hpairs p hp
            exact Or.inl ⟨p, hp, rfl, p.2, q3, by rw [← q6.uniqueKey]; exact hu, rfl⟩
          · rw [r2 c h] at hu; cases hu
      · rintro (⟨p, hp, rfl, h⟩ | ⟨h1, b, hb, hu, rfl⟩)
        · obtain ⟨q1, _, q3, _, _, q6⟩ := hpairs p hp
          exact ⟨p.1, q1, by rw [q6.uniqueKey]; exact (uq_names_iff ho q3).1 h, rfl⟩
        · by_cases hm : b.name ∈ t.columns.map (·.name)
          · obtain ⟨c, hc, e⟩ := List.mem_map.1 hm
            exact ⟨c, hc, by rw [hkept c hc b hb e]; exact hu, e⟩
          · rcases List.mem_append.1 (hpart.mem_iff.2 (mem_removedNames.2 ⟨List.mem_map_of_mem hb, hm⟩)) with h | h
            · exact absurd h h1
            · rw [r1 b (hrestOf _ h b hb rfl)] at hu; cases hu

section
variable (env : LqEnv) (sys : Str → Prop) {pf : Str → Option Str}
  (sched : List (Column × Column) → List (Column × Column)) (hs : ∀ l, (sched l).Perm l) (t o : Table) (uc : Bool)
  (suffix : Str) (hn : o.name = t.name) (ht : CleanTable pf t) (ho : (o.columns.map (·.name)).Nodup)
  (T0 : DbTable LqAttr) (h0 : HoldsTable sys uc true suffix o T0)
include hs hn ht ho h0

/-- A table whose unique columns stay or that has no further constraints. -/
theorem table_moves (h0o : ¬SameUnique t o → ∀ k, k ≠ t.name ++ suffix → T0.uniques k = none) :
    (∃ T', TRuns (tableOps env sched t o uc suffix) T0 T' ∧ HoldsTable sys uc true suffix t T') ↔ LqTableMoves env uc t o := by
  rw [moves_iff ht.1 ho]
  constructor
  · rintro ⟨T', hr, hh⟩
    have ha := accepted_of_runs env sys sched hs t o uc suffix hn ht ho T0 h0 h0o hr
    refine ⟨ha, ?_⟩
    obtain ⟨T2, hr2, h3, _⟩ := table_runs env sys sched hs t o uc suffix hn ht ho T0 h0 h0o ha
    cases tRuns_unique hr hr2
    intro c hc
    have h4 := h3 c.name
    rw [hh.cols, columnNamed_mem ht.1 hc] at h4
    exact (Option.some.inj h4).symm
  · rintro ⟨ha, hfin⟩
    obtain ⟨T', hr, q1, q2, q3, q4⟩ := table_runs env sys sched hs t o uc suffix hn ht ho T0 h0 h0o ha
    refine ⟨T', hr, ?_, q2, fun h => ⟨_, q3 h⟩, fun _ => q3, q4⟩
    intro n
    rw [q1 n]
    cases hf' : columnNamed t n with
    | none => rfl
    | some c =>
      obtain ⟨hc, rfl⟩ := (columnNamed_eq_some ht.1).1 hf'
      show some _ = some _
      rw [hfin c hc]

/-- Any table. -/
theorem table_moves_any :
    (∃ T', TRuns (tableOps env sched t o uc suffix) T0 T' ∧ HoldsTable sys uc true suffix t T') ↔
    LqTableMoves env uc t o ∧
      (¬SameUnique t o → (∃ k, k ≠ t.name ++ suffix ∧ (T0.uniques k).isSome) → UniqueMoves uc t o) := by
  by_cases hsu : SameUnique t o
  · rw [table_moves env sys sched hs t o uc suffix hn ht ho T0 h0 (fun h => absurd hsu h)]
    exact ⟨fun h => ⟨h, fun h' => absurd hsu h'⟩, fun h => h.1⟩
  by_cases hex : ∃ k, k ≠ t.name ++ suffix ∧ (T0.uniques k).isSome
  · have hS0 : ∀ k, k ≠ t.name ++ suffix → (strip (t.name ++ suffix) T0).uniques k = none := fun k hk => by
      simp [strip, hk]
    have hT0 : joined (t.name ++ suffix) (strip (t.name ++ suffix) T0) T0.uniques (uqNames o) = T0 :=
      joined_strip fun k _ s h => (h0.only k s h).2.1
    have hS : HoldsTable sys uc true suffix o (strip (t.name ++ suffix) T0) := by
      have hat : (strip (t.name ++ suffix) T0).uniques (t.name ++ suffix) = T0.uniques (t.name ++ suffix) := by simp [strip]
      have hnm : HasUnique o → (strip (t.name ++ suffix) T0).uniques (o.name ++ suffix) = some (uqNames o) := by
        intro h
        rw [hn, hat, ← hn]
        exact h0.named rfl h
      refine ⟨h0.cols, h0.pk, fun h => ⟨_, hnm h⟩, fun _ => hnm, ?_⟩
      intro k s h
      by_cases hk : k = t.name ++ suffix
      · rw [hk, hat] at h
        rw [hk]
        exact h0.only _ s h
      · rw [hS0 k hk] at h; cases h
    have hmain := table_moves env sys sched hs t o uc suffix hn ht ho _ hS (fun _ => hS0)
    have hrun := fun T' => carry_runs (T' := T') (s := uqNames o) (tableOps_at env sched t o uc suffix) hS0 hex
    rw [hT0] at hrun
    obtain ⟨k0, hk0, hk0s⟩ := hex
    constructor
    · rintro ⟨T', hr, hh⟩
      obtain ⟨S', s', q1, q2, q3⟩ := (hrun T').1 hr
      have hs' : HasUnique t ∧ s' = uqNames t := by
        have : T'.uniques k0 = some s' := by
          rw [q3]
          simp only [joined, if_neg hk0]
          obtain ⟨x, hx⟩ := Option.isSome_iff_exists.1 hk0s
          rw [hx]; rfl
        exact ⟨(hh.only k0 s' this).1, (hh.only k0 s' this).2.1⟩
      have hS' : ∀ k, k ≠ t.name ++ suffix → S'.uniques k = none := runs_free (tableOps_at env sched t o uc suffix) hS0 q1
      have hat : S'.uniques (t.name ++ suffix) = T'.uniques (t.name ++ suffix) := by rw [q3]; simp [joined]
      refine ⟨hmain.1 ⟨S', q1, ?_⟩, fun _ _ => ?_⟩
      · have hc : S'.cols = T'.cols := by rw [q3]; rfl
        have hp : S'.pk = T'.pk := by rw [q3]; rfl
        refine ⟨fun n => by rw [hc]; exact hh.cols n, fun n => by rw [hp]; exact hh.pk n, fun h => ⟨_, by rw [hat]; exact hh.named rfl h⟩,
          fun _ h => by rw [hat]; exact hh.named rfl h, ?_⟩
        intro k s h
        by_cases hk : k = t.name ++ suffix
        · rw [hk, hat] at h
          rw [hk]
          exact hh.only _ s h
        · rw [hS' k hk] at h; cases h
      · obtain ⟨c1, c2⟩ := (carry_table env hs t o uc suffix).1 q2
        rw [← unique_carry ht.1 ho]
        exact ⟨c1, hs'.2.symm.trans c2⟩
    · rintro ⟨hm, hu⟩
      have hu := hu hsu ⟨k0, hk0, hk0s⟩
      obtain ⟨S', q1, hh⟩ := hmain.2 hm
      have hS' : ∀ k, k ≠ t.name ++ suffix → S'.uniques k = none := runs_free (tableOps_at env sched t o uc suffix) hS0 q1
      obtain ⟨c1, c2⟩ := (unique_carry ht.1 ho).2 hu
      have hhas : HasUnique t := by
        obtain ⟨x, hx⟩ := Option.isSome_iff_exists.1 hk0s
        obtain ⟨⟨b, hb, hbu⟩, _, _⟩ := h0.only k0 x hx
        by_cases hm : b.name ∈ t.columns.map (·.name)
        · obtain ⟨c, hc, e⟩ := List.mem_map.1 hm
          exact ⟨c, hc, by rw [hu.kept c hc b hb e]; exact hbu⟩
        · have h1 : b ∈ (columnsNotIn o t).filter (·.uniqueKey) :=
            List.mem_filter.2 ⟨List.mem_filter.2 ⟨hb, decide_eq_true hm⟩, hbu⟩
          obtain ⟨c, hc, _⟩ := List.mem_map.1 (hu.replaced.mem_iff.1 (List.mem_map_of_mem h1))
          obtain ⟨hc, hcu⟩ := List.mem_filter.1 hc
          exact ⟨c, (List.mem_filter.1 hc).1, hcu⟩
      refine ⟨joined (t.name ++ suffix) S' T0.uniques (uqNames t), (hrun _).2 ⟨S', uqNames t, q1,
        (carry_table env hs t o uc suffix).2 ⟨c1, c2⟩, rfl⟩, ?_⟩
      have hat : (joined (t.name ++ suffix) S' T0.uniques (uqNames t)).uniques (t.name ++ suffix) = S'.uniques (t.name ++ suffix) := by
        simp [joined]
      refine ⟨hh.cols, hh.pk, fun h => ⟨_, by rw [hat]; exact hh.named rfl h⟩, fun _ h => by rw [hat]; exact hh.named rfl h, ?_⟩
      intro k s h
      by_cases hk : k = t.name ++ suffix
      · rw [hk, hat] at h
        rw [hk]
        exact hh.only _ s h
      · simp only [joined, if_neg hk] at h
        cases hx : T0.uniques k with
        | none => rw [hx] at h; cases h
        | some x =>
          rw [hx] at h
          refine ⟨hhas, (Option.some.inj h).symm, Or.inr ?_⟩
          rcases (h0.only k x hx).2.2 with h2 | h2
          · exact absurd (by rw [h2, hn]) hk
          · exact h2
  · have h0o : ∀ k, k ≠ t.name ++ suffix → T0.uniques k = none := by
      intro k hk
      by_contra h
      exact hex ⟨k, hk, Option.isSome_iff_ne_none.2 h⟩
    rw [table_moves env sys sched hs t o uc suffix hn ht ho T0 h0 (fun _ => h0o)]
    exact ⟨fun h => ⟨h, fun _ h' => absurd h' hex⟩, fun h => h.1⟩

end

/-- When running the diff changelog turns the database of the old version into that of the new one. -/
theorem lq_moves (env : LqEnv) (hlist : env.listed = true) (sys : Str → Prop)
    (pf : Str → Option Str) (opt : DiffOption) (sched : Sched) (hs : sched.Fair) (hf : opt.tableFilter = none)
    (hfrom : DistinctNames opt.diffFrom) (hto : (opt.diffTo.tables.map (·.name)).Nodup)
    (hclean : ∀ t ∈ opt.diffTo.tables, CleanTable pf t)
    (hsys : ∀ t ∈ opt.diffTo.tables, ∀ c ∈ t.columns, sys (env.sysName t.name c.name))
    (hno : ∀ t ∈ opt.diffTo.tables, ¬sys (t.name ++ opt.uniqueNameSuffix))
    (d0 : Db LqAttr) (h0 : HoldsDb sys opt.useComments true opt.uniqueNameSuffix opt.diffFrom.tables d0) :
    (∃ sets, generate pf opt sched = some sets ∧ ∃ d', Runs (changelogOps env sets) d0 d' ∧
      HoldsDb sys opt.useComments true opt.uniqueNameSuffix opt.diffTo.tables d') ↔
    ∀ t ∈ opt.diffTo.tables, ∀ o ∈ opt.diffFrom.tables, o.name = t.name → LqTableMoves env opt.useComments t o ∧
      (¬SameUnique t o → ∀ T, d0 o.name = some T → (∃ k, k ≠ t.name ++ opt.uniqueNameSuffix ∧ (T.uniques k).isSome) →
        UniqueMoves opt.useComments t o) := by
  have hkept : ∀ e ∈ keptTables opt, e.2.1 ∈ opt.diffTo.tables ∧ e.2.2 ∈ opt.diffFrom.tables ∧
      e.2.2.name = e.2.1.name := by
    rintro ⟨i, t, o⟩ he
    obtain ⟨h1, _, h3⟩ := mem_keptTables.1 he
    exact ⟨List.mem_of_getElem? h1, (lastBy_some h3).1, (lastBy_some h3).2⟩
  have hsets := fun e (he : e ∈ keptTables opt) => tableSets_ops env (pf := pf) (sched.columns e.1)
    e.2.1 e.2.2 opt.useComments opt.uniqueNameSuffix (hclean _ (hkept e he).1)
  have hnew : ∀ t ∈ notRenamed (tableRenames opt).1, t ∈ opt.diffTo.tables ∧ t.name ∉ opt.diffFrom.tables.map (·.name) := by
    intro t ht
    have hsplit := findRenames_split opt.diffFrom.tablesByName (fun a b => a.columns == b.columns) (addedTables opt)
      (removedTableNames opt)
    have := mem_addedTables.1 (hsplit.mem_iff.1 (List.mem_append_right _ ht))
    exact ⟨this.1, this.2.2⟩
  have hcr := fun t (ht : t ∈ notRenamed (tableRenames opt).1) => runs_createTable env sys pf opt.uniqueNameSuffix
    opt.useComments t (hclean t (hnew t ht).1) (fun _ => hsys t (hnew t ht).1) (hno t (hnew t ht).1)
  obtain ⟨ks, hks, hksOps⟩ : ∃ ks, keptSets pf opt sched = some ks ∧ (ks.map (fromSets 0)).flatMap (blockOps env) =
      (keptTables opt).flatMap (fun e => (tableOps env (sched.columns e.1) e.2.1 e.2.2 opt.useComments
        opt.uniqueNameSuffix).map (.alter e.2.1.name)) := by
    unfold keptSets
    generalize keptTables opt = l at hsets
    induction l with
    | nil => exact ⟨[], rfl, rfl⟩
    | cons e l ih =>
      obtain ⟨ks, h1, h2⟩ := ih (fun q hq => hsets q (by simp [hq]))
      obtain ⟨ps, h3, h4, h5⟩ := hsets e (by simp)
      refine ⟨ps :: ks, by rw [List.mapM_cons, h3, h1]; rfl, ?_⟩
      rw [List.map_cons, List.flatMap_cons, h2, blockOps_fromSets, setsOps_in h4, List.flatMap_cons, h5]
  obtain ⟨cs, hcs, hcsOps⟩ : ∃ cs, createdSets pf opt = some cs ∧ (cs.map (fromSets 0)).flatMap (blockOps env) =
      (notRenamed (tableRenames opt).1).flatMap (fun t =>
        setsOps env ((createSets pf opt.uniqueNameSuffix opt.useComments t).getD [])) := by
    have : ∀ t ∈ notRenamed (tableRenames opt).1, ∃ ps, createSets pf opt.uniqueNameSuffix opt.useComments t = some ps :=
      fun t ht => (hcr t ht).imp fun _ h => h.1
    unfold createdSets
    generalize notRenamed (tableRenames opt).1 = l at this
    induction l with
    | nil => exact ⟨[], rfl, rfl⟩
    | cons e l ih =>
      obtain ⟨ks, h1, h2⟩ := ih (fun q hq => this q (by simp [hq]))
      obtain ⟨ps, h3⟩ := this e (by simp)
      refine ⟨ps :: ks, by rw [List.mapM_cons, h3, h1]; rfl, ?_⟩
      rw [List.map_cons, List.flatMap_cons, h2, blockOps_fromSets, List.flatMap_cons, h3]; rfl
  have hrops : ((sched.tables (renamedPairs (tableRenames opt).1)).map (renameBlock opt.uniqueNameSuffix)).flatMap
      (blockOps env) = (sched.tables (renamedPairs (tableRenames opt).1)).flatMap
        (fun p => blockOps env (renameBlock opt.uniqueNameSuffix p)) := by rw [List.flatMap_map]
  have hdrops : ((tableRenames opt).2.slice.map dropBlock).flatMap (blockOps env) =
      (tableRenames opt).2.slice.map .dropTable := by
    rw [List.flatMap_map, List.map_eq_flatMap]; rfl
  obtain ⟨sets, hgen, hops⟩ : ∃ sets, generate pf opt sched = some sets ∧ changelogOps env sets =
      (keptTables opt).flatMap (fun e => (tableOps env (sched.columns e.1) e.2.1 e.2.2 opt.useComments
        opt.uniqueNameSuffix).map (.alter e.2.1.name)) ++
      ((tableRenames opt).2.slice.map .dropTable ++
      ((sched.tables (renamedPairs (tableRenames opt).1)).flatMap (fun p => blockOps env (renameBlock opt.uniqueNameSuffix p)) ++
      (notRenamed (tableRenames opt).1).flatMap (fun t =>
        setsOps env ((createSets pf opt.uniqueNameSuffix opt.useComments t).getD [])))) := by
    refine ⟨_, by rw [generate_eq, hks, hcs]; rfl, ?_⟩
    rw [changelogOps_blocks, diffBlocks]
    simp only [List.flatMap_append, flatMap_nonempty, hksOps, hcsOps]
    rw [hrops, hdrops]
  have hsrc : ∀ p ∈ renamedPairs (tableRenames opt).1, p.1 ∈ opt.diffTo.tables ∧ p.2 ∈ opt.diffFrom.tables ∧
      p.1.columns = p.2.columns ∧ p.1.name ∉ opt.diffFrom.tables.map (·.name) := by
    intro p hp
    obtain ⟨h1, h2, h3, h4⟩ := renamedPairs_source hp
    exact ⟨(mem_addedTables.1 h1).1, (lastBy_some h4).1, h2, (mem_addedTables.1 h1).2.2⟩
  have hsome : ∀ n ∈ opt.diffFrom.tables.map (·.name), (d0 n).isSome := by
    intro n hn
    obtain ⟨t, ht, rfl⟩ := List.mem_map.1 hn
    obtain ⟨T, hT, _⟩ := h0.1 t ht
    rw [hT]; rfl
  have hholds : ∀ e ∈ keptTables opt, ∀ T, d0 e.2.2.name = some T →
      HoldsTable sys opt.useComments true opt.uniqueNameSuffix e.2.2 T := by
    intro e he T hT
    obtain ⟨T', hT', hh⟩ := h0.1 _ (hkept e he).2.1
    rw [hT] at hT'; cases hT'
    exact hh
  have hany := fun e (he : e ∈ keptTables opt) T (hT : d0 e.2.2.name = some T) => table_moves_any env sys (sched.columns e.1)
    (hs.2 e.1) e.2.1 e.2.2 opt.useComments opt.uniqueNameSuffix (hkept e he).2.2 (hclean _ (hkept e he).1)
    (hfrom.2 _ (hkept e he).2.1) T (hholds e he T hT)
  -- the whole changelog, if it is accepted for every table
  have hall : (∀ e ∈ keptTables opt, ∀ T, d0 e.2.2.name = some T →
        ∃ T', TRuns (tableOps env (sched.columns e.1) e.2.1 e.2.2 opt.useComments opt.uniqueNameSuffix) T T') →
      ∃ d', Runs (changelogOps env sets) d0 d' ∧
        (∀ t ∈ opt.diffTo.tables, ∃ T, d' t.name = some T ∧
          ((t.name ∉ opt.diffFrom.tables.map (·.name) → HoldsTable sys opt.useComments true opt.uniqueNameSuffix t T) ∧
          (t.name ∈ opt.diffFrom.tables.map (·.name) → ∃ e ∈ keptTables opt, e.2.1 = t ∧ ∃ T0, d0 e.2.2.name = some T0 ∧
            TRuns (tableOps env (sched.columns e.1) e.2.1 e.2.2 opt.useComments opt.uniqueNameSuffix) T0 T))) ∧
        ∀ n, n ∉ opt.diffTo.tables.map (·.name) → d' n = none := by
    intro hacc
    rw [hops]
    refine migrate_db_gen opt (fun t T => (t.name ∉ opt.diffFrom.tables.map (·.name) →
        HoldsTable sys opt.useComments true opt.uniqueNameSuffix t T) ∧
      (t.name ∈ opt.diffFrom.tables.map (·.name) → ∃ e ∈ keptTables opt, e.2.1 = t ∧ ∃ T0, d0 e.2.2.name = some T0 ∧
        TRuns (tableOps env (sched.columns e.1) e.2.1 e.2.2 opt.useComments opt.uniqueNameSuffix) T0 T))
      d0 sched.tables hs.1 hf hfrom.1 hto hsome h0.2
      (fun e => tableOps env (sched.columns e.1) e.2.1 e.2.2 opt.useComments opt.uniqueNameSuffix)
      (fun p => blockOps env (renameBlock opt.uniqueNameSuffix p))
      (fun t => setsOps env ((createSets pf opt.uniqueNameSuffix opt.useComments t).getD [])) ?_ ?_ ?_
    · intro e he T hT
      obtain ⟨k1, k2, k3⟩ := hkept e he
      obtain ⟨T', h1⟩ := hacc e he T hT
      exact ⟨T', h1, fun hn => absurd (List.mem_map.2 ⟨_, k2, k3⟩) hn, fun _ => ⟨e, he, rfl, T, hT, h1⟩⟩
    · intro p hp T hT
      obtain ⟨h1, h2, h3, h4⟩ := hsrc p hp
      obtain ⟨T', hT', hh⟩ := h0.1 _ h2
      rw [hT] at hT'
      cases hT'
      obtain ⟨T', q1, q2⟩ := runs_lqRename env sys opt.uniqueNameSuffix opt.useComments h3
        (fun e => h4 (by rw [e]; exact List.mem_map_of_mem h2)) (hclean _ h1) (hno _ h1) T hh
      exact ⟨T', ⟨fun _ => q1, fun h => absurd h h4⟩, q2⟩
    · intro t ht
      obtain ⟨ps, h1, T, h2, h3⟩ := hcr t ht
      rw [h1]
      rw [hlist] at h2
      exact ⟨T, ⟨fun _ => h2, fun h => absurd h (hnew t ht).2⟩, h3⟩
  constructor
  · rintro ⟨sets', hgen', d', hr, hd'⟩
    rw [hgen] at hgen'
    cases hgen'
    have hacc : ∀ e ∈ keptTables opt, ∀ T, d0 e.2.2.name = some T →
        ∃ T', TRuns (tableOps env (sched.columns e.1) e.2.1 e.2.2 opt.useComments opt.uniqueNameSuffix) T T' := by
      intro e he T hT
      obtain ⟨k1, k2, k3⟩ := hkept e he
      rw [hops] at hr
      obtain ⟨e1, r1, _⟩ := runs_split hr
      exact alters_runs (fun e : Nat × Table × Table => e.2.1.name) _ (nodup_keptTables hto)
        (fun e he => by
          show (d0 e.2.1.name).isSome
          rw [← (hkept e he).2.2]; exact hsome _ (List.mem_map_of_mem (hkept e he).2.1)) r1 e he T
        (by show d0 e.2.1.name = some T; rw [← k3]; exact hT)
    obtain ⟨d2, hr2, h2, _⟩ := hall hacc
    cases runs_unique hr hr2
    intro t ht o ho e
    obtain ⟨T, hT, _, h3⟩ := h2 t ht
    obtain ⟨x, hx, rfl, T0, hT0, hrun⟩ := h3 (List.mem_map.2 ⟨o, ho, e⟩)
    obtain ⟨k1, k2, k3⟩ := hkept x hx
    have hox : o = x.2.2 := eq_of_nodup_map hfrom.1 ho k2 (e.trans k3.symm)
    obtain ⟨T', hT', hh⟩ := hd'.1 _ ht
    rw [hT] at hT'
    cases hT'
    obtain ⟨m1, m2⟩ := (hany x hx T0 hT0).1 ⟨T, hrun, hh⟩
    rw [hox]
    refine ⟨m1, fun hsu S hS => m2 hsu |> fun f => ?_⟩
    rw [hT0] at hS
    cases hS
    exact f
  · intro hm
    have hrun : ∀ e ∈ keptTables opt, ∀ T, d0 e.2.2.name = some T → ∃ T',
        TRuns (tableOps env (sched.columns e.1) e.2.1 e.2.2 opt.useComments opt.uniqueNameSuffix) T T' ∧
        HoldsTable sys opt.useComments true opt.uniqueNameSuffix e.2.1 T' := by
      intro e he T hT
      obtain ⟨k1, k2, k3⟩ := hkept e he
      obtain ⟨m1, m2⟩ := hm _ k1 _ k2 k3
      exact (hany e he T hT).2 ⟨m1, fun hsu => m2 hsu T hT⟩
    obtain ⟨d', hr, h2, h3⟩ := hall (fun e he T hT => (hrun e he T hT).imp fun _ h => h.1)
    refine ⟨sets, hgen, d', hr, ?_, h3⟩
    intro t ht
    obtain ⟨T, hT, h4, h5⟩ := h2 t ht
    refine ⟨T, hT, ?_⟩
    by_cases hn : t.name ∈ opt.diffFrom.tables.map (·.name)
    · obtain ⟨e, he, rfl, T0, hT0, hr0⟩ := h5 hn
      obtain ⟨T', hr', hh⟩ := hrun e he T0 hT0
      cases tRuns_unique hr0 hr'
      exact hh
    · exact h4 hn

end Octo.Lq
