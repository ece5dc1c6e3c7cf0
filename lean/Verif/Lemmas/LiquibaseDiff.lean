import Verif.Lemmas.LiquibaseDb

/-!
# The Liquibase changelog of a schema diff migrates a database
-/

namespace Octo.Lq
open Octo.Spec

theorem lqAttrOf_congr {uc : Bool} {a b : Column} (h : SameShape uc a b) : lqAttrOf uc a = lqAttrOf uc b := by
  simp only [lqAttrOf, lqTypeText, h.type, h.size, h.scale, h.notNull, h.primaryKey, h.autoIncremental, h.defaultValue,
    LqAttr.mk.injEq, true_and]
  cases uc
  · rfl
  · simp [h.description rfl]

/-- Renaming a column. -/
theorem tRuns_renameSets (env : LqEnv) {t o : Table} {uc : Bool} (hsm : SmoothChange env uc t o) {p : Column × Column}
    (hp : p ∈ renamedPairs (columnRenames t o uc).1) (T : DbTable LqAttr) (hT : T.cols p.2.name = some (lqAttrOf uc p.2))
    (hT' : T.cols p.1.name = none) : TRuns (setsTOps env (renameSets t p)) T (renamedT T p.2.name p.1.name) := by
  obtain ⟨_, _, h3, h4, _⟩ := columnPairs_spec hp
  have e : setsTOps env (renameSets t p) = [TOp.renameColumn p.2.name p.1.name] ++ ([.modify p.1.name env.onRename] ++
      (if p.2.notNull = true then [TOp.modify p.1.name fun g : LqAttr => { g with notNull := true }] else [])) := by
    have : renameSets t p = [(false, [.renameColumn t.name p.1.name p.2.name (getLiquibaseType p.1)])] ++
      whenS p.2.notNull [.addNotNullConstraint t.name p.1.name (getLiquibaseType p.1) p.1.defaultValue] := rfl
    rw [this, setsTOps_append, setsTOps_whenS]
    rfl
  rw [e]
  refine tRuns_append (tRuns_one (t' := renamedT T p.2.name p.1.name) ⟨by rw [hT]; rfl, hT', rfl⟩) ?_
  have hnew : (renamedT T p.2.name p.1.name).cols p.1.name = some (lqAttrOf uc p.2) := by
    simp only [renamedT, upd_same, hT]
  refine tRuns_append (tRuns_one ⟨_, hnew, rfl⟩) ?_
  have hself : ∀ (U : DbTable LqAttr) (n : Str) (g : LqAttr), U.cols n = some g →
      { U with cols := upd U.cols n (some g) } = U := by
    intro U n g h; rw [← h, upd_self]
  have hfin : ∀ g : LqAttr, g = lqAttrOf uc p.2 →
      { renamedT T p.2.name p.1.name with cols := upd (renamedT T p.2.name p.1.name).cols p.1.name (some g) } =
        renamedT T p.2.name p.1.name := by
    rintro g rfl; exact hself _ _ _ hnew
  cases hnn : p.2.notNull with
  | true =>
    rw [if_pos rfl]
    have hg : (lqAttrOf uc p.2).notNull = true := by simp [lqAttrOf, hnn]
    refine ⟨_, ⟨_, upd_same _ p.1.name _, rfl⟩, ?_⟩
    simp only [upd_upd]
    refine (hfin _ ?_).symm
    rcases hsm.rename p.2 h3 h4 with h | h <;> rw [h] <;> rw [← hg]
  | false =>
    have hpk : p.2.primaryKey = false := by
      cases h : p.2.primaryKey
      · rfl
      · rw [hsm.keyOld p.2 h3 h] at hnn; cases hnn
    have hg : (lqAttrOf uc p.2).notNull = false := by simp [lqAttrOf, hnn, hpk]
    rw [if_neg (by decide)]
    refine (hfin _ ?_).symm
    rcases hsm.rename p.2 h3 h4 with h | h <;> rw [h]
    rw [← hg]

/-- Adding columns. -/
theorem addSets_plain (env : LqEnv) {pf : Str → Option Str} (t : Table) (cols : List Column) (uc : Bool)
    (hpl : ∀ c ∈ cols, PlainDefault pf c) (hk : ∀ c ∈ cols, c.primaryKey = true → c.notNull = true) :
    ∃ ps, addSets pf t cols uc = some ps ∧ SetsIn t.name ps ∧
      setsTOps env ps = cols.map fun c => .addColumn c.name (lqAttrOf uc c) := by
  unfold addSets
  by_cases hl : cols.length > 0
  · rw [if_pos hl]
    have h1 : ∃ lcs, cols.mapM (newAddedColumn pf t uc) = some lcs ∧ List.Forall₂ (ColumnFor uc false false) cols lcs := by
      clear hl
      induction cols with
      | nil => exact ⟨[], rfl, .nil⟩
      | cons c cs ih =>
        obtain ⟨lcs, h1, h2⟩ := ih (fun c hc => hpl c (by simp [hc])) (fun c hc => hk c (by simp [hc]))
        obtain ⟨lc, h3, h4⟩ := newLqColumn_plain (hpl c (by simp)) uc true true
        refine ⟨{ stripRemarks uc lc with afterColumn := lastColName c t.columns [] } :: lcs, ?_, .cons ?_ h2⟩
        · rw [List.mapM_cons, newAddedColumn, h3, h1]; rfl
        · exact ⟨h4.name, h4.attr, h4.pk, h4.unique⟩
    obtain ⟨lcs, h1, h2⟩ := h1
    refine ⟨_, by rw [newAddColumn, h1]; rfl, setsIn_one ⟨rfl, fun _ => rfl⟩, ?_⟩
    have hpk : lcs.any inlinePk = false := by
      rw [List.any_eq_false]
      intro lc hlc
      obtain ⟨c, _, hcf⟩ := forall₂_right h2 hlc
      rw [hcf.pk]; simp
    have huq : lcs.filter inlineUnique = [] := by
      rw [List.filter_eq_nil_iff]
      intro lc hlc
      obtain ⟨c, _, hcf⟩ := forall₂_right h2 hlc
      rw [hcf.unique]; simp
    simp only [setsTOps, List.flatMap_cons, List.flatMap_nil, List.append_nil, lqTableOps, hpk, huq,
      Bool.false_eq_true, if_false, List.map_nil]
    clear h1 hpk huq hl
    induction h2 with
    | nil => rfl
    | @cons c lc cs lcs hcf _ ih =>
      rw [List.map_cons, List.map_cons, ih (fun c hc => hpl c (by simp [hc])) (fun c hc => hk c (by simp [hc])), hcf.name,
        hcf.attr]
      congr 2
      have h3 := hk c (by simp)
      simp only [lqAttrOf, LqAttr.mk.injEq, true_and, and_true]
      revert h3
      cases c.primaryKey <;> cases c.notNull <;> simp
  · rw [if_neg hl]
    have : cols = [] := List.length_eq_zero_iff.1 (by omega)
    subst this
    exact ⟨[], rfl, fun p (hp : p ∈ []) => (List.not_mem_nil hp).elim, rfl⟩

/-- Some column of the old key survives the migration of the columns. -/
theorem key_survives {env : LqEnv} {uc : Bool} {t o : Table} (hsm : SmoothChange env uc t o)
    (ho : (o.columns.map (·.name)).Nodup) (hne : ¬∀ n, pkNames t n ↔ pkNames o n) (hex : ∃ n, pkNames o n) :
    ∃ n, (pkNames o n ∧ n ∈ t.columns.map (·.name)) ∨
        ∃ p ∈ renamedPairs (columnRenames t o uc).1, n = p.1.name ∧ p.2.primaryKey = true := by
  rcases hsm.keySurvives with h | h | ⟨b, hb, hpk, h | h⟩
  · exact absurd h hne
  · obtain ⟨n, hn⟩ := hex; exact absurd hn (h n)
  · exact ⟨b.name, Or.inl ⟨⟨b, hb, hpk, rfl⟩, h⟩⟩
  · by_cases hin : b.name ∈ t.columns.map (·.name)
    · exact ⟨b.name, Or.inl ⟨⟨b, hb, hpk, rfl⟩, hin⟩⟩
    have hmap : o.columnNameMap b.name = some b := lastBy_nodup ho hb
    have hused := findRenames_used (get := o.columnNameMap) (m := fun a b => a.isRenamed b (!uc)) (shapeKey uc)
      (fun a b => by rw [isRenamed_iff, shapeKey_iff]) (shapeKey uc b) (addedColumns t o) (removedNames t o)
      (nodup_removedNames t o) (by
        rw [((removedNames_columns ho).map (shapeKey uc)).count_eq]
        refine h.trans (le_of_eq ?_)
        congr 2
        unfold addedColumns
        apply List.filter_congr
        intro c _
        rw [Bool.eq_iff_iff, decide_eq_true_eq, Option.isNone_iff_eq_none, Table.columnNameMap, lastBy_none])
    have hpart := findRenames_partition (get := o.columnNameMap) (m := fun a b => a.isRenamed b (!uc))
      (fun c => c.name) (fun n r h => (lastBy_some h).2) (addedColumns t o) (removedNames t o) (nodup_removedNames t o)
    have hmem : b.name ∈ (removedNames t o).keys := mem_removedNames.2 ⟨List.mem_map_of_mem hb, hin⟩
    rcases List.mem_append.1 (hpart.mem_iff.2 hmem) with h1 | h1
    · obtain ⟨p, hp, e⟩ := List.mem_map.1 h1
      have hp' : p ∈ renamedPairs (columnRenames t o uc).1 := hp
      obtain ⟨_, _, h3, _⟩ := columnPairs_spec hp'
      have : p.2 = b := eq_of_nodup_map ho h3 hb e
      exact ⟨p.1.name, Or.inr ⟨p, hp', rfl, by rw [this]; exact hpk⟩⟩
    · exact absurd rfl (hused b.name h1 b hmap)

theorem midSets_in (sched : List (Column × Column) → List (Column × Column)) (t o : Table) (uc : Bool) (suffix : Str) :
    SetsIn t.name (midSets sched t o uc suffix) := by
  unfold midSets
  simp only [setsIn_append]
  refine ⟨setsIn_whenS ?_, ?_, ?_⟩
  · intro c hc; rw [List.mem_singleton] at hc; subst hc; exact ⟨rfl, fun _ => rfl⟩
  · intro p hp
    obtain ⟨n, _, rfl⟩ := List.mem_map.1 hp
    exact setsIn_one (c := .dropColumn t.name n) ⟨rfl, fun _ => rfl⟩ _ (by simp)
  · intro p hp
    obtain ⟨q, _, hq⟩ := List.mem_flatMap.1 hp
    rcases List.mem_cons.1 hq with rfl | hq
    · exact setsIn_one (c := .renameColumn t.name q.1.name q.2.name (getLiquibaseType q.1)) ⟨rfl, fun _ => rfl⟩ _ (by simp)
    · refine setsIn_whenS (n := t.name) ?_ p hq
      intro c hc; rw [List.mem_singleton] at hc; subst hc; exact ⟨rfl, fun _ => rfl⟩

theorem endSets_in (t o : Table) (suffix : Str) : SetsIn t.name (endSets t o suffix) := by
  unfold endSets
  rw [setsIn_append]
  refine ⟨setsIn_whenS ?_, setsIn_whenS ?_⟩
  · intro c hc
    unfold pkChanges at hc
    rcases List.mem_append.1 hc with hc | hc
    · split at hc
      · rw [List.mem_singleton] at hc; subst hc; exact ⟨rfl, fun _ => rfl⟩
      · cases hc
    · split at hc
      · rw [List.mem_singleton] at hc; subst hc; exact ⟨rfl, fun _ => rfl⟩
      · cases hc
  · intro c hc
    unfold uqChanges at hc
    split at hc
    · rw [List.mem_singleton] at hc; subst hc; exact ⟨rfl, fun _ => rfl⟩
    · cases hc

/-- The change sets of a table present in both versions bring it from the old to the new version. -/
theorem tRuns_tableSets (env : LqEnv) (henv : ∀ g, env.onRetype g = g) (sys : Str → Prop) {pf : Str → Option Str}
    (sched : List (Column × Column) → List (Column × Column)) (hs : ∀ l, (sched l).Perm l) (t o : Table) (uc : Bool)
    (suffix : Str) (hn : o.name = t.name) (ht : CleanTable pf t) (ho : (o.columns.map (·.name)).Nodup)
    (hsm : SmoothChange env uc t o) :
    ∃ ps, tableSets pf sched t o uc suffix = some ps ∧ SetsIn t.name ps ∧ ∀ T0, HoldsTable sys uc true suffix o T0 →
      (¬SameUnique t o → ∀ k, k ≠ t.name ++ suffix → T0.uniques k = none) →
      ∃ T', TRuns (setsTOps env ps) T0 T' ∧ HoldsTable sys uc true suffix t T' := by
  have hcolS : ∀ p ∈ keptColumns t o, ∃ ps, columnSets pf t p.1 p.2 uc = some ps ∧ ∀ T : DbTable LqAttr, T.pk = pkNames o →
      T.cols p.1.name = some (lqAttrOf uc p.2) →
      TRuns (setsTOps env ps) T { T with cols := upd T.cols p.1.name (some (lqAttrOf uc p.1)) } := by
    intro p hp
    obtain ⟨h1, h2⟩ := mem_keptColumns.1 hp
    exact tRuns_columnSets env henv hsm h1 (lastBy_some h2).1 (keptColumns_name hp) ho (ht.2 _ h1).2
  obtain ⟨cs, hcs, hcsIn, hcsOps⟩ : ∃ cs, (keptColumns t o).mapM (fun p => columnSets pf t p.1 p.2 uc) = some cs ∧
      SetsIn t.name cs.flatten ∧ setsTOps env cs.flatten =
        (keptColumns t o).flatMap fun p => setsTOps env ((columnSets pf t p.1 p.2 uc).getD []) := by
    have : ∀ p ∈ keptColumns t o, ∃ ps, columnSets pf t p.1 p.2 uc = some ps :=
      fun p hp => (hcolS p hp).imp fun _ h => h.1
    generalize keptColumns t o = l at this
    induction l with
    | nil => exact ⟨[], rfl, fun p (hp : p ∈ []) => (List.not_mem_nil hp).elim, rfl⟩
    | cons p l ih =>
      obtain ⟨cs, h1, h2, h3⟩ := ih (fun q hq => this q (by simp [hq]))
      obtain ⟨ps, h4⟩ := this p (by simp)
      refine ⟨ps :: cs, by rw [List.mapM_cons, h4, h1]; rfl, ?_, ?_⟩
      · rw [List.flatten_cons, setsIn_append]; exact ⟨columnSets_in h4, h2⟩
      · rw [List.flatten_cons, setsTOps_append, h3, List.flatMap_cons, h4]; rfl
  have hadded : ∀ c ∈ notRenamed (columnRenames t o uc).1, c ∈ t.columns := by
    intro c hc
    have hsplit := findRenames_split o.columnNameMap (fun a b => a.isRenamed b (!uc)) (addedColumns t o) (removedNames t o)
    have := hsplit.mem_iff.1 (List.mem_append_right _ hc)
    exact (List.mem_filter.1 this).1
  obtain ⟨add, hadd, haddIn, haddOps⟩ := addSets_plain env t (notRenamed (columnRenames t o uc).1) uc
    (fun c hc => (ht.2 c (hadded c hc)).2) (fun c hc => hsm.keyNew c (hadded c hc))
  have huch : uniqueChanged t o = true → HasUnique o := by
    intro h
    apply hsm.firstUnique
    intro hsu
    rw [(uniqueChanged_iff t o).2 hsu] at h; cases h
  refine ⟨_, by rw [tableSets, hcs, hadd]; rfl, ?_, ?_⟩
  · simp only [setsIn_append]
    refine ⟨setsIn_whenS ?_, hcsIn, midSets_in _ _ _ _ _, haddIn, endSets_in _ _ _⟩
    intro c hc; rw [List.mem_singleton] at hc; subst hc; exact ⟨rfl, fun _ => rfl⟩
  intro T0 h0 h0o
  have h0c : T0.cols = (dbTable (lqAttrOf uc) suffix o).cols := funext h0.cols
  have h0p : T0.pk = pkNames o := funext fun n => propext (h0.pk n)
  obtain ⟨T, hr, hcols, hsame, hdiff, hpk⟩ := migrate_columns_gen (lqAttrOf uc) suffix uc
    (fun p => setsTOps env ((columnSets pf t p.1 p.2 uc).getD [])) (fun p => setsTOps env (renameSets t p))
    sched hs t o T0 h0c h0p (fun k s h => ⟨(h0.only k s h).1, (h0.only k s h).2.1⟩)
    (fun _ hu => by rw [← hn, h0.named rfl hu]; rfl) h0o ht.1 ho (fun a b h => lqAttrOf_congr h)
    (by
      intro p hp T hTp hTc
      obtain ⟨ps, h1, h2⟩ := hcolS p hp
      rw [h1]
      exact h2 T hTp hTc)
    (fun p hp T hT hT' => tRuns_renameSets env hsm hp T hT hT')
  have hops : setsTOps env (whenS (uc && t.description != o.description) [.setTableRemarks t.name t.description] ++
      (cs.flatten ++ (midSets sched t o uc suffix ++ (add ++ endSets t o suffix)))) =
      (if (uc && t.description != o.description) = true then [.remark] else []) ++
      (migrateOps (lqAttrOf uc) suffix uc (fun p => setsTOps env ((columnSets pf t p.1 p.2 uc).getD []))
        (fun p => setsTOps env (renameSets t p)) sched t o ++ setsTOps env (endSets t o suffix)) := by
    simp only [setsTOps_append, hcsOps, haddOps, midSets, migrateOps, setsTOps_whenS, setsTOps_flatMap, List.append_assoc]
    congr 1
    congr 1
    congr 1
    · cases hu : uniqueChanged t o with
      | false => rfl
      | true =>
        have := size_pos_unique.2 (huch hu)
        rw [decide_eq_true this]; rfl
    · congr 1
      simp [setsTOps, List.flatMap_map, lqTableOps, ← List.map_eq_flatMap]
  rw [hops]
  have hexN : ∀ n, n ∈ t.columns.map (·.name) → (T.cols n).isSome := by
    intro n hn'; rw [hcols]; exact cols_dbTable_isSome.2 hn'
  -- primary key
  obtain ⟨T1, hr1, h1c, h1p, h1u⟩ : ∃ T1, TRuns (setsTOps env (whenS (!t.primaryKeyNameSet.equals o.primaryKeyNameSet)
      (pkChanges t o))) T T1 ∧ T1.cols = T.cols ∧ (∀ n, T1.pk n ↔ pkNames t n) ∧ T1.uniques = T.uniques := by
    rw [setsTOps_whenS]
    cases heq : t.primaryKeyNameSet.equals o.primaryKeyNameSet with
    | true =>
      refine ⟨T, rfl, rfl, ?_, rfl⟩
      have hsp := (primaryChanged_iff t o).1 heq
      intro n
      rw [hpk n]
      constructor
      · rintro (⟨h1, _⟩ | ⟨p, hp, rfl, h⟩)
        · exact (hsp n).2 h1
        · exfalso
          obtain ⟨_, _, h3, h4, _⟩ := columnPairs_spec hp
          obtain ⟨c, hc, _, e⟩ := (hsp p.2.name).2 ⟨p.2, h3, h, rfl⟩
          exact h4 (e ▸ List.mem_map_of_mem hc)
      · intro h
        refine Or.inl ⟨(hsp n).1 h, ?_⟩
        obtain ⟨c, hc, _, rfl⟩ := h
        exact List.mem_map_of_mem hc
    | false =>
      have hne : ¬∀ n, pkNames t n ↔ pkNames o n := by
        intro h
        rw [(primaryChanged_iff t o).2 h] at heq; cases heq
      simp only [Bool.not_false, if_true, pkChanges, List.flatMap_append]
      -- dropping the old key
      obtain ⟨T1, hr1, h1c, h1p, h1u⟩ : ∃ T1, TRuns (List.flatMap (lqTableOps env)
          (if o.primaryKeyNameSet.size > 0 then [.dropPrimaryKey t.name] else [])) T T1 ∧ T1.cols = T.cols ∧
          (∀ n, ¬T1.pk n) ∧ T1.uniques = T.uniques := by
        by_cases hsz : o.primaryKeyNameSet.size > 0
        · rw [if_pos hsz]
          obtain ⟨b, hb, hb2⟩ := size_pos_primary.1 hsz
          obtain ⟨n, hn2⟩ := key_survives hsm ho hne ⟨b.name, b, hb, hb2, rfl⟩
          exact ⟨{ T with pk := fun _ => False }, tRuns_one ⟨⟨n, (hpk n).2 hn2⟩, rfl⟩, rfl, fun _ h => h, rfl⟩
        · rw [if_neg hsz]
          refine ⟨T, rfl, rfl, ?_, rfl⟩
          intro n hn2
          apply hsz
          rcases (hpk n).1 hn2 with ⟨⟨c, hc, h1, _⟩, _⟩ | ⟨p, hp, _, h1⟩
          · exact size_pos_primary.2 ⟨c, hc, h1⟩
          · exact size_pos_primary.2 ⟨p.2, (columnPairs_spec hp).2.2.1, h1⟩
      by_cases hsz : t.primaryKeyNameSet.size > 0
      · rw [if_pos hsz]
        have hl2 : listed (t.primaryKeyNameSet.joinKeys ", "ₛ) = t.primaryKeyNameSet.slice :=
          listed_slice hsz (by
            intro n hn
            obtain ⟨c, hc, _, rfl⟩ := mem_primaryKeyNameSet.1 hn
            exact (ht.2 c hc).1)
        have hmem : ∀ n, n ∈ t.primaryKeyNameSet.slice ↔ pkNames t n := fun n => mem_slice.trans mem_primaryKeyNameSet
        have hex : ∀ n, n ∈ t.primaryKeyNameSet.slice → (T.cols n).isSome := by
          intro n hn
          obtain ⟨c, hc, _, rfl⟩ := (hmem n).1 hn
          exact hexN _ (List.mem_map_of_mem hc)
        refine ⟨{ cols := fun m => if m ∈ t.primaryKeyNameSet.slice then
              (T1.cols m).map fun g => { g with notNull := true } else T1.cols m
                  pk := fun n => n ∈ t.primaryKeyNameSet.slice, uniques := T1.uniques }, tRuns_append hr1 ?_, ?_, hmem, ?_⟩
        · simp only [List.flatMap_cons, List.flatMap_nil, List.append_nil, lqTableOps, hl2]
          exact ⟨{ T1 with pk := fun n => n ∈ t.primaryKeyNameSet.slice }, ⟨h1p, fun n hn => by rw [h1c]; exact hex n hn, rfl⟩,
            tRuns_notNulls _ _ (by intro n hn; simp only; rw [h1c]; exact hex n hn)⟩
        · funext n
          simp only [h1c]
          by_cases hm : n ∈ t.primaryKeyNameSet.slice
          · rw [if_pos hm]
            obtain ⟨c, hc, h1, rfl⟩ := (hmem n).1 hm
            rw [hcols, cols_dbTable ht.1 hc, Option.map_some]
            congr 1
            have : (lqAttrOf uc c).notNull = true := by simp [lqAttrOf, h1]
            rw [← this]
          · rw [if_neg hm]
        · exact h1u
      · rw [if_neg hsz]
        refine ⟨T1, tRuns_append hr1 rfl, h1c, ?_, h1u⟩
        intro n
        refine ⟨fun h => absurd h (h1p n), ?_⟩
        rintro ⟨c, hc, h1, _⟩
        exact absurd (size_pos_primary.2 ⟨c, hc, h1⟩) hsz
  -- unique constraint
  obtain ⟨T2, hr2, h2c, h2p, h2e, h2n, h2o⟩ : ∃ T2, TRuns (setsTOps env (whenS (uniqueChanged t o) (uqChanges t suffix))) T1 T2 ∧
      T2.cols = T.cols ∧ (∀ n, T2.pk n ↔ pkNames t n) ∧ (HasUnique t → ∃ k, T2.uniques k = some (uqNames t)) ∧
      (HasUnique t → T2.uniques (t.name ++ suffix) = some (uqNames t)) ∧
      (∀ k s, T2.uniques k = some s → HasUnique t ∧ s = uqNames t ∧ (k = t.name ++ suffix ∨ sys k)) := by
    rw [setsTOps_whenS]
    by_cases hsu : SameUnique t o
    · rw [(uniqueChanged_iff t o).2 hsu]
      have huq : uqNames o = uqNames t := by funext n; exact propext (hsu n).symm
      have hiff : HasUnique t → HasUnique o := by
        rintro ⟨c, h1, h2⟩
        obtain ⟨d, h3, h4, _⟩ := (hsu c.name).1 ⟨c, h1, h2, rfl⟩
        exact ⟨d, h3, h4⟩
      have hiff' : HasUnique o → HasUnique t := by
        rintro ⟨c, h1, h2⟩
        obtain ⟨d, h3, h4, _⟩ := (hsu c.name).2 ⟨c, h1, h2, rfl⟩
        exact ⟨d, h3, h4⟩
      refine ⟨T1, rfl, h1c, h1p, ?_, ?_, ?_⟩
      · intro h; rw [h1u, hsame hsu, ← huq]; exact h0.enforced (hiff h)
      · intro h; rw [h1u, hsame hsu, ← huq, ← hn]; exact h0.named rfl (hiff h)
      · intro k s h
        rw [h1u, hsame hsu] at h
        obtain ⟨h3, h4, h5⟩ := h0.only k s h
        exact ⟨hiff' h3, h4.trans huq, by rw [← hn]; exact h5⟩
    · have hch : uniqueChanged t o = true := by
        cases h : uniqueChanged t o
        · exact absurd ((uniqueChanged_iff t o).1 h) hsu
        · rfl
      rw [hch, if_pos rfl, uqChanges]
      have hnone := hdiff hsu
      by_cases hsz : t.uniqueKeyNameSet.size > 0
      · rw [if_pos hsz]
        have hl2 : listed (t.uniqueKeyNameSet.joinKeys ", "ₛ) = t.uniqueKeyNameSet.slice :=
          listed_slice hsz (by
            intro n hn
            obtain ⟨c, hc, _, rfl⟩ := mem_uniqueKeyNameSet.1 hn
            exact (ht.2 c hc).1)
        have hmem : (fun n => n ∈ t.uniqueKeyNameSet.slice) = uqNames t := by
          funext n; exact propext (mem_slice.trans mem_uniqueKeyNameSet)
        refine ⟨{ T1 with uniques := upd T1.uniques (t.name ++ suffix) (some (uqNames t)) }, ?_, h1c, h1p, ?_, ?_, ?_⟩
        · simp only [List.flatMap_cons, List.flatMap_nil, List.append_nil, lqTableOps, hl2, hmem]
          refine tRuns_one ⟨by rw [h1u, hnone], ?_, rfl⟩
          rintro n ⟨c, hc, _, rfl⟩
          rw [h1c]; exact hexN _ (List.mem_map_of_mem hc)
        · intro _; exact ⟨t.name ++ suffix, upd_same _ _ _⟩
        · intro _; exact upd_same _ _ _
        · intro k s hk
          by_cases hkk : k = t.name ++ suffix
          · subst hkk
            simp only [upd_same, Option.some.injEq] at hk
            exact ⟨size_pos_unique.1 hsz, hk.symm, Or.inl rfl⟩
          · simp only [upd_ne _ _ hkk, h1u, hnone] at hk; cases hk
      · rw [if_neg hsz]
        have hno : ¬HasUnique t := fun h => hsz (size_pos_unique.2 h)
        refine ⟨T1, rfl, h1c, h1p, fun h => absurd h hno, fun h => absurd h hno, ?_⟩
        intro k s hk
        rw [h1u, hnone] at hk; cases hk
  refine ⟨T2, tRuns_append (t' := T0) ?_ (tRuns_append hr ?_), ⟨?_, h2p, h2e, fun _ => h2n, h2o⟩⟩
  · split
    · exact tRuns_one rfl
    · exact rfl
  · rw [endSets, setsTOps_append]
    exact tRuns_append hr1 hr2
  · intro n; rw [h2c, hcols]; rfl

/-! ### The whole changelog -/

def blockOps (env : LqEnv) (b : LqBlock) : List (DbOp LqAttr) := setsOps env (b.map Prod.snd)

theorem blockOps_fromSets (env : LqEnv) (k : Nat) (ps : Sets) : blockOps env (fromSets k ps) = setsOps env ps := by
  have : ∀ k, (fromSets k ps).map Prod.snd = ps := by
    induction ps with
    | nil => intro k; rfl
    | cons p ps ih => intro k; simp [fromSets, ih]
  rw [blockOps, this]

theorem changelogOps_blocks (env : LqEnv) (author : Str) (m : Nat) (bs : List LqBlock) :
    changelogOps env (number author m bs) = bs.flatMap (blockOps env) := by
  induction bs generalizing m with
  | nil => rfl
  | cons b bs ih =>
    rw [number, changelogOps_append, ih, List.flatMap_cons]
    congr 1
    simp [changelogOps, stamp, blockOps, setsOps, List.flatMap_map]

theorem flatMap_nonempty (env : LqEnv) (bs : List LqBlock) :
    (bs.filter (fun b => !b.isEmpty)).flatMap (blockOps env) = bs.flatMap (blockOps env) := by
  induction bs with
  | nil => rfl
  | cons b bs ih =>
    cases b with
    | nil => exact ih
    | cons x b => simp [ih]

/-- The three changes of a renamed table. -/
theorem runs_lqRename (env : LqEnv) (sys : Str → Prop) {pf : Str → Option Str} (suffix : Str) (uc : Bool) {n o : Table}
    (h : n.columns = o.columns) (hne : n.name ≠ o.name) (hcl : CleanTable pf n) (hno : ¬sys (n.name ++ suffix))
    (T : DbTable LqAttr) (hT : HoldsTable sys uc true suffix o T) :
    ∃ T', HoldsTable sys uc true suffix n T' ∧ ∀ d : Db LqAttr, d o.name = some T → d n.name = none →
      Runs (blockOps env (renameBlock suffix (n, o))) d (upd (upd d o.name none) n.name (some T')) := by
  have hcn : ∀ m, columnNamed n m = columnNamed o m := fun m => by rw [columnNamed, columnNamed, h]
  have hpk : pkNames n = pkNames o := by funext m; simp only [pkNames, h]
  have huq : uqNames n = uqNames o := by funext m; simp only [uqNames, h]
  have hh : HasUnique n ↔ HasUnique o := by simp only [HasUnique, h]
  have hops : blockOps env (renameBlock suffix (n, o)) =
      (if o.uniqueKeyNameSet.size > 0 then [.alter o.name (.dropUnique (o.name ++ suffix))] else []) ++
      ([.renameTable o.name n.name] ++ (if n.uniqueKeyNameSet.size > 0 then
        [.alter n.name (.createUnique (n.name ++ suffix) fun m => m ∈ listed (n.uniqueKeyNameSet.joinKeys ", "ₛ))] else [])) := by
    unfold blockOps renameBlock
    by_cases h1 : o.uniqueKeyNameSet.size > 0 <;> by_cases h2 : n.uniqueKeyNameSet.size > 0
    · rw [if_pos h1, if_pos h2, if_pos h1, if_pos h2]; rfl
    · rw [if_pos h1, if_neg h2, if_pos h1, if_neg h2]; rfl
    · rw [if_neg h1, if_pos h2, if_neg h1, if_pos h2]; rfl
    · rw [if_neg h1, if_neg h2, if_neg h1, if_neg h2]; rfl
  rw [hops]
  by_cases hq : HasUnique o
  · have hq' := hh.2 hq
    have hsz := size_pos_unique.2 hq'
    rw [if_pos (size_pos_unique.2 hq), if_pos hsz]
    have hl2 : listed (n.uniqueKeyNameSet.joinKeys ", "ₛ) = n.uniqueKeyNameSet.slice :=
      listed_slice hsz (by
        intro m hm
        obtain ⟨c, hc, _, rfl⟩ := mem_uniqueKeyNameSet.1 hm
        exact (hcl.2 c hc).1)
    have hmem : (fun m => m ∈ n.uniqueKeyNameSet.slice) = uqNames n := by
      funext m; exact propext (mem_slice.trans mem_uniqueKeyNameSet)
    rw [hl2, hmem]
    have hfree : upd T.uniques (o.name ++ suffix) none (n.name ++ suffix) = none := by
      have hk : n.name ++ suffix ≠ o.name ++ suffix := fun e => hne (List.append_cancel_right e)
      rw [upd_ne _ _ hk]
      cases hu : T.uniques (n.name ++ suffix) with
      | none => rfl
      | some s =>
        rcases (hT.only _ _ hu).2.2 with e | e
        · exact absurd e hk
        · exact absurd e hno
    refine ⟨{ T with uniques := upd (upd T.uniques (o.name ++ suffix) none) (n.name ++ suffix) (some (uqNames n)) },
      ⟨?_, ?_, ?_, ?_, ?_⟩, ?_⟩
    · intro m; rw [hcn]; exact hT.cols m
    · intro m; rw [hpk]; exact hT.pk m
    · intro _; exact ⟨_, upd_same _ _ _⟩
    · intro _ _; exact upd_same _ _ _
    · intro k s hk
      by_cases hkk : k = n.name ++ suffix
      · subst hkk
        simp only [upd_same, Option.some.injEq] at hk
        exact ⟨hq', hk.symm, Or.inl rfl⟩
      · simp only [upd_ne _ _ hkk] at hk
        by_cases hko : k = o.name ++ suffix
        · subst hko; simp at hk
        · rw [upd_ne _ _ hko] at hk
          obtain ⟨h1, h2, h3⟩ := hT.only k s hk
          exact ⟨hq', h2.trans huq.symm, Or.inr (h3.resolve_left hko)⟩
    · intro d hd hdn
      refine ⟨upd d o.name (some { T with uniques := upd T.uniques (o.name ++ suffix) none }), ?_, ?_⟩
      · exact ⟨T, _, hd, ⟨by rw [hT.named rfl hq]; rfl, rfl⟩, rfl⟩
      · refine ⟨upd (upd d o.name none) n.name (some { T with uniques := upd T.uniques (o.name ++ suffix) none }), ?_, ?_⟩
        · refine ⟨by simp, by rw [upd_ne _ _ hne]; exact hdn, ?_⟩
          rw [upd_upd]; simp
        · refine runs_one ⟨_, _, upd_same _ _ _, ⟨hfree, ?_, rfl⟩, by rw [upd_upd]⟩
          rintro c ⟨x, hx, _, rfl⟩
          have : (columnNamed o x.name) = some x := by
            rw [← hcn]; exact (columnNamed_eq_some hcl.1).2 ⟨hx, rfl⟩
          rw [hT.cols, this]; rfl
  · have hq' : ¬HasUnique n := fun h' => hq (hh.1 h')
    rw [if_neg (fun h' => hq (size_pos_unique.1 h')), if_neg (fun h' => hq' (size_pos_unique.1 h'))]
    refine ⟨T, ⟨?_, ?_, fun h => absurd h hq', fun _ h => absurd h hq', ?_⟩, ?_⟩
    · intro m; rw [hcn]; exact hT.cols m
    · intro m; rw [hpk]; exact hT.pk m
    · intro k s hk; exact absurd (hT.only k s hk).1 hq
    · intro d hd hdn
      refine runs_one ⟨by rw [hd]; rfl, hdn, ?_⟩
      rw [hd]

/-- Running the changelog of a diff. -/
theorem lq_migrate (env : LqEnv) (henv : ∀ g, env.onRetype g = g) (hlist : env.listed = true) (sys : Str → Prop)
    (pf : Str → Option Str) (opt : DiffOption) (sched : Sched) (hs : sched.Fair) (hf : opt.tableFilter = none)
    (hfrom : DistinctNames opt.diffFrom) (hto : (opt.diffTo.tables.map (·.name)).Nodup)
    (hclean : ∀ t ∈ opt.diffTo.tables, CleanTable pf t)
    (hsys : ∀ t ∈ opt.diffTo.tables, ∀ c ∈ t.columns, sys (env.sysName t.name c.name))
    (hno : ∀ t ∈ opt.diffTo.tables, ¬sys (t.name ++ opt.uniqueNameSuffix))
    (hsm : ∀ t ∈ opt.diffTo.tables, ∀ o ∈ opt.diffFrom.tables, o.name = t.name → SmoothChange env opt.useComments t o)
    (d0 : Db LqAttr) (h0 : HoldsDb sys opt.useComments true opt.uniqueNameSuffix opt.diffFrom.tables d0)
    (h0o : ∀ t ∈ opt.diffTo.tables, ∀ o ∈ opt.diffFrom.tables, o.name = t.name → ¬SameUnique t o →
      ∀ T, d0 o.name = some T → ∀ k, k ≠ t.name ++ opt.uniqueNameSuffix → T.uniques k = none) :
    ∃ sets, generate pf opt sched = some sets ∧ ∃ d', Runs (changelogOps env sets) d0 d' ∧
      HoldsDb sys opt.useComments true opt.uniqueNameSuffix opt.diffTo.tables d' := by
  have hkept : ∀ e ∈ keptTables opt, e.2.1 ∈ opt.diffTo.tables ∧ e.2.2 ∈ opt.diffFrom.tables ∧
      e.2.2.name = e.2.1.name := by
    rintro ⟨i, t, o⟩ he
    obtain ⟨h1, _, h3⟩ := mem_keptTables.1 he
    exact ⟨List.mem_of_getElem? h1, (lastBy_some h3).1, (lastBy_some h3).2⟩
  have htab := fun e (he : e ∈ keptTables opt) => tRuns_tableSets env henv sys (pf := pf) (sched.columns e.1) (hs.2 e.1)
    e.2.1 e.2.2 opt.useComments opt.uniqueNameSuffix (hkept e he).2.2 (hclean _ (hkept e he).1)
    (hfrom.2 _ (hkept e he).2.1) (hsm _ (hkept e he).1 _ (hkept e he).2.1 (hkept e he).2.2)
  have hnew : ∀ t ∈ notRenamed (tableRenames opt).1, t ∈ opt.diffTo.tables := by
    intro t ht
    have hsplit := findRenames_split opt.diffFrom.tablesByName (fun a b => a.columns == b.columns) (addedTables opt)
      (removedTableNames opt)
    exact (mem_addedTables.1 (hsplit.mem_iff.1 (List.mem_append_right _ ht))).1
  have hcr := fun t (ht : t ∈ notRenamed (tableRenames opt).1) => runs_createTable env sys pf opt.uniqueNameSuffix
    opt.useComments t (hclean t (hnew t ht)) (fun _ => hsys t (hnew t ht)) (hno t (hnew t ht))
  obtain ⟨ks, hks, hksOps⟩ : ∃ ks, keptSets pf opt sched = some ks ∧ (ks.map (fromSets 0)).flatMap (blockOps env) =
      (keptTables opt).flatMap (fun e => (setsTOps env ((tableSets pf (sched.columns e.1) e.2.1 e.2.2 opt.useComments
        opt.uniqueNameSuffix).getD [])).map (.alter e.2.1.name)) := by
    have : ∀ e ∈ keptTables opt, ∃ ps, tableSets pf (sched.columns e.1) e.2.1 e.2.2 opt.useComments
        opt.uniqueNameSuffix = some ps ∧ SetsIn e.2.1.name ps := fun e he => (htab e he).imp fun _ h => ⟨h.1, h.2.1⟩
    unfold keptSets
    generalize keptTables opt = l at this
    induction l with
    | nil => exact ⟨[], rfl, rfl⟩
    | cons e l ih =>
      obtain ⟨ks, h1, h2⟩ := ih (fun q hq => this q (by simp [hq]))
      obtain ⟨ps, h3, h4⟩ := this e (by simp)
      refine ⟨ps :: ks, by rw [List.mapM_cons, h3, h1]; rfl, ?_⟩
      rw [List.map_cons, List.flatMap_cons, h2, blockOps_fromSets, setsOps_in h4, List.flatMap_cons, h3]; rfl
  obtain ⟨cs, hcs, hcsOps⟩ : ∃ cs, createdSets pf opt = some cs ∧ (cs.map (fromSets 0)).flatMap (blockOps env) =
      (notRenamed (tableRenames opt).1).flatMap (fun t =>
        setsOps env ((createSets pf opt.uniqueNameSuffix opt.useComments t).getD [])) := by
    have : ∀ t ∈ notRenamed (tableRenames opt).1, ∃ ps, createSets pf opt.uniqueNameSuffix opt.useComments t = some ps :=
      fun t ht => (hcr t ht).imp fun _ h => h.1
    unfold createdSets
    generalize notRenamed (tableRenames opt).1 = l at this
    induction l with
    | nil => exact ⟨[], rfl, rfl⟩
    | cons e l ih =>
      obtain ⟨ks, h1, h2⟩ := ih (fun q hq => this q (by simp [hq]))
      obtain ⟨ps, h3⟩ := this e (by simp)
      refine ⟨ps :: ks, by rw [List.mapM_cons, h3, h1]; rfl, ?_⟩
      rw [List.map_cons, List.flatMap_cons, h2, blockOps_fromSets, List.flatMap_cons, h3]; rfl
  refine ⟨_, by rw [generate_eq, hks, hcs]; rfl, ?_⟩
  rw [changelogOps_blocks, diffBlocks]
  simp only [List.flatMap_append, flatMap_nonempty, hksOps, hcsOps]
  have hrops : ((sched.tables (renamedPairs (tableRenames opt).1)).map (renameBlock opt.uniqueNameSuffix)).flatMap
      (blockOps env) = (sched.tables (renamedPairs (tableRenames opt).1)).flatMap
        (fun p => blockOps env (renameBlock opt.uniqueNameSuffix p)) := by rw [List.flatMap_map]
  have hdrops : ((tableRenames opt).2.slice.map dropBlock).flatMap (blockOps env) =
      (tableRenames opt).2.slice.map .dropTable := by
    rw [List.flatMap_map, List.map_eq_flatMap]; rfl
  rw [hrops, hdrops]
  have hsrc : ∀ p ∈ renamedPairs (tableRenames opt).1, p.1 ∈ opt.diffTo.tables ∧ p.2 ∈ opt.diffFrom.tables ∧
      p.1.columns = p.2.columns ∧ p.1.name ≠ p.2.name := by
    intro p hp
    obtain ⟨h1, h2, h3, h4⟩ := renamedPairs_source hp
    refine ⟨(mem_addedTables.1 h1).1, (lastBy_some h4).1, h2, ?_⟩
    intro e
    have := (mem_addedTables.1 h1).2.2
    rw [e] at this
    exact this (mem_removedTableNames.1 h3).1
  exact migrate_db_gen opt (HoldsTable sys opt.useComments true opt.uniqueNameSuffix) d0 sched.tables hs.1 hf hfrom.1 hto
    (by
      intro n hn
      obtain ⟨t, ht, rfl⟩ := List.mem_map.1 hn
      obtain ⟨T, hT, _⟩ := h0.1 t ht
      rw [hT]; rfl)
    h0.2
    (fun e => setsTOps env ((tableSets pf (sched.columns e.1) e.2.1 e.2.2 opt.useComments opt.uniqueNameSuffix).getD []))
    (fun p => blockOps env (renameBlock opt.uniqueNameSuffix p))
    (fun t => setsOps env ((createSets pf opt.uniqueNameSuffix opt.useComments t).getD []))
    (by
      intro e he T hT
      obtain ⟨ps, h1, _, h3⟩ := htab e he
      obtain ⟨T', hT', hh⟩ := h0.1 _ (hkept e he).2.1
      rw [hT] at hT'
      cases hT'
      rw [h1]
      exact h3 T hh (fun hsu k hk => h0o _ (hkept e he).1 _ (hkept e he).2.1 (hkept e he).2.2 hsu T hT k hk))
    (by
      intro p hp T hT
      obtain ⟨h1, h2, h3, h4⟩ := hsrc p hp
      obtain ⟨T', hT', hh⟩ := h0.1 _ h2
      rw [hT] at hT'
      cases hT'
      exact runs_lqRename env sys opt.uniqueNameSuffix opt.useComments h3 h4 (hclean _ h1) (hno _ h1) T hh)
    (by
      intro t ht
      obtain ⟨ps, h1, T, h2, h3⟩ := hcr t ht
      rw [h1]
      rw [hlist] at h2
      exact ⟨T, h2, h3⟩)

/-- Running the generated changelog on an empty database: a table with one unique column has a further constraint on it. -/
theorem lq_create_more (env : LqEnv) (sys : Str → Prop) (pf : Str → Option Str) (opt : GenOption) (schema : Schema)
    (hnd : ((schema.tables.filter (passes opt.tableFilter)).map (·.name)).Nodup)
    (hclean : ∀ t ∈ schema.tables.filter (passes opt.tableFilter), CleanTable pf t)
    (hsys : ∀ t ∈ schema.tables.filter (passes opt.tableFilter), ∀ c ∈ t.columns, sys (env.sysName t.name c.name))
    (hno : ∀ t ∈ schema.tables.filter (passes opt.tableFilter), ¬sys (t.name ++ opt.uniqueNameSuffix)) :
    ∃ sets, generateAll pf opt schema = some sets ∧ ∃ d', Runs (changelogOps env sets) (fun _ => none) d' ∧
      HoldsDb sys opt.useComments env.listed opt.uniqueNameSuffix (schema.tables.filter (passes opt.tableFilter)) d' ∧
      ∀ t ∈ schema.tables.filter (passes opt.tableFilter), ∀ T, d' t.name = some T → (t.uniqueKeyNameSet.size > 1 →
        ∀ k, k ≠ t.name ++ opt.uniqueNameSuffix → T.uniques k = none) ∧
        (HasUnique t → ¬t.uniqueKeyNameSet.size > 1 → ∃ k, k ≠ t.name ++ opt.uniqueNameSuffix ∧ (T.uniques k).isSome) := by
  have hcr : ∀ t ∈ schema.tables.filter (passes opt.tableFilter),
      ∃ ps, createSets pf opt.uniqueNameSuffix opt.useComments t = some ps ∧ ∃ T,
        (HoldsTable sys opt.useComments env.listed opt.uniqueNameSuffix t T ∧ (t.uniqueKeyNameSet.size > 1 →
          ∀ k, k ≠ t.name ++ opt.uniqueNameSuffix → T.uniques k = none) ∧
          (HasUnique t → ¬t.uniqueKeyNameSet.size > 1 → ∃ k, k ≠ t.name ++ opt.uniqueNameSuffix ∧ (T.uniques k).isSome)) ∧
        ∀ d, d t.name = none → Runs (setsOps env ps) d (upd d t.name (some T)) := by
    intro t ht
    obtain ⟨ps, h1, T, ⟨h2, h2'⟩, h3⟩ := runs_buildable_more env (fun k => sys k ∧ ¬t.uniqueKeyNameSet.size > 1) pf
      opt.uniqueNameSuffix opt.useComments t (buildable_of_clean (sys := fun k => sys k ∧ ¬t.uniqueKeyNameSet.size > 1) (hclean t ht)
        (fun h c hc => ⟨hsys t ht c hc, h⟩) (fun h => hno t ht h.1)) (fun h c hc => ⟨hsys t ht c hc, h⟩)
    refine ⟨ps, h1, T, ⟨⟨h2.cols, h2.pk, h2.enforced, h2.named, ?_⟩, ?_, ?_⟩, h3⟩
    · intro k s hk
      obtain ⟨h4, h5, h6⟩ := h2.only k s hk
      exact ⟨h4, h5, h6.imp id And.left⟩
    · intro hsz k hk
      cases hu : T.uniques k with
      | none => rfl
      | some s =>
        obtain ⟨_, _, h6⟩ := h2.only k s hu
        rcases h6 with h6 | h6
        · exact absurd h6 hk
        · exact absurd hsz h6.2
    · intro hu hsz
      obtain ⟨c, hc, hk⟩ := h2' hu hsz
      exact ⟨_, fun e => hno t ht (by rw [← e]; exact hsys t ht c hc), hk⟩
  rw [generateAll_eq]
  generalize schema.tables.filter (passes opt.tableFilter) = ts at *
  obtain ⟨cs, hcs, hcsOps⟩ : ∃ cs, ts.mapM (createSets pf opt.uniqueNameSuffix opt.useComments) = some cs ∧
      cs.flatMap (setsOps env) = ts.flatMap (fun t =>
        setsOps env ((createSets pf opt.uniqueNameSuffix opt.useComments t).getD [])) := by
    have : ∀ t ∈ ts, ∃ ps, createSets pf opt.uniqueNameSuffix opt.useComments t = some ps :=
      fun t ht => (hcr t ht).imp fun _ h => h.1
    clear * - this
    induction ts with
    | nil => exact ⟨[], rfl, rfl⟩
    | cons e l ih =>
      obtain ⟨ks, h1, h2⟩ := ih (fun q hq => this q (by simp [hq]))
      obtain ⟨ps, h3⟩ := this e (by simp)
      refine ⟨ps :: ks, by rw [List.mapM_cons, h3, h1]; rfl, ?_⟩
      rw [List.flatMap_cons, h2, List.flatMap_cons, h3]; rfl
  refine ⟨_, by rw [hcs]; rfl, ?_⟩
  rw [changelogOps_number, hcsOps]
  have hex : ∀ t, ∃ T : DbTable LqAttr, t ∈ ts →
      (HoldsTable sys opt.useComments env.listed opt.uniqueNameSuffix t T ∧ (t.uniqueKeyNameSet.size > 1 →
          ∀ k, k ≠ t.name ++ opt.uniqueNameSuffix → T.uniques k = none) ∧
          (HasUnique t → ¬t.uniqueKeyNameSet.size > 1 → ∃ k, k ≠ t.name ++ opt.uniqueNameSuffix ∧ (T.uniques k).isSome)) ∧
      ∀ d, d t.name = none → Runs (setsOps env ((createSets pf opt.uniqueNameSuffix opt.useComments t).getD [])) d
        (upd d t.name (some T)) := by
    intro t
    by_cases ht : t ∈ ts
    · obtain ⟨ps, h1, T, h2, h3⟩ := hcr t ht
      exact ⟨T, fun _ => ⟨h2, by rw [h1]; exact h3⟩⟩
    · exact ⟨emptyTable, fun h => absurd h ht⟩
  choose T hT using hex
  obtain ⟨d', h1, h2, h3⟩ := runs_creates (fun t : Table => t.name) T
    (fun t => setsOps env ((createSets pf opt.uniqueNameSuffix opt.useComments t).getD [])) ts
    (fun t ht => (hT t ht).2) hnd (fun _ => none) (fun _ _ => rfl)
  refine ⟨d', h1, ⟨fun t ht => ⟨T t, h2 t ht, (hT t ht).1.1⟩, h3⟩, ?_⟩
  intro t ht T' hT'
  rw [h2 t ht] at hT'
  cases hT'
  exact (hT t ht).1.2

/-- Running the generated changelog on an empty database. -/
theorem lq_create (env : LqEnv) (sys : Str → Prop) (pf : Str → Option Str) (opt : GenOption) (schema : Schema)
    (hnd : ((schema.tables.filter (passes opt.tableFilter)).map (·.name)).Nodup)
    (hclean : ∀ t ∈ schema.tables.filter (passes opt.tableFilter), CleanTable pf t)
    (hsys : ∀ t ∈ schema.tables.filter (passes opt.tableFilter), ∀ c ∈ t.columns, sys (env.sysName t.name c.name))
    (hno : ∀ t ∈ schema.tables.filter (passes opt.tableFilter), ¬sys (t.name ++ opt.uniqueNameSuffix)) :
    ∃ sets, generateAll pf opt schema = some sets ∧ ∃ d', Runs (changelogOps env sets) (fun _ => none) d' ∧
      HoldsDb sys opt.useComments env.listed opt.uniqueNameSuffix (schema.tables.filter (passes opt.tableFilter)) d' ∧
      ∀ t ∈ schema.tables.filter (passes opt.tableFilter), ∀ T, d' t.name = some T → t.uniqueKeyNameSet.size > 1 →
        ∀ k, k ≠ t.name ++ opt.uniqueNameSuffix → T.uniques k = none := by
  obtain ⟨sets, h1, d', h2, h3, h4⟩ := lq_create_more env sys pf opt schema hnd hclean hsys hno
  exact ⟨sets, h1, d', h2, h3, fun t ht T hT => (h4 t ht T hT).1⟩

end Octo.Lq
