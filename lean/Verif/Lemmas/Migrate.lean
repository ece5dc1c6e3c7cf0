import Verif.Lemmas.Database
import Verif.Lemmas.DiffProps
import Verif.Spec.DiffMeaning

/-! Migration of one table: what the statements of a table diff do to the table of the old schema.
The lemmas are shared by the two diff implementations. -/

namespace Octo
open Spec

variable {γ : Type}

theorem columnNamed_eq_some {t : Table} (h : (t.columns.map (·.name)).Nodup) {n : Str} {c : Column} :
    columnNamed t n = some c ↔ c ∈ t.columns ∧ c.name = n := by
  constructor
  · intro hc
    exact ⟨List.mem_of_find?_eq_some hc, by simpa using List.find?_some hc⟩
  · rintro ⟨h1, rfl⟩
    cases hf : columnNamed t c.name with
    | none =>
      have := List.find?_eq_none.1 hf c h1
      simp at this
    | some d =>
      have h2 := List.mem_of_find?_eq_some hf
      have h3 : d.name = c.name := by simpa using List.find?_some hf
      rw [eq_of_nodup_map h h2 h1 h3]

theorem columnNamed_eq_none {t : Table} {n : Str} : columnNamed t n = none ↔ n ∉ t.columns.map (·.name) := by
  rw [columnNamed, List.find?_eq_none]
  simp

theorem cols_dbTable {attr : Column → γ} {suffix : Str} {t : Table} (h : (t.columns.map (·.name)).Nodup)
    {c : Column} (hc : c ∈ t.columns) : (dbTable attr suffix t).cols c.name = some (attr c) := by
  simp only [dbTable, (columnNamed_eq_some h).2 ⟨hc, rfl⟩, Option.map_some]

theorem cols_dbTable_none {attr : Column → γ} {suffix : Str} {t : Table} {n : Str} :
    (dbTable attr suffix t).cols n = none ↔ n ∉ t.columns.map (·.name) := by
  simp only [dbTable, Option.map_eq_none_iff, columnNamed_eq_none]

theorem cols_dbTable_isSome {attr : Column → γ} {suffix : Str} {t : Table} {n : Str} :
    ((dbTable attr suffix t).cols n).isSome ↔ n ∈ t.columns.map (·.name) := by
  rw [← not_iff_not, ← cols_dbTable_none (attr := attr) (suffix := suffix)]
  simp

/-- The statements of a table diff up to the primary key. -/
def migrateOps (attr : Column → γ) (suffix : Str) (uc : Bool) (colOps renOps : Column × Column → List (TOp γ))
    (sched : List (Column × Column) → List (Column × Column)) (t o : Table) : List (TOp γ) :=
  (keptColumns t o).flatMap colOps ++
  ((if uniqueChanged t o && decide (o.uniqueKeyNameSet.size > 0) then [.dropUnique (t.name ++ suffix)] else []) ++
  ((columnRenames t o uc).2.slice.map .dropColumn ++
  ((sched (renamedPairs (columnRenames t o uc).1)).flatMap renOps ++
  (notRenamed (columnRenames t o uc).1).map fun c => .addColumn c.name (attr c))))

/-- Migration of the columns of a table `T0` with the columns and the primary key of `o`, whose unique
constraints all cover the unique columns of `o`; the attributes of the columns go from `attrO` to `attr`. -/
theorem migrate_columns_to (attrO attr : Column → γ) (suffix : Str) (uc : Bool)
    (colOps renOps : Column × Column → List (TOp γ))
    (sched : List (Column × Column) → List (Column × Column)) (hs : ∀ l, (sched l).Perm l) (t o : Table)
    (T0 : DbTable γ) (h0c : T0.cols = (dbTable attrO suffix o).cols) (h0p : T0.pk = pkNames o)
    (h0u : ∀ k s, T0.uniques k = some s → HasUnique o ∧ s = uqNames o)
    (h0d : ¬SameUnique t o → HasUnique o → (T0.uniques (t.name ++ suffix)).isSome)
    (h0o : ¬SameUnique t o → ∀ k, k ≠ t.name ++ suffix → T0.uniques k = none)
    (ht : (t.columns.map (·.name)).Nodup) (ho : (o.columns.map (·.name)).Nodup)
    (hcol : ∀ p ∈ keptColumns t o, ∀ T : DbTable γ, T.pk = pkNames o → T.cols p.1.name = some (attrO p.2) →
      TRuns (colOps p) T { T with cols := upd T.cols p.1.name (some (attr p.1)) })
    (hren : ∀ p ∈ renamedPairs (columnRenames t o uc).1, ∀ T : DbTable γ, T.cols p.2.name = some (attrO p.2) →
      T.cols p.1.name = none → TRuns (renOps p) T (renamedTo T p.2.name p.1.name (attr p.1))) :
    ∃ T, TRuns (migrateOps attr suffix uc colOps renOps sched t o) T0 T ∧
      T.cols = (dbTable attr suffix t).cols ∧
      (SameUnique t o → T.uniques = T0.uniques) ∧
      (¬SameUnique t o → T.uniques = fun _ => none) ∧
      ∀ n, T.pk n ↔ (pkNames o n ∧ n ∈ t.columns.map (·.name)) ∨
        ∃ p ∈ renamedPairs (columnRenames t o uc).1, n = p.1.name ∧ p.2.primaryKey = true := by
  -- facts about the name sets
  have hkn : ((keptColumns t o).map (fun p => p.1.name)).Nodup := by
    have hsub : ((keptColumns t o).map (fun p => p.1.name)).Sublist (t.columns.map (·.name)) := by
      have : (keptColumns t o).map (fun p => p.1.name) =
          (t.columns.filter (fun c => (o.columnNameMap c.name).isSome)).map (·.name) := by
        rw [keptColumns]
        induction t.columns with
        | nil => rfl
        | cons c cs ih =>
          simp only [List.filterMap_cons]
          cases hc : o.columnNameMap c.name with
          | none => simp [ih, hc]
          | some x => simp [ih, hc]
      rw [this]
      exact List.filter_sublist.map _
    exact hsub.nodup ht
  have hpart := findRenames_partition (get := o.columnNameMap) (m := fun a b => a.isRenamed b (!uc))
    (fun c => c.name) (fun n r h => (lastBy_some h).2) (addedColumns t o) (removedNames t o) (nodup_removedNames t o)
  have hsplit := findRenames_split o.columnNameMap (fun a b => a.isRenamed b (!uc))
    (addedColumns t o) (removedNames t o)
  change ((renamedPairs (columnRenames t o uc).1).map (fun p => p.2.name) ++ (columnRenames t o uc).2.keys).Perm _ at hpart
  change ((renamedPairs (columnRenames t o uc).1).map Prod.fst ++ notRenamed (columnRenames t o uc).1).Perm _ at hsplit
  have hpnd := hpart.nodup_iff.2 (nodup_removedNames t o)
  have hrem : ∀ n ∈ (columnRenames t o uc).2.keys, n ∈ o.columns.map (·.name) ∧ n ∉ t.columns.map (·.name) :=
    fun n hn => mem_removedNames.1 (hpart.mem_iff.1 (List.mem_append_right _ hn))
  have hadd : ((addedColumns t o).map (·.name)).Nodup := (List.filter_sublist.map _).nodup ht
  have hsplitn := (hsplit.map (·.name)).nodup_iff.2 hadd
  rw [List.map_append, List.map_map] at hsplitn
  have hps := fun p hp => columnPairs_spec (t := t) (o := o) (uc := uc) (p := p) hp
  -- kept columns
  obtain ⟨c1, hr1, hc1, hc1'⟩ := tRuns_columns (fun p : Column × Column => p.1.name) (fun p => attrO p.2)
    (fun p => attr p.1) colOps (keptColumns t o) (pkNames o) hcol hkn T0 h0p (by
      intro p hp
      rw [keptColumns_name hp, h0c]
      exact cols_dbTable ho (lastBy_some (mem_keptColumns.1 hp).2).1)
  rw [h0c] at hc1'
  -- unique constraint
  obtain ⟨T2, hr2, hT2c, hT2p, hsame, hdiff⟩ : ∃ T2 : DbTable γ,
      TRuns (if uniqueChanged t o && decide (o.uniqueKeyNameSet.size > 0) then
        [.dropUnique (t.name ++ suffix)] else []) { T0 with cols := c1 } T2 ∧
      T2.cols = c1 ∧ T2.pk = pkNames o ∧ (SameUnique t o → T2.uniques = T0.uniques) ∧
      (¬SameUnique t o → T2.uniques = fun _ => none) := by
    by_cases hsu : SameUnique t o
    · have : uniqueChanged t o = false := (uniqueChanged_iff t o).2 hsu
      refine ⟨{ T0 with cols := c1 }, ?_, rfl, h0p, fun _ => rfl, fun h => absurd hsu h⟩
      simp only [this, Bool.false_and]; exact rfl
    · have hch : uniqueChanged t o = true := by
        cases h : uniqueChanged t o
        · exact absurd ((uniqueChanged_iff t o).1 h) hsu
        · rfl
      by_cases hu : HasUnique o
      · have : decide (o.uniqueKeyNameSet.size > 0) = true := decide_eq_true (size_pos_unique.2 hu)
        refine ⟨{ cols := c1, pk := T0.pk, uniques := upd T0.uniques (t.name ++ suffix) none },
          ?_, rfl, h0p, fun h => absurd h hsu, fun _ => ?_⟩
        · simp only [hch, this, Bool.and_self, if_true]
          exact tRuns_one ⟨h0d hsu hu, rfl⟩
        · funext k
          by_cases hk : k = t.name ++ suffix
          · simp only [upd, if_pos hk]
          · simp only [upd_ne _ _ hk, h0o hsu k hk]
      · have : decide (o.uniqueKeyNameSet.size > 0) = false :=
          decide_eq_false (fun h => hu (size_pos_unique.1 h))
        refine ⟨{ T0 with cols := c1 }, ?_, rfl, h0p, fun _ => rfl, fun _ => ?_⟩
        · simp only [this, Bool.and_false]; exact rfl
        · funext k
          cases h : T0.uniques k with
          | none => rfl
          | some s => exact absurd (h0u k s h).1 hu
  have hU : ∀ k s, T2.uniques k = some s → ∀ n, s n → n ∈ t.columns.map (·.name) := by
    intro k s hk n hsn
    by_cases hsu : SameUnique t o
    · rw [hsame hsu] at hk
      obtain ⟨_, rfl⟩ := h0u k s hk
      obtain ⟨c, hc, _, rfl⟩ := (hsu n).2 hsn
      exact List.mem_map_of_mem hc
    · rw [hdiff hsu] at hk; cases hk
  have hc1old : ∀ n, n ∈ o.columns.map (·.name) → n ∉ t.columns.map (·.name) → (dbTable attrO suffix o).cols n = c1 n := by
    intro n _ h2
    rw [hc1' n]
    intro hm
    obtain ⟨p, hp, rfl⟩ := List.mem_map.1 hm
    exact h2 (List.mem_map_of_mem (mem_keptColumns.1 hp).1)
  -- dropped columns
  obtain ⟨T3, hr3, h3u, h3n, h3c, h3p⟩ := tRuns_dropColumns ((columnRenames t o uc).2.slice)
    ((slice_perm _).nodup_iff.2 (List.nodup_append.1 hpnd).2.1) T2
    (by
      intro n hn'
      obtain ⟨h1, h2⟩ := hrem n (mem_slice.1 hn')
      rw [hT2c, ← hc1old n h1 h2]
      exact cols_dbTable_isSome.2 h1)
    (fun k s hk n hn' hsn => (hrem n (mem_slice.1 hn')).2 (hU k s hk n hsn))
  -- renamed columns
  have hperm := hs (renamedPairs (columnRenames t o uc).1)
  have hold3 : ∀ p ∈ renamedPairs (columnRenames t o uc).1, T3.cols p.2.name = some (attrO p.2) := by
    intro p hp
    obtain ⟨_, _, h3, h4, _⟩ := hps p hp
    rw [h3c, hT2c, ← hc1old _ (List.mem_map_of_mem h3) h4]
    · exact cols_dbTable ho h3
    · intro hm
      exact (List.nodup_append.1 hpnd).2.2 _ (List.mem_map_of_mem hp) _ (mem_slice.1 hm) rfl
  have hnew3 : ∀ n, n ∈ t.columns.map (·.name) → n ∉ o.columns.map (·.name) → T3.cols n = none := by
    intro n h1 h2
    rw [h3c n (fun hm => (hrem n (mem_slice.1 hm)).2 h1), hT2c, hc1' n, cols_dbTable_none]
    · exact h2
    · intro hm
      obtain ⟨p, hp, rfl⟩ := List.mem_map.1 hm
      rw [keptColumns_name hp] at h2
      exact h2 (List.mem_map_of_mem (lastBy_some (mem_keptColumns.1 hp).2).1)
  obtain ⟨T4, hr4, h4u, h4n, h4c, h4o, h4p⟩ := tRuns_renames_to (fun p : Column × Column => p.2.name)
    (fun p => p.1.name) (fun p => attr p.1) renOps (sched (renamedPairs (columnRenames t o uc).1)) T3
    (by
      intro p hp u h1 h2
      have hp' := hperm.mem_iff.1 hp
      exact hren p hp' u (by rw [h1]; exact hold3 p hp') h2)
    ((hperm.map _).nodup_iff.2 (List.nodup_append.1 hpnd).1)
    ((hperm.map _).nodup_iff.2 (List.nodup_append.1 hsplitn).1)
    (fun p hp => by rw [hold3 p (hperm.mem_iff.1 hp)]; rfl)
    (fun p hp => by
      obtain ⟨h1, h2, _⟩ := hps p (hperm.mem_iff.1 hp)
      exact hnew3 _ (List.mem_map_of_mem h1) h2)
    (by
      rw [h3u]
      intro k s hk p hp hsn
      exact (hps p (hperm.mem_iff.1 hp)).2.2.2.1 (hU k s hk _ hsn))
  -- added columns
  have hnr : ∀ c ∈ notRenamed (columnRenames t o uc).1, c ∈ t.columns ∧ c.name ∉ o.columns.map (·.name) := by
    intro c hc
    exact mem_addedColumns.1 (hsplit.mem_iff.1 (List.mem_append_right _ hc))
  obtain ⟨c5, hr5, h5n, h5c⟩ := tRuns_adds (fun c : Column => c.name) attr (notRenamed (columnRenames t o uc).1)
    (List.nodup_append.1 hsplitn).2.1 T4 (by
      intro c hc
      obtain ⟨h1, h2⟩ := hnr c hc
      rw [h4c]
      · exact hnew3 _ (List.mem_map_of_mem h1) h2
      · intro hm
        obtain ⟨p, hp, e⟩ := List.mem_map.1 hm
        exact (hps p (hperm.mem_iff.1 hp)).2.2.2.1 (e ▸ List.mem_map_of_mem h1)
      · intro hm
        obtain ⟨p, hp, e⟩ := List.mem_map.1 hm
        exact (List.nodup_append.1 hsplitn).2.2 _ (List.mem_map_of_mem (hperm.mem_iff.1 hp)) _
          (List.mem_map_of_mem hc) e)
  refine ⟨_, tRuns_append hr1 (tRuns_append hr2 (tRuns_append hr3 (tRuns_append hr4 hr5))), ?_, ?_, ?_, ?_⟩
  · -- columns
    funext m
    simp only
    have hnotold : m ∈ t.columns.map (·.name) → m ∉ (sched (renamedPairs (columnRenames t o uc).1)).map (fun p => p.2.name) := by
      intro hm hm'
      obtain ⟨p, hp, e⟩ := List.mem_map.1 hm'
      exact (hps p (hperm.mem_iff.1 hp)).2.2.2.1 (e ▸ hm)
    by_cases hm : m ∈ t.columns.map (·.name)
    · obtain ⟨c, hc, rfl⟩ := List.mem_map.1 hm
      rw [cols_dbTable ht hc]
      by_cases hmo : c.name ∈ o.columns.map (·.name)
      · -- kept
        obtain ⟨oc, hoc, hne⟩ := List.mem_map.1 hmo
        have hk : (c, oc) ∈ keptColumns t o :=
          mem_keptColumns.2 ⟨hc, by rw [← hne]; exact lastBy_nodup ho hoc⟩
        rw [h5c, h4c _ (hnotold hm), h3c, hT2c, hc1 _ hk]
        · intro h; exact (hrem _ (mem_slice.1 h)).2 hm
        · intro h
          obtain ⟨p, hp, e⟩ := List.mem_map.1 h
          exact (hps p (hperm.mem_iff.1 hp)).2.1 (e ▸ hmo)
        · intro h
          obtain ⟨x, hx, e⟩ := List.mem_map.1 h
          exact (hnr x hx).2 (e ▸ hmo)
      · -- new
        rcases List.mem_append.1 (hsplit.mem_iff.2 (mem_addedColumns.2 ⟨hc, hmo⟩)) with h | h
        · obtain ⟨p, hp, rfl⟩ := List.mem_map.1 h
          rw [h5c, h4n p (hperm.mem_iff.2 hp)]
          intro h'
          obtain ⟨x, hx, e⟩ := List.mem_map.1 h'
          exact (List.nodup_append.1 hsplitn).2.2 _ (List.mem_map_of_mem hp) _ (List.mem_map_of_mem hx) e.symm
        · exact h5n c h
    · rw [cols_dbTable_none.2 hm, h5c]
      · by_cases hmo : m ∈ o.columns.map (·.name)
        · rcases List.mem_append.1 (hpart.mem_iff.2 (mem_removedNames.2 ⟨hmo, hm⟩)) with h | h
          · exact h4o m ((hperm.map _).mem_iff.2 h)
          · rw [h4c, h3n m (mem_slice.2 h)]
            · intro h'
              exact (List.nodup_append.1 hpnd).2.2 _ ((hperm.map _).mem_iff.1 h') _ h rfl
            · intro h'
              obtain ⟨p, hp, e⟩ := List.mem_map.1 h'
              exact hm (e ▸ List.mem_map_of_mem (hps p (hperm.mem_iff.1 hp)).1)
        · rw [h4c, h3c, hT2c, hc1' m, cols_dbTable_none.2 hmo]
          · intro h'
            obtain ⟨p, hp, e⟩ := List.mem_map.1 h'
            exact hm (e ▸ List.mem_map_of_mem (mem_keptColumns.1 hp).1)
          · intro h'; exact hmo (hrem m (mem_slice.1 h')).1
          · intro h'
            obtain ⟨p, hp, e⟩ := List.mem_map.1 h'
            exact hmo (e ▸ List.mem_map_of_mem (hps p (hperm.mem_iff.1 hp)).2.2.1)
          · intro h'
            obtain ⟨p, hp, e⟩ := List.mem_map.1 h'
            exact hm (e ▸ List.mem_map_of_mem (hps p (hperm.mem_iff.1 hp)).1)
      · intro h'
        obtain ⟨x, hx, e⟩ := List.mem_map.1 h'
        exact hm (e ▸ List.mem_map_of_mem (hnr x hx).1)
  · intro hsu
    simp only
    rw [h4u, h3u, hsame hsu]
  · intro hsu
    simp only
    rw [h4u, h3u, hdiff hsu]
  · intro n
    simp only
    rw [h4p, h3p, hT2p]
    constructor
    · rintro (⟨p, hp, rfl, h⟩ | ⟨h1, h2⟩)
      · have hp' := hperm.mem_iff.1 hp
        right
        refine ⟨p, hp', rfl, ?_⟩
        obtain ⟨_, c, hc, hpk, hname⟩ := (h3p _).1 h |>.imp id (fun x => (hT2p ▸ x : pkNames o p.2.name))
        rwa [← eq_of_nodup_map ho hc (hps p hp').2.2.1 hname]
      · left
        refine ⟨h2.2, ?_⟩
        by_contra hc
        obtain ⟨c, hcm, _, rfl⟩ := h2.2
        rcases List.mem_append.1 (hpart.mem_iff.2 (mem_removedNames.2 ⟨List.mem_map_of_mem hcm, hc⟩)) with h | h
        · exact h1 ((hperm.map _).mem_iff.2 h)
        · exact h2.1 (mem_slice.2 h)
    · rintro (⟨h1, h2⟩ | ⟨p, hp, rfl, h⟩)
      · right
        refine ⟨?_, fun h => (hrem n (mem_slice.1 h)).2 h2, h1⟩
        intro h
        obtain ⟨p, hp, e⟩ := List.mem_map.1 h
        exact (hps p (hperm.mem_iff.1 hp)).2.2.2.1 (e ▸ h2)
      · left
        refine ⟨p, hperm.mem_iff.2 hp, rfl, (h3p _).2 ⟨?_, ?_⟩⟩
        · intro hm
          exact (List.nodup_append.1 hpnd).2.2 _ (List.mem_map_of_mem hp) _ (mem_slice.1 hm) rfl
        · rw [hT2p]; exact ⟨p.2, (hps p hp).2.2.1, h, rfl⟩

/-- Migration of the columns of a table `T0` with the columns and the primary key of `o`, whose unique
constraints all cover the unique columns of `o`. -/
theorem migrate_columns_gen (attr : Column → γ) (suffix : Str) (uc : Bool)
    (colOps renOps : Column × Column → List (TOp γ))
    (sched : List (Column × Column) → List (Column × Column)) (hs : ∀ l, (sched l).Perm l) (t o : Table)
    (T0 : DbTable γ) (h0c : T0.cols = (dbTable attr suffix o).cols) (h0p : T0.pk = pkNames o)
    (h0u : ∀ k s, T0.uniques k = some s → HasUnique o ∧ s = uqNames o)
    (h0d : ¬SameUnique t o → HasUnique o → (T0.uniques (t.name ++ suffix)).isSome)
    (h0o : ¬SameUnique t o → ∀ k, k ≠ t.name ++ suffix → T0.uniques k = none)
    (ht : (t.columns.map (·.name)).Nodup) (ho : (o.columns.map (·.name)).Nodup)
    (hattr : ∀ a b, SameShape uc a b → attr a = attr b)
    (hcol : ∀ p ∈ keptColumns t o, ∀ T : DbTable γ, T.pk = pkNames o → T.cols p.1.name = some (attr p.2) →
      TRuns (colOps p) T { T with cols := upd T.cols p.1.name (some (attr p.1)) })
    (hren : ∀ p ∈ renamedPairs (columnRenames t o uc).1, ∀ T : DbTable γ, T.cols p.2.name = some (attr p.2) →
      T.cols p.1.name = none → TRuns (renOps p) T (renamedT T p.2.name p.1.name)) :
    ∃ T, TRuns (migrateOps attr suffix uc colOps renOps sched t o) T0 T ∧
      T.cols = (dbTable attr suffix t).cols ∧
      (SameUnique t o → T.uniques = T0.uniques) ∧
      (¬SameUnique t o → T.uniques = fun _ => none) ∧
      ∀ n, T.pk n ↔ (pkNames o n ∧ n ∈ t.columns.map (·.name)) ∨
        ∃ p ∈ renamedPairs (columnRenames t o uc).1, n = p.1.name ∧ p.2.primaryKey = true :=
  migrate_columns_to attr attr suffix uc colOps renOps sched hs t o T0 h0c h0p h0u h0d h0o ht ho hcol (by
    intro p hp T h1 h2
    have := hren p hp T h1 h2
    unfold renamedT at this
    rw [h1, ← hattr _ _ (columnPairs_spec hp).2.2.2.2.2] at this
    exact this)

theorem migrate_columns (attr : Column → γ) (suffix : Str) (uc : Bool)
    (colOps renOps : Column × Column → List (TOp γ))
    (sched : List (Column × Column) → List (Column × Column)) (hs : ∀ l, (sched l).Perm l) (t o : Table)
    (hn : o.name = t.name)
    (ht : (t.columns.map (·.name)).Nodup) (ho : (o.columns.map (·.name)).Nodup)
    (hattr : ∀ a b, SameShape uc a b → attr a = attr b)
    (hcol : ∀ p ∈ keptColumns t o, ∀ T : DbTable γ, T.cols p.1.name = some (attr p.2) →
      TRuns (colOps p) T { T with cols := upd T.cols p.1.name (some (attr p.1)) })
    (hren : ∀ p ∈ renamedPairs (columnRenames t o uc).1, ∀ T : DbTable γ, T.cols p.2.name = some (attr p.2) →
      T.cols p.1.name = none → TRuns (renOps p) T (renamedT T p.2.name p.1.name)) :
    ∃ T, TRuns (migrateOps attr suffix uc colOps renOps sched t o) (dbTable attr suffix o) T ∧
      T.cols = (dbTable attr suffix t).cols ∧
      (SameUnique t o → T.uniques = (dbTable attr suffix t).uniques) ∧
      (¬SameUnique t o → T.uniques = fun _ => none) ∧
      ∀ n, T.pk n ↔ (pkNames o n ∧ n ∈ t.columns.map (·.name)) ∨
        ∃ p ∈ renamedPairs (columnRenames t o uc).1, n = p.1.name ∧ p.2.primaryKey = true := by
  have hunq : ∀ k s, (dbTable attr suffix o).uniques k = some s → k = t.name ++ suffix ∧ HasUnique o ∧ s = uqNames o := by
    intro k s h
    simp only [dbTable] at h
    split at h
    · rename_i hc; rw [hn] at hc; exact ⟨hc.1, hc.2, (Option.some.inj h).symm⟩
    · cases h
  obtain ⟨T, h1, h2, h3, h4, h5⟩ := migrate_columns_gen attr suffix uc colOps renOps sched hs t o
    (dbTable attr suffix o) rfl rfl (fun k s h => (hunq k s h).2)
    (fun _ hu => by simp [dbTable, hn, hu])
    (fun _ k hk => by
      cases h : (dbTable attr suffix o).uniques k with
      | none => rfl
      | some s => exact absurd (hunq k s h).1 hk)
    ht ho hattr (fun p hp T _ hT => hcol p hp T hT) hren
  refine ⟨T, h1, h2, ?_, h4, h5⟩
  intro hsu
  rw [h3 hsu]
  have hiff : HasUnique o ↔ HasUnique t := by
    constructor
    · rintro ⟨c, h1, h2⟩
      obtain ⟨d, h3, h4, _⟩ := (hsu c.name).2 ⟨c, h1, h2, rfl⟩
      exact ⟨d, h3, h4⟩
    · rintro ⟨c, h1, h2⟩
      obtain ⟨d, h3, h4, _⟩ := (hsu c.name).1 ⟨c, h1, h2, rfl⟩
      exact ⟨d, h3, h4⟩
  have huq : uqNames o = uqNames t := by funext n; exact propext (hsu n).symm
  funext k
  have e : (k = o.name ++ suffix ∧ HasUnique o) ↔ (k = t.name ++ suffix ∧ HasUnique t) := by rw [hn, hiff]
  simp only [dbTable, huq]
  by_cases hk : k = t.name ++ suffix ∧ HasUnique t
  · rw [if_pos hk, if_pos (e.2 hk)]
  · rw [if_neg hk, if_neg (fun h => hk (e.1 h))]

end Octo
