import Verif.Lemmas.Migrate

/-! Migration of a whole database: altering, dropping, renaming and creating tables. -/

namespace Octo
open Spec

variable {γ : Type}

theorem dbOf_some {attr : Column → γ} {suffix : Str} {s : Schema} (h : (s.tables.map (·.name)).Nodup)
    {t : Table} (ht : t ∈ s.tables) : dbOf attr suffix s t.name = some (dbTable attr suffix t) := by
  have : s.tables.find? (fun u => u.name == t.name) = some t := by
    cases hf : s.tables.find? (fun u => u.name == t.name) with
    | none => have := List.find?_eq_none.1 hf t ht; simp at this
    | some d =>
      have h2 := List.mem_of_find?_eq_some hf
      have h3 : d.name = t.name := by simpa using List.find?_some hf
      rw [eq_of_nodup_map h h2 ht h3]
  simp only [dbOf, this, Option.map_some]

theorem dbOf_none {attr : Column → γ} {suffix : Str} {s : Schema} {n : Str} :
    dbOf attr suffix s n = none ↔ n ∉ s.tables.map (·.name) := by
  simp only [dbOf, Option.map_eq_none_iff, List.find?_eq_none]
  simp

/-- Migration of a database `d0` that has the tables of the old schema, when every kept, renamed or
created table can be brought into a state `P` asks for. -/
theorem migrate_db_gen (opt : DiffOption) (P : Table → DbTable γ → Prop) (d0 : Db γ)
    (sched : List (Table × Table) → List (Table × Table)) (hs : ∀ l, (sched l).Perm l)
    (hf : opt.tableFilter = none)
    (hfrom : (opt.diffFrom.tables.map (·.name)).Nodup) (hto : (opt.diffTo.tables.map (·.name)).Nodup)
    (h0s : ∀ n ∈ opt.diffFrom.tables.map (·.name), (d0 n).isSome)
    (h0n : ∀ n, n ∉ opt.diffFrom.tables.map (·.name) → d0 n = none)
    (kOps : Nat × Table × Table → List (TOp γ)) (rOps : Table × Table → List (DbOp γ))
    (cOps : Table → List (DbOp γ))
    (hk : ∀ e ∈ keptTables opt, ∀ T, d0 e.2.2.name = some T → ∃ T', TRuns (kOps e) T T' ∧ P e.2.1 T')
    (hr : ∀ p ∈ renamedPairs (tableRenames opt).1, ∀ T, d0 p.2.name = some T → ∃ T', P p.1 T' ∧
      ∀ d : Db γ, d p.2.name = some T → d p.1.name = none →
        Runs (rOps p) d (upd (upd d p.2.name none) p.1.name (some T')))
    (hc : ∀ t ∈ notRenamed (tableRenames opt).1, ∃ T', P t T' ∧ ∀ d : Db γ, d t.name = none →
      Runs (cOps t) d (upd d t.name (some T'))) :
    ∃ d', Runs ((keptTables opt).flatMap (fun e => (kOps e).map (.alter e.2.1.name)) ++
      ((tableRenames opt).2.slice.map .dropTable ++
      ((sched (renamedPairs (tableRenames opt).1)).flatMap rOps ++
      (notRenamed (tableRenames opt).1).flatMap cOps))) d0 d' ∧
      (∀ t ∈ opt.diffTo.tables, ∃ T, d' t.name = some T ∧ P t T) ∧
      ∀ n, n ∉ opt.diffTo.tables.map (·.name) → d' n = none := by
  have hall : opt.diffTo.tables.filter (passes opt.tableFilter) = opt.diffTo.tables := by
    rw [List.filter_eq_self]; intro t _; simp [passes, hf]
  have hrn : ∀ n, n ∈ (removedTableNames opt).keys ↔ n ∈ opt.diffFrom.tables.map (·.name) ∧
      n ∉ opt.diffTo.tables.map (·.name) := by
    intro n; rw [mem_removedTableNames, hall]
  have hadd : ∀ t, t ∈ addedTables opt ↔ t ∈ opt.diffTo.tables ∧ t.name ∉ opt.diffFrom.tables.map (·.name) := by
    intro t; rw [mem_addedTables]; simp [passes, hf]
  have hpart := findRenames_partition (get := opt.diffFrom.tablesByName)
    (m := fun a b : Table => a.columns == b.columns) (fun c => c.name) (fun n r h => (lastBy_some h).2)
    (addedTables opt) (removedTableNames opt) (nodup_removedTableNames opt)
  have hsplit := findRenames_split opt.diffFrom.tablesByName (fun a b : Table => a.columns == b.columns)
    (addedTables opt) (removedTableNames opt)
  change ((renamedPairs (tableRenames opt).1).map (fun p => p.2.name) ++ (tableRenames opt).2.keys).Perm _ at hpart
  change ((renamedPairs (tableRenames opt).1).map Prod.fst ++ notRenamed (tableRenames opt).1).Perm _ at hsplit
  have hpnd := hpart.nodup_iff.2 (nodup_removedTableNames opt)
  have haddn : ((addedTables opt).map (·.name)).Nodup := (List.filter_sublist.map _).nodup hto
  have hsplitn := (hsplit.map (·.name)).nodup_iff.2 haddn
  rw [List.map_append, List.map_map] at hsplitn
  have hperm := hs (renamedPairs (tableRenames opt).1)
  have hkept : ∀ e ∈ keptTables opt, e.2.1 ∈ opt.diffTo.tables ∧ e.2.2 ∈ opt.diffFrom.tables ∧
      e.2.2.name = e.2.1.name := by
    rintro ⟨i, t, o⟩ he
    obtain ⟨h1, _, h3⟩ := mem_keptTables.1 he
    exact ⟨List.mem_of_getElem? h1, (lastBy_some h3).1, (lastBy_some h3).2⟩
  have hkn : ((keptTables opt).map (fun e => e.2.1.name)).Nodup := by
    have hsub : ((keptTables opt).map (fun e => e.2.1.name)).Sublist (opt.diffTo.tables.map (·.name)) := by
      have h1 : opt.diffTo.tables.map (·.name) = opt.diffTo.tables.zipIdx.map (fun e => e.1.name) := by
        conv_lhs => rw [← List.zipIdx_map_fst 0 opt.diffTo.tables]
        rw [List.map_map]; rfl
      rw [h1, keptTables, List.map_filterMap, ← List.filterMap_eq_map]
      clear hr hc hk hs hpart hsplit hpnd hsplitn hperm
      induction opt.diffTo.tables.zipIdx with
      | nil => exact List.Sublist.refl _
      | cons a l ih =>
        simp only [List.filterMap_cons, Function.comp]
        cases hg : opt.diffFrom.tablesByName a.1.name with
        | none => simp only [Option.map_none, ite_self]; exact ih.cons _
        | some x =>
          by_cases hp : passes opt.tableFilter a.1 = true
          · simp only [hp, if_true, Option.map_some]; exact ih.cons_cons _
          · simp only [hp]; exact ih.cons _
    exact hsub.nodup hto
  -- choose the tables before and after
  have hex : ∀ n : Str, n ∈ opt.diffFrom.tables.map (·.name) → ∃ T, d0 n = some T :=
    fun n hn => Option.isSome_iff_exists.1 (h0s n hn)
  have hkF : ∀ e, ∃ F : DbTable γ × DbTable γ, e ∈ keptTables opt →
      d0 e.2.1.name = some F.1 ∧ TRuns (kOps e) F.1 F.2 ∧ P e.2.1 F.2 := by
    intro e
    by_cases he : e ∈ keptTables opt
    · obtain ⟨_, h2, h3⟩ := hkept e he
      obtain ⟨T, hT⟩ := hex e.2.2.name (List.mem_map_of_mem h2)
      obtain ⟨T', h4, h5⟩ := hk e he T hT
      exact ⟨(T, T'), fun _ => ⟨h3 ▸ hT, h4, h5⟩⟩
    · let T : DbTable γ := ⟨fun _ => none, fun _ => False, fun _ => none⟩
      exact ⟨(T, T), fun h => absurd h he⟩
  choose F hF using hkF
  have hps := fun p hp => renamedPairs_source (opt := opt) (p := p) hp
  have hrF : ∀ p, ∃ F : DbTable γ × DbTable γ, p ∈ renamedPairs (tableRenames opt).1 →
      d0 p.2.name = some F.1 ∧ P p.1 F.2 ∧ ∀ d : Db γ, d p.2.name = some F.1 → d p.1.name = none →
        Runs (rOps p) d (upd (upd d p.2.name none) p.1.name (some F.2)) := by
    intro p
    by_cases hp : p ∈ renamedPairs (tableRenames opt).1
    · obtain ⟨_, _, _, h4⟩ := hps p hp
      obtain ⟨T, hT⟩ := hex p.2.name (List.mem_map_of_mem (lastBy_some h4).1)
      obtain ⟨T', h5, h6⟩ := hr p hp T hT
      exact ⟨(T, T'), fun _ => ⟨hT, h5, h6⟩⟩
    · let T : DbTable γ := ⟨fun _ => none, fun _ => False, fun _ => none⟩
      exact ⟨(T, T), fun h => absurd h hp⟩
  choose G hG using hrF
  have hcF : ∀ t, ∃ T : DbTable γ, t ∈ notRenamed (tableRenames opt).1 →
      P t T ∧ ∀ d : Db γ, d t.name = none → Runs (cOps t) d (upd d t.name (some T)) := by
    intro t
    by_cases ht : t ∈ notRenamed (tableRenames opt).1
    · obtain ⟨T, hT⟩ := hc t ht
      exact ⟨T, fun _ => hT⟩
    · exact ⟨⟨fun _ => none, fun _ => False, fun _ => none⟩, fun h => absurd h ht⟩
  choose H hH using hcF
  -- kept tables
  obtain ⟨d1, hr1, h1k, h1o⟩ := runs_alters (fun e : Nat × Table × Table => e.2.1.name)
    (fun e => (F e).1) (fun e => (F e).2) kOps (keptTables opt) (fun e he => (hF e he).2.1) hkn
    d0 (fun e he => (hF e he).1)
  have h1rem : ∀ n ∈ (removedTableNames opt).keys, d1 n = d0 n := by
    intro n hn
    apply h1o
    intro hm
    obtain ⟨e, he, rfl⟩ := List.mem_map.1 hm
    exact ((hrn _).1 hn).2 (List.mem_map_of_mem (hkept e he).1)
  have h1new : ∀ t ∈ addedTables opt, d1 t.name = none := by
    intro t ht
    rw [h1o]
    · exact h0n _ ((hadd t).1 ht).2
    · intro hm
      obtain ⟨e, he, h⟩ := List.mem_map.1 hm
      obtain ⟨_, h2, h3⟩ := hkept e he
      exact ((hadd t).1 ht).2 (h ▸ h3 ▸ List.mem_map_of_mem h2)
  -- dropped tables
  have hdropRem : ∀ n ∈ (tableRenames opt).2.slice, n ∈ (removedTableNames opt).keys :=
    fun n hn => hpart.mem_iff.1 (List.mem_append_right _ (mem_slice.1 hn))
  obtain ⟨d2, hr2, h2n, h2o⟩ := runs_drops ((tableRenames opt).2.slice)
    ((slice_perm _).nodup_iff.2 (List.nodup_append.1 hpnd).2.1) d1 (by
      intro n hn
      rw [h1rem n (hdropRem n hn)]
      exact h0s n ((hrn n).1 (hdropRem n hn)).1)
  -- renamed tables
  have h2new : ∀ t ∈ addedTables opt, d2 t.name = none := by
    intro t ht
    rw [h2o, h1new t ht]
    intro hm
    exact ((hadd t).1 ht).2 ((hrn _).1 (hdropRem _ hm)).1
  obtain ⟨d3, hr3, h3n, h3o, h3r⟩ := runs_renames (fun p : Table × Table => p.2.name) (fun p => p.1.name)
    (fun p => (G p).1) (fun p => (G p).2) rOps
    (sched (renamedPairs (tableRenames opt).1)) (fun p hp => (hG p (hperm.mem_iff.1 hp)).2.2)
    ((hperm.map _).nodup_iff.2 (List.nodup_append.1 hpnd).1)
    ((hperm.map _).nodup_iff.2 (List.nodup_append.1 hsplitn).1) d2
    (by
      intro p hp
      have hp' := hperm.mem_iff.1 hp
      obtain ⟨_, _, h3, h4⟩ := hps p hp'
      rw [h2o, h1rem _ h3]
      · exact (hG p hp').1
      · intro hm
        exact (List.nodup_append.1 hpnd).2.2 _ (List.mem_map_of_mem hp') _ (mem_slice.1 hm) rfl)
    (fun p hp => h2new _ (hps p (hperm.mem_iff.1 hp)).1)
  -- created tables
  have hnr : ∀ t ∈ notRenamed (tableRenames opt).1, t ∈ addedTables opt :=
    fun t ht => hsplit.mem_iff.1 (List.mem_append_right _ ht)
  have hnold : ∀ m, m ∈ opt.diffTo.tables.map (·.name) →
      m ∉ (sched (renamedPairs (tableRenames opt).1)).map (fun p => p.2.name) := by
    intro m hm hm'
    obtain ⟨p, hp, e⟩ := List.mem_map.1 hm'
    exact ((hrn _).1 (hps p (hperm.mem_iff.1 hp)).2.2.1).2 (e ▸ hm)
  obtain ⟨d4, hr4, h4n, h4o⟩ := runs_creates (fun t : Table => t.name) H cOps
    (notRenamed (tableRenames opt).1) (fun t ht => (hH t ht).2) (List.nodup_append.1 hsplitn).2.1 d3 (by
      intro t ht
      rw [h3r, h2new t (hnr t ht)]
      · exact hnold _ (List.mem_map_of_mem ((hadd t).1 (hnr t ht)).1)
      · intro hm
        obtain ⟨p, hp, e⟩ := List.mem_map.1 hm
        exact (List.nodup_append.1 hsplitn).2.2 _ (List.mem_map_of_mem (hperm.mem_iff.1 hp)) _
          (List.mem_map_of_mem ht) e)
  refine ⟨d4, runs_append hr1 (runs_append hr2 (runs_append hr3 hr4)), ?_, ?_⟩
  · intro t ht
    · have hm : t.name ∈ opt.diffTo.tables.map (·.name) := List.mem_map_of_mem ht
      by_cases hmo : t.name ∈ opt.diffFrom.tables.map (·.name)
      · obtain ⟨o, ho, hn⟩ := List.mem_map.1 hmo
        obtain ⟨i, hi⟩ := List.mem_iff_getElem?.1 ht
        have he : (i, t, o) ∈ keptTables opt := mem_keptTables.2 ⟨hi, by simp [passes, hf], by
          rw [← hn]; exact lastBy_nodup hfrom ho⟩
        refine ⟨(F (i, t, o)).2, ?_, (hF _ he).2.2⟩
        rw [h4o, h3r _ (hnold _ hm), h2o]
        · exact h1k _ he
        · intro h; exact ((hrn _).1 (hdropRem _ h)).2 hm
        · intro h
          obtain ⟨p, hp, e⟩ := List.mem_map.1 h
          exact ((hadd _).1 (hps p (hperm.mem_iff.1 hp)).1).2 (e ▸ hmo)
        · intro h
          obtain ⟨x, hx, e⟩ := List.mem_map.1 h
          exact ((hadd _).1 (hnr x hx)).2 (e ▸ hmo)
      · rcases List.mem_append.1 (hsplit.mem_iff.2 ((hadd t).2 ⟨ht, hmo⟩)) with h | h
        · obtain ⟨p, hp, rfl⟩ := List.mem_map.1 h
          refine ⟨(G p).2, ?_, (hG p hp).2.1⟩
          rw [h4o]
          · exact h3n p (hperm.mem_iff.2 hp)
          · intro h'
            obtain ⟨x, hx, e⟩ := List.mem_map.1 h'
            exact (List.nodup_append.1 hsplitn).2.2 _ (List.mem_map_of_mem hp) _ (List.mem_map_of_mem hx) e.symm
        · exact ⟨H t, h4n t h, (hH t h).1⟩
  · intro m hm
    · rw [h4o]
      · by_cases hmo : m ∈ opt.diffFrom.tables.map (·.name)
        · rcases List.mem_append.1 (hpart.mem_iff.2 ((hrn m).2 ⟨hmo, hm⟩)) with h | h
          · exact h3o m ((hperm.map _).mem_iff.2 h)
          · rw [h3r]
            · exact h2n m (mem_slice.2 h)
            · intro h'
              exact (List.nodup_append.1 hpnd).2.2 _ ((hperm.map _).mem_iff.1 h') _ h rfl
            · intro h'
              obtain ⟨p, hp, e⟩ := List.mem_map.1 h'
              exact hm (e ▸ List.mem_map_of_mem ((hadd _).1 (hps p (hperm.mem_iff.1 hp)).1).1)
        · rw [h3r, h2o, h1o, h0n m hmo]
          · intro h'
            obtain ⟨e, he, h⟩ := List.mem_map.1 h'
            exact hm (h ▸ List.mem_map_of_mem (hkept e he).1)
          · intro h'; exact hmo ((hrn _).1 (hdropRem _ h')).1
          · intro h'
            obtain ⟨p, hp, e⟩ := List.mem_map.1 h'
            exact hmo (e ▸ ((hrn _).1 (hps p (hperm.mem_iff.1 hp)).2.2.1).1)
          · intro h'
            obtain ⟨p, hp, e⟩ := List.mem_map.1 h'
            exact hm (e ▸ List.mem_map_of_mem ((hadd _).1 (hps p (hperm.mem_iff.1 hp)).1).1)
      · intro h'
        obtain ⟨x, hx, e⟩ := List.mem_map.1 h'
        exact hm (e ▸ List.mem_map_of_mem ((hadd _).1 (hnr x hx)).1)

theorem migrate_db (attr : Column → γ) (suffix : Str) (opt : DiffOption)
    (sched : List (Table × Table) → List (Table × Table)) (hs : ∀ l, (sched l).Perm l)
    (hf : opt.tableFilter = none)
    (hfrom : (opt.diffFrom.tables.map (·.name)).Nodup) (hto : (opt.diffTo.tables.map (·.name)).Nodup)
    (kOps : Nat × Table × Table → List (TOp γ)) (rOps : Table × Table → List (DbOp γ))
    (cOps : Table → List (DbOp γ))
    (hk : ∀ e ∈ keptTables opt, TRuns (kOps e) (dbTable attr suffix e.2.2) (dbTable attr suffix e.2.1))
    (hr : ∀ p ∈ renamedPairs (tableRenames opt).1, ∀ d : Db γ, d p.2.name = some (dbTable attr suffix p.2) →
      d p.1.name = none → Runs (rOps p) d (upd (upd d p.2.name none) p.1.name (some (dbTable attr suffix p.1))))
    (hc : ∀ t ∈ notRenamed (tableRenames opt).1, ∀ d : Db γ, d t.name = none →
      Runs (cOps t) d (upd d t.name (some (dbTable attr suffix t)))) :
    Runs ((keptTables opt).flatMap (fun e => (kOps e).map (.alter e.2.1.name)) ++
      ((tableRenames opt).2.slice.map .dropTable ++
      ((sched (renamedPairs (tableRenames opt).1)).flatMap rOps ++
      (notRenamed (tableRenames opt).1).flatMap cOps)))
      (dbOf attr suffix opt.diffFrom) (dbOf attr suffix opt.diffTo) := by
  obtain ⟨d', h1, h2, h3⟩ := migrate_db_gen opt (fun t T => T = dbTable attr suffix t) (dbOf attr suffix opt.diffFrom)
    sched hs hf hfrom hto
    (by
      intro n hn
      obtain ⟨t, ht, rfl⟩ := List.mem_map.1 hn
      rw [dbOf_some hfrom ht]; rfl)
    (fun n hn => dbOf_none.2 hn) kOps rOps cOps
    (by
      intro e he T hT
      obtain ⟨_, _, h3⟩ := mem_keptTables.1 he
      rw [dbOf_some hfrom (lastBy_some h3).1, Option.some.injEq] at hT
      exact ⟨_, hT ▸ hk e he, rfl⟩)
    (by
      intro p hp T hT
      obtain ⟨_, _, _, h4⟩ := renamedPairs_source hp
      rw [dbOf_some hfrom (lastBy_some h4).1, Option.some.injEq] at hT
      exact ⟨_, rfl, fun d h1 h2 => hr p hp d (hT ▸ h1) h2⟩)
    (fun t ht => ⟨_, rfl, hc t ht⟩)
  have : d' = dbOf attr suffix opt.diffTo := by
    funext m
    by_cases hm : m ∈ opt.diffTo.tables.map (·.name)
    · obtain ⟨t, ht, rfl⟩ := List.mem_map.1 hm
      obtain ⟨T, h4, rfl⟩ := h2 t ht
      rw [h4, dbOf_some hto ht]
    · rw [h3 m hm, dbOf_none.2 hm]
  exact this ▸ h1

/-- Tables with the same columns look the same up to the name of the unique constraint. -/
theorem dbTable_congr {attr : Column → γ} {suffix : Str} {t o : Table} (h : t.columns = o.columns) :
    (dbTable attr suffix t).cols = (dbTable attr suffix o).cols ∧
    (dbTable attr suffix t).pk = (dbTable attr suffix o).pk ∧ uqNames t = uqNames o ∧ (HasUnique t ↔ HasUnique o) := by
  refine ⟨?_, ?_, ?_, ?_⟩
  · funext n; simp only [dbTable, columnNamed, h]
  · funext n; simp only [dbTable, pkNames, h]
  · funext n; simp only [uqNames, h]
  · simp only [HasUnique, h]

/-- Moving a table together with its unique constraint. -/
theorem runs_renameBlock {attr : Column → γ} {suffix : Str} {n o : Table} (h : n.columns = o.columns)
    (hne : n.name ≠ o.name)
    (d : Db γ) (hd : d o.name = some (dbTable attr suffix o)) (hn : d n.name = none) :
    Runs ((if o.uniqueKeyNameSet.size > 0 then [.alter o.name (.dropUnique (o.name ++ suffix))] else []) ++
      (.renameTable o.name n.name ::
      (if n.uniqueKeyNameSet.size > 0 then [.alter n.name (.createUnique (n.name ++ suffix) (uqNames n))] else [])))
      d (upd (upd d o.name none) n.name (some (dbTable attr suffix n))) := by
  obtain ⟨hc, hp, hu, hh⟩ := dbTable_congr (attr := attr) (suffix := suffix) h
  by_cases hq : HasUnique o
  · have hq' := hh.2 hq
    rw [if_pos (size_pos_unique.2 hq), if_pos (size_pos_unique.2 hq')]
    have hnone : upd (dbTable attr suffix o).uniques (o.name ++ suffix) none = fun _ => none := by
      funext k
      by_cases hk : k = o.name ++ suffix
      · simp [upd, hk]
      · simp [upd, hk, dbTable]
    refine ⟨upd d o.name (some { dbTable attr suffix o with uniques := fun _ => none }), ?_, ?_⟩
    · refine ⟨dbTable attr suffix o, _, hd, ⟨?_, rfl⟩, by rw [hnone]⟩
      simp [dbTable, hq]
    · refine ⟨upd (upd d o.name none) n.name (some { dbTable attr suffix o with uniques := fun _ => none }), ?_, ?_⟩
      · refine ⟨by simp, by rw [upd_ne _ _ hne]; exact hn, ?_⟩
        rw [upd_upd]; simp
      · refine runs_one ⟨_, dbTable attr suffix n, upd_same _ _ _, ⟨rfl, ?_, ?_⟩, by rw [upd_upd]⟩
        · intro c hc'
          obtain ⟨x, hx, _, rfl⟩ := hc'
          rw [← hc]
          exact cols_dbTable_isSome.2 (List.mem_map_of_mem hx)
        · have : (dbTable attr suffix n).uniques = upd (fun _ => none) (n.name ++ suffix) (some (uqNames n)) := by
            funext k
            by_cases hk : k = n.name ++ suffix
            · simp [upd, hk, dbTable, hq']
            · simp [upd, hk, dbTable]
          rw [← this, ← hc, ← hp]
  · have hq' : ¬HasUnique n := fun h' => hq (hh.1 h')
    rw [if_neg (fun h' => hq (size_pos_unique.1 h')), if_neg (fun h' => hq' (size_pos_unique.1 h'))]
    refine runs_one ⟨by rw [hd]; rfl, hn, ?_⟩
    have : dbTable attr suffix n = dbTable attr suffix o := by
      have h3 : (dbTable attr suffix n).uniques = (dbTable attr suffix o).uniques := by
        funext k; simp [dbTable, hq, hq']
      cases e1 : dbTable attr suffix n
      cases e2 : dbTable attr suffix o
      rw [e1, e2] at hc hp h3
      simp only at hc hp h3
      rw [hc, hp, h3]
    rw [this, hd]

/-- The statement on the table that a change inside a table stands for. -/
def topOf (uc : Bool) : Change → TOp ColAttr
  | .updatePrimaryKey _ n => .setPrimaryKey (pkNames n)
  | .dropUnique k _ => .dropUnique k
  | .createUnique k t => .createUnique k (uqNames t)
  | .addColumn _ c => .addColumn c.name (attrOf uc c)
  | .dropColumn _ c => .dropColumn c
  | .setColumnComment _ c => .modify c.name fun g => { g with comment := c.description }
  | .changeColumnType _ _ c => .modify c.name fun g => { g with type := c.type, size := c.size, scale := c.scale }
  | .renameColumn _ o n => .renameColumn o.name n.name
  | .setNotNull _ c => .modify c.name fun g => { g with notNull := c.notNull }
  | .setAutoIncrement _ c => .modify c.name fun g => { g with autoIncremental := c.autoIncremental }
  | .setDefaultValue _ c => .modify c.name fun g => { g with defaultValue := c.defaultValue }
  | _ => .remark

theorem meaning_inside {sched : List (Column × Column) → List (Column × Column)} {t o : Table} {uc : Bool}
    {suffix suffix' : Str} (hn : o.name = t.name) :
    (tableChanges sched t o uc suffix).map (meaning uc suffix') =
      ((tableChanges sched t o uc suffix).map (topOf uc)).map (.alter t.name) := by
  rw [List.map_map]
  apply List.map_congr_left
  intro c hc
  rcases mem_tableChanges hc with ⟨_, _, rfl⟩ | ⟨p, hp, hc⟩ | ⟨_, _, rfl⟩ | ⟨n, _, rfl⟩ | ⟨p, _, rfl⟩ |
    ⟨_, rfl⟩ | ⟨_, _, rfl⟩
  · rfl
  · rcases mem_columnChanges (keptColumns_name hp) hc with rfl | rfl | rfl | rfl | rfl <;> rfl
  · simp only [meaning, topOf, Function.comp, hn]
  all_goals rfl

theorem tRuns_column (uc : Bool) (t : Table) (c o : Column) (hn : c.name = o.name) (T : DbTable ColAttr)
    (hT : T.cols c.name = some (attrOf uc o)) :
    TRuns ((columnChanges t c o uc).map (topOf uc)) T
      { T with cols := upd T.cols c.name (some (attrOf uc c)) } := by
  rw [columnChanges_eq _ _ _ _ hn]
  simp only [List.map_append, apply_ite (List.map (topOf uc)), List.map_cons, List.map_nil, topOf]
  refine tRuns_append (tRuns_modifyIf _ c.name _ T _ hT) ?_
  refine tRuns_append (tRuns_modifyIf _ c.name _ _ _ (upd_same T.cols c.name _)) ?_
  refine tRuns_append (tRuns_modifyIf _ c.name _ _ _ (upd_same _ c.name _)) ?_
  refine tRuns_append (tRuns_modifyIf _ c.name _ _ _ (upd_same _ c.name _)) ?_
  have h5 := fun T g h => tRuns_modifyIf (c.defaultValue != o.defaultValue) c.name
    (fun g : ColAttr => { g with defaultValue := c.defaultValue }) T g h
  have h6 : ∀ (T1 T2 T3 : DbTable ColAttr) (g : ColAttr), T1.cols c.name = some g →
      T3 = { T1 with cols := upd T1.cols c.name (some (if c.defaultValue != o.defaultValue then
        { g with defaultValue := c.defaultValue } else g)) } →
      TRuns (if c.defaultValue != o.defaultValue then
        [.modify c.name (fun g : ColAttr => { g with defaultValue := c.defaultValue })] else []) T1 T3 := by
    rintro T1 T2 T3 g h rfl; exact h5 T1 g h
  refine h6 _ T _ _ (upd_same _ c.name _) ?_
  simp only [upd_upd]
  congr 2
  simp only [attrOf]
  have e1 : ∀ (b : Bool) (x y : ColAttr), (if b = true then x else y) =
      ⟨if b then x.type else y.type, if b then x.size else y.size, if b then x.scale else y.scale,
       if b then x.notNull else y.notNull, if b then x.autoIncremental else y.autoIncremental,
       if b then x.defaultValue else y.defaultValue, if b then x.comment else y.comment⟩ := by
    intro b x y; cases b <;> rfl
  simp only [e1, ite_self]
  simp only [Option.some.injEq, ColAttr.mk.injEq]
  refine ⟨?_, ?_, ?_, ?_, ?_, ?_, ?_⟩
  · by_cases h : c.type = o.type <;> simp [h]
  · by_cases h : c.size = o.size <;> simp [h]
  · by_cases h : c.scale = o.scale <;> simp [h]
  · by_cases h : c.notNull = o.notNull <;> simp [h]
  · by_cases h : c.autoIncremental = o.autoIncremental <;> simp [h]
  · by_cases h : c.defaultValue = o.defaultValue <;> simp [h]
  · cases uc
    · simp
    · by_cases h : c.description = o.description <;> simp [h]

theorem tRuns_tableChanges (sched : List (Column × Column) → List (Column × Column))
    (hs : ∀ l, (sched l).Perm l) (t o : Table) (uc : Bool) (suffix : Str) (hn : o.name = t.name)
    (ht : (t.columns.map (·.name)).Nodup) (ho : (o.columns.map (·.name)).Nodup)
    (hadd : NoNetAdditions uc t o) :
    TRuns ((tableChanges sched t o uc suffix).map (topOf uc)) (dbTable (attrOf uc) suffix o)
      (dbTable (attrOf uc) suffix t) := by
  obtain ⟨T, hr, hcols, hsame, hdiff, hpk⟩ := migrate_columns (attrOf uc) suffix uc
    (fun p => (columnChanges t p.1 p.2 uc).map (topOf uc)) (fun p => [.renameColumn p.2.name p.1.name])
    sched hs t o hn ht ho
    (by
      intro a b h
      simp only [attrOf, h.type, h.size, h.scale, h.notNull, h.autoIncremental, h.defaultValue, ColAttr.mk.injEq,
        true_and]
      cases uc
      · rfl
      · simp [h.description rfl])
    (fun p hp T hT => tRuns_column uc t p.1 p.2 (keptColumns_name hp) T hT)
    (fun p _ T hT hT' => tRuns_one ⟨by rw [hT]; rfl, hT', rfl⟩)
  have hops : (tableChanges sched t o uc suffix).map (topOf uc) =
      (if uc && t.description != o.description then [.remark] else []) ++
      (migrateOps (attrOf uc) suffix uc (fun p => (columnChanges t p.1 p.2 uc).map (topOf uc))
        (fun p => [.renameColumn p.2.name p.1.name]) sched t o ++
      ((if !t.primaryKeyNameSet.equals o.primaryKeyNameSet then [.setPrimaryKey (pkNames t)] else []) ++
      (if uniqueChanged t o && decide (t.uniqueKeyNameSet.size > 0) then
        [.createUnique (t.name ++ suffix) (uqNames t)] else []))) := by
    rw [tableChanges_eq, migrateOps, notRenamed_nil_of ho hadd]
    simp only [List.map_append, apply_ite (List.map (topOf uc)), List.map_cons, List.map_nil, List.map_flatMap,
      List.map_map, List.append_assoc, List.append_nil]
    congr 1
    congr 1
    congr 1
    congr 1
    congr 1
    · rw [← List.flatMap_singleton' (List.map _ _)] 
      simp [List.flatMap_map, topOf, Function.comp_def]
  rw [hops]
  refine tRuns_append (t' := dbTable (attrOf uc) suffix o) ?_ (tRuns_append hr ?_)
  · split
    · exact tRuns_one rfl
    · exact rfl
  -- primary key
  have hex : ∀ (s : Str → Prop), (∀ n, s n → n ∈ t.columns.map (·.name)) → ∀ c, s c → (T.cols c).isSome := by
    intro s hsub c hc
    rw [hcols]; exact cols_dbTable_isSome.2 (hsub c hc)
  have hpksub : ∀ n, pkNames t n → n ∈ t.columns.map (·.name) := by
    rintro n ⟨c, hc, _, rfl⟩; exact List.mem_map_of_mem hc
  have huqsub : ∀ n, uqNames t n → n ∈ t.columns.map (·.name) := by
    rintro n ⟨c, hc, _, rfl⟩; exact List.mem_map_of_mem hc
  refine tRuns_append (t' := { T with pk := pkNames t }) ?_ ?_
  · cases heq : t.primaryKeyNameSet.equals o.primaryKeyNameSet with
    | false => simp only [Bool.not_false, if_true]; exact tRuns_one ⟨hex _ hpksub, rfl⟩
    | true =>
      simp only [Bool.not_true, Bool.false_eq_true, if_false, TRuns]
      have hsp := (primaryChanged_iff t o).1 heq
      have : T.pk = pkNames t := by
        funext n
        apply propext
        rw [hpk n]
        constructor
        · rintro (⟨h1, _⟩ | ⟨p, hp, rfl, h⟩)
          · exact (hsp n).2 h1
          · exfalso
            obtain ⟨_, _, h3, h4, _⟩ := columnPairs_spec hp
            obtain ⟨c, hc, _, e⟩ := (hsp p.2.name).2 ⟨p.2, h3, h, rfl⟩
            exact h4 (e ▸ List.mem_map_of_mem hc)
        · intro h
          exact Or.inl ⟨(hsp n).1 h, hpksub n h⟩
      rw [← this]
  · have hmk : ∀ u, u = (dbTable (attrOf uc) suffix t).uniques →
        ({ cols := T.cols, pk := pkNames t, uniques := u } : DbTable ColAttr) = dbTable (attrOf uc) suffix t := by
      rintro u rfl; rw [hcols]; rfl
    by_cases hsu : SameUnique t o
    · rw [(uniqueChanged_iff t o).2 hsu]
      simp only [Bool.false_and, Bool.false_eq_true, if_false, TRuns]
      exact (hmk _ (hsame hsu)).symm
    · have hch : uniqueChanged t o = true := by
        cases h : uniqueChanged t o
        · exact absurd ((uniqueChanged_iff t o).1 h) hsu
        · rfl
      by_cases hu : HasUnique t
      · have : decide (t.uniqueKeyNameSet.size > 0) = true := decide_eq_true (size_pos_unique.2 hu)
        simp only [hch, this, Bool.and_self, if_true]
        refine tRuns_one ⟨by rw [hdiff hsu], hex _ huqsub, ?_⟩
        refine (hmk _ ?_).symm
        rw [hdiff hsu]
        funext k
        by_cases hk : k = t.name ++ suffix
        · simp [upd, hk, dbTable, hu]
        · simp [upd, hk, dbTable]
      · have : decide (t.uniqueKeyNameSet.size > 0) = false := decide_eq_false (fun h => hu (size_pos_unique.1 h))
        simp only [this, Bool.and_false, Bool.false_eq_true, if_false, TRuns]
        refine (hmk _ ?_).symm
        rw [hdiff hsu]
        funext k
        simp [dbTable, hu]

end Octo
