import Verif.Lemmas.LqMoves

/-!
# Which changes the diff changelog carries over to a database
-/

namespace Octo.Lq
open Octo.Spec

/-! ### The attributes in the end -/

theorem pk_names_iff {t : Table} (ht : (t.columns.map (·.name)).Nodup) {c : Column} (hc : c ∈ t.columns) :
    pkNames t c.name ↔ c.primaryKey = true := by
  constructor
  · rintro ⟨x, hx, h1, h2⟩; rw [← eq_of_nodup_map ht hx hc h2]; exact h1
  · intro h; exact ⟨c, hc, h, rfl⟩

theorem final_parts (env : LqEnv) (uc : Bool) (t o : Table) (c : Column) :
    (final env uc t o c).type = (arrival env uc t o c).type ∧
    (final env uc t o c).autoIncrement = (arrival env uc t o c).autoIncrement ∧
    (final env uc t o c).default = (arrival env uc t o c).default ∧
    (final env uc t o c).remarks = (arrival env uc t o c).remarks ∧
    ∀ keyStays, (keyStays = true ↔ SameKey t o) →
      (final env uc t o c).notNull = ((arrival env uc t o c).notNull || (c.primaryKey && !keyStays)) := by
  unfold final
  by_cases h : ¬SameKey t o ∧ c.primaryKey = true
  · rw [if_pos h]
    refine ⟨rfl, rfl, rfl, rfl, ?_⟩
    intro k hk
    have : k = false := by
      cases k
      · rfl
      · exact absurd (hk.1 rfl) h.1
    rw [this, h.2]; simp
  · rw [if_neg h]
    refine ⟨rfl, rfl, rfl, rfl, ?_⟩
    intro k hk
    have : (c.primaryKey && !k) = false := by
      cases hc : c.primaryKey
      · rfl
      · have : SameKey t o := by
          by_contra hn; exact h ⟨hn, hc⟩
        rw [hk.2 this]; rfl
    rw [this, Bool.or_false]

theorem attr_ext {a b : LqAttr} : a = b ↔ a.type = b.type ∧ a.notNull = b.notNull ∧ a.autoIncrement = b.autoIncrement ∧
    a.default = b.default ∧ a.remarks = b.remarks := by
  cases a; cases b; simp

/-- A column that is in both versions. -/
theorem final_stay {env : LqEnv} {uc : Bool} {t o : Table} (ht : (t.columns.map (·.name)).Nodup)
    (ho : (o.columns.map (·.name)).Nodup) {c b : Column} (hc : c ∈ t.columns) (hb : b ∈ o.columns) (hn : c.name = b.name)
    (hleave : b.notNull = true → c.notNull = false → b.primaryKey = false) (k : Bool) (hk : k = true ↔ SameKey t o) :
    final env uc t o c = lqAttrOf uc c ↔ LqColumnMoves env uc k c b := by
  obtain ⟨h1, h2, h3, h4, h5⟩ := final_parts env uc t o c
  have ha : arrival env uc t o c = stayAttr env uc c b := arrival_stay (keptColumns_mem ho hc hb hn)
  rw [attr_ext, h1, h2, h3, h4, h5 k hk, ha]
  simp only [stayAttr, lqAttrOf, true_and]
  constructor
  · rintro ⟨a1, a2, a3, a4⟩
    refine ⟨hleave, ?_, a2, ?_, ?_⟩
    · intro e; rw [if_pos e] at a1; exact a1
    · intro e; rw [if_pos e] at a3; exact a3
    · intro e
      cases uc with
      | false => simpa using a4
      | true => simpa [e rfl] using a4
  · rintro ⟨_, a1, a2, a3, a4⟩
    refine ⟨?_, a2, ?_, ?_⟩
    · by_cases e : c.notNull = b.notNull
      · rw [if_pos e]; exact a1 e
      · rw [if_neg e]
        cases hcn : c.notNull with
        | true => rfl
        | false =>
          have hbn : b.notNull = true := by
            cases hb' : b.notNull
            · exact absurd (hcn.trans hb'.symm) e
            · rfl
          cases k with
          | false => simp
          | true =>
            have hcp : c.primaryKey = false := by
              cases hp : c.primaryKey
              · rfl
              · have h7 := (hk.1 rfl c.name).1 ((pk_names_iff ht hc).2 hp)
                rw [hn] at h7
                have h8 := (pk_names_iff ho hb).1 h7
                rw [hleave hbn hcn] at h8
                cases h8
            rw [hcp]; rfl
    · by_cases e : c.defaultValue = b.defaultValue
      · rw [if_pos e]; exact a3 e
      · rw [if_neg e]
    · cases uc with
      | false => simpa using a4 (fun h => by cases h)
      | true =>
        by_cases e : c.description = b.description
        · simpa [e] using a4 (fun _ => e)
        · simp [e]

/-- A column that is new changes the key if it is in it. -/
theorem new_key {t o : Table} {c : Column} (hc : c ∈ t.columns) (hco : c.name ∉ o.columns.map (·.name))
    (hp : c.primaryKey = true) : ¬SameKey t o := by
  intro h
  obtain ⟨x, hx, _, e⟩ := (h c.name).1 ⟨c, hc, hp, rfl⟩
  exact hco (by rw [← e]; exact List.mem_map_of_mem hx)

/-- A column that is renamed. -/
theorem final_rename {env : LqEnv} {uc : Bool} {t o : Table} (ht : (t.columns.map (·.name)).Nodup) {p : Column × Column}
    (hp : p ∈ renamedPairs (columnRenames t o uc).1) :
    final env uc t o p.1 = lqAttrOf uc p.1 ↔ LqRenameKeeps env uc p.2 := by
  obtain ⟨h1, h2, h3, h4, h5⟩ := final_parts env uc t o p.1
  obtain ⟨c1, c2, c3, c4, _, c6⟩ := columnPairs_spec hp
  have hpk : p.1.primaryKey = p.2.primaryKey := c6.primaryKey
  rw [lqAttrOf_congr c6, attr_ext, h1, h2, h3, h4, arrival_rename ht hp]
  classical
  rw [h5 (decide (SameKey t o)) (by simp), arrival_rename ht hp]
  have hkey : (p.1.primaryKey && !decide (SameKey t o)) = p.2.primaryKey := by
    cases h : p.1.primaryKey
    · rw [← hpk, h]; rfl
    · rw [decide_eq_false (new_key c1 c2 h), ← hpk, h]; rfl
  rw [hkey]
  simp only [renameAttr]
  constructor
  · rintro ⟨a1, a2, a3, a4, a5⟩
    refine ⟨a1, ?_, a3, a4, a5⟩
    intro e
    rw [e] at a2
    simpa [lqAttrOf] using a2.symm
  · rintro ⟨a1, a2, a3, a4, a5⟩
    refine ⟨a1, ?_, a3, a4, a5⟩
    show _ = (p.2.notNull || p.2.primaryKey)
    cases e : (env.onRename (lqAttrOf uc p.2)).notNull
    · rfl
    · rcases a2 e with h | h <;> simp [h]

/-- A column that is added. -/
theorem final_add {env : LqEnv} {uc : Bool} {t o : Table} (ht : (t.columns.map (·.name)).Nodup) {c : Column}
    (hc : c ∈ notRenamed (columnRenames t o uc).1) : final env uc t o c = lqAttrOf uc c := by
  obtain ⟨h1, h2, h3, h4, h5⟩ := final_parts env uc t o c
  obtain ⟨c1, c2⟩ := mem_notRenamed hc
  classical
  rw [attr_ext, h1, h2, h3, h4, h5 (decide (SameKey t o)) (by simp), arrival_add ht hc]
  refine ⟨rfl, ?_, rfl, rfl, rfl⟩
  have hkey : (c.primaryKey && !decide (SameKey t o)) = c.primaryKey := by
    cases h : c.primaryKey
    · rfl
    · rw [decide_eq_false (new_key c1 c2 h)]; rfl
  rw [hkey]; rfl

theorem renameKeeps_congr {env : LqEnv} {uc : Bool} {a b : Column} (h : SameShape uc a b) (ha : LqRenameKeeps env uc a) :
    LqRenameKeeps env uc b := by
  have e := lqAttrOf_congr h
  have e1 : lqTypeText a = lqTypeText b := congrArg LqAttr.type e
  have e2 : (if uc then a.description else []) = if uc then b.description else [] := congrArg LqAttr.remarks e
  obtain ⟨h1, h2, h3, h4, h5⟩ := ha
  rw [e] at h1 h2 h3 h4 h5
  exact ⟨h1.trans e1, by rw [← h.notNull, ← h.primaryKey]; exact h2, by rw [← h.autoIncremental]; exact h3,
    by rw [← h.defaultValue]; exact h4, h5.trans e2⟩

/-- The conditions on a table, as acceptance and the attributes in the end. -/
theorem moves_iff {env : LqEnv} {uc : Bool} {t o : Table} (ht : (t.columns.map (·.name)).Nodup)
    (ho : (o.columns.map (·.name)).Nodup) :
    LqTableMoves env uc t o ↔ Accepted uc t o ∧ ∀ c ∈ t.columns, final env uc t o c = lqAttrOf uc c := by
  classical
  constructor
  · intro h
    have hleave : ∀ c ∈ t.columns, ∀ b ∈ o.columns, c.name = b.name → b.notNull = true → c.notNull = false →
        b.primaryKey = false :=
      fun c hc b hb e => (h.columns c hc b hb e (decide (SameKey t o)) (by simp)).leave
    refine ⟨⟨hleave, h.firstUnique, h.key⟩, ?_⟩
    intro c hc
    by_cases hm : c.name ∈ o.columns.map (·.name)
    · obtain ⟨b, hb, e⟩ := List.mem_map.1 hm
      exact (final_stay ht ho hc hb e.symm (hleave c hc b hb e.symm) (decide (SameKey t o)) (by simp)).2
        (h.columns c hc b hb e.symm _ (by simp))
    · have hsplit := findRenames_split o.columnNameMap (fun a b => a.isRenamed b (!uc)) (addedColumns t o) (removedNames t o)
      rcases List.mem_append.1 (hsplit.mem_iff.2 (mem_addedColumns.2 ⟨hc, hm⟩)) with h1 | h1
      · obtain ⟨p, hp, rfl⟩ := List.mem_map.1 h1
        obtain ⟨c1, c2, c3, c4, _, c6⟩ := columnPairs_spec hp
        exact (final_rename ht hp).2 (h.renames p.1 p.2 ⟨c1, c3, c2, c4, c6⟩)
      · exact final_add ht h1
  · rintro ⟨ha, hfin⟩
    refine ⟨?_, ?_, ha.firstUnique, ha.key⟩
    · intro c hc b hb e k hk
      exact (final_stay ht ho hc hb e (ha.leave c hc b hb e) k hk).1 (hfin c hc)
    · intro c b hr
      obtain ⟨p, hp, hsh⟩ := renamed_of_replaces ho hr
      exact renameKeeps_congr hsh ((final_rename ht hp).1 (hfin p.1 (columnPairs_spec hp).1))

/-! ### The whole changelog -/

/-- Statements for several tables, one after the other. -/
theorem alters_runs {γ κ : Type} (name : κ → Str) (ops : κ → List (TOp γ)) {ks : List κ} (hnd : (ks.map name).Nodup)
    {d d' : Db γ} (hd : ∀ k ∈ ks, (d (name k)).isSome) (h : Runs (ks.flatMap fun k => (ops k).map (.alter (name k))) d d') :
    ∀ k ∈ ks, ∀ T, d (name k) = some T → ∃ T', TRuns (ops k) T T' := by
  induction ks generalizing d with
  | nil => intro k hk; cases hk
  | cons k ks ih =>
    rw [List.map_cons, List.nodup_cons] at hnd
    rw [List.flatMap_cons] at h
    obtain ⟨e, h1, h2⟩ := runs_split h
    obtain ⟨T, hT⟩ := Option.isSome_iff_exists.1 (hd k List.mem_cons_self)
    obtain ⟨T', h3, rfl⟩ := alter_runs hT h1
    have hne : ∀ j ∈ ks, name j ≠ name k := fun j hj e => hnd.1 (by rw [← e]; exact List.mem_map_of_mem hj)
    intro j hj S hS
    rcases List.mem_cons.1 hj with rfl | hj
    · rw [hT] at hS; cases hS; exact ⟨T', h3⟩
    · refine ih hnd.2 ?_ h2 j hj S (by rw [upd_ne _ _ (hne j hj)]; exact hS)
      intro i hi
      rw [upd_ne _ _ (hne i hi)]
      exact hd i (List.mem_cons_of_mem _ hi)

theorem nodup_keptTables {opt : DiffOption} (hto : (opt.diffTo.tables.map (·.name)).Nodup) :
    ((keptTables opt).map fun e => e.2.1.name).Nodup := by
  have hsub : ((keptTables opt).map (fun e => e.2.1.name)).Sublist (opt.diffTo.tables.map (·.name)) := by
    have h1 : opt.diffTo.tables.map (·.name) = opt.diffTo.tables.zipIdx.map (fun e => e.1.name) := by
      conv_lhs => rw [← List.zipIdx_map_fst 0 opt.diffTo.tables]
      rw [List.map_map]; rfl
    rw [h1, keptTables, List.map_filterMap, ← List.filterMap_eq_map]
    induction opt.diffTo.tables.zipIdx with
    | nil => exact List.Sublist.refl _
    | cons a l ih =>
      simp only [List.filterMap_cons, Function.comp]
      cases hg : opt.diffFrom.tablesByName a.1.name with
      | none => simp only [Option.map_none, ite_self]; exact ih.cons _
      | some x =>
        by_cases hp : passes opt.tableFilter a.1 = true
        · simp only [hp, if_true, Option.map_some]; exact ih.cons_cons _
        · simp only [hp]; exact ih.cons _
  exact hsub.nodup hto

theorem columnNamed_mem {t : Table} (ht : (t.columns.map (·.name)).Nodup) {c : Column} (hc : c ∈ t.columns) :
    columnNamed t c.name = some c := (columnNamed_eq_some ht).2 ⟨hc, rfl⟩

end Octo.Lq
