import Verif.Props.DiffDb
import Verif.Props.DiffOut

/-! Exact conditions for C29, C30, C31 and C35. -/

namespace Octo
open Spec

/-- Two versions whose group `b` loses a table while group `a` is compared. -/
def exOtherGroup : DiffOption :=
  { diffFrom := { tables := [{ name := "x"ₛ, group := "a"ₛ, columns := [{ name := "i"ₛ }] },
                             { name := "z"ₛ, group := "b"ₛ, columns := [{ name := "k"ₛ }] }] }
    diffTo := { tables := [{ name := "x"ₛ, group := "a"ₛ, columns := [{ name := "i"ₛ }] }] }
    tableFilter := getTableFilterFn "a"ₛ }

/-- C29, exactly: every change concerns a table of the selected groups (in one of its versions) iff no
old table outside the selected groups lacks a selected counterpart in the new version. -/
theorem C29_exact (opt : DiffOption) (sched : Sched) (hs : sched.Fair)
    (hfrom : (opt.diffFrom.tables.map (·.name)).Nodup) :
    (∀ c ∈ changesOf (getDiff opt sched), ∃ t, (t ∈ opt.diffFrom.tables ∨ t ∈ opt.diffTo.tables) ∧
      passes opt.tableFilter t = true ∧ t.name = c.depTable.name) ↔
    ∀ t ∈ opt.diffFrom.tables, (∀ u ∈ opt.diffTo.tables, passes opt.tableFilter u = true →
      u.name ≠ t.name) → passes opt.tableFilter t = true := by
  constructor
  · intro h t ht hn
    have key : ∀ c : Change, c ∈ changesOf (getDiff opt sched) → c.depTable = t →
        passes opt.tableFilter t = true := by
      intro c hc e
      obtain ⟨u, hu, hp, he⟩ := h c hc
      rw [e] at he
      rcases hu with hu | hu
      · rw [← List.inj_on_of_nodup_map hfrom hu ht he]; exact hp
      · exact absurd he (hn u hu hp)
    rcases C29_unselected_dropped_or_renamed opt sched hs hfrom t ht hn with h1 | ⟨n, h1⟩
    · exact key _ h1 rfl
    · exact key _ h1 rfl
  · exact C29_groups_partial opt sched hs

example : ¬(∀ t ∈ exOtherGroup.diffFrom.tables, (∀ u ∈ exOtherGroup.diffTo.tables,
    passes exOtherGroup.tableFilter u = true → u.name ≠ t.name) → passes exOtherGroup.tableFilter t = true) ∧
    (exOtherGroup.diffFrom.tables.map (·.name)).Nodup := by
  decide +kernel

/-! ## C31 -/

theorem notRenamed_nil_iff {t o : Table} {uc : Bool} (ho : (o.columns.map (·.name)).Nodup) :
    notRenamed (columnRenames t o uc).1 = [] ↔ NoNetAdditions uc t o := by
  refine ⟨fun h k => ?_, notRenamed_nil_of ho⟩
  have hadd : t.columns.filter (fun c => decide (c.name ∉ o.columns.map (·.name))) = addedColumns t o := by
    unfold addedColumns
    apply List.filter_congr
    intro c _
    rw [Bool.eq_iff_iff, Table.columnNameMap, lastBy_isNone, decide_eq_true_eq]
  have h1 := findRenames_split o.columnNameMap (fun a b => a.isRenamed b (!uc)) (addedColumns t o) (removedNames t o)
  have h2 := findRenames_partition o.columnNameMap (fun a b => a.isRenamed b (!uc)) (·.name)
    (fun n r hr => (lastBy_some hr).2) (addedColumns t o) (removedNames t o) (nodup_removedNames t o)
  have h3 := findRenames_match o.columnNameMap (fun a b => a.isRenamed b (!uc)) (addedColumns t o) (removedNames t o)
  rw [columnRenames] at h
  rw [h, List.append_nil] at h1
  rw [hadd, ← (h1.map (shapeKey uc)).count_eq, ← ((removedNames_columns ho).map (shapeKey uc)).count_eq,
    ← ((h2.filterMap o.columnNameMap).map (shapeKey uc)).count_eq, List.filterMap_append, List.map_append,
    List.count_append]
  have e : ∀ l : List (Column × Column), (∀ p ∈ l, p.1.isRenamed p.2 (!uc) = true ∧ o.columnNameMap p.2.name = some p.2) →
      ((l.map (fun p => p.2.name)).filterMap o.columnNameMap).map (shapeKey uc) = (l.map Prod.fst).map (shapeKey uc) := by
    intro l hl
    induction l with
    | nil => rfl
    | cons p l ih =>
      obtain ⟨ha, hb⟩ := hl p (List.mem_cons_self ..)
      rw [List.map_cons, List.filterMap_cons_some hb, List.map_cons, List.map_cons, List.map_cons,
        ih (fun q hq => hl q (List.mem_cons_of_mem _ hq)),
        (shapeKey_iff uc p.1 p.2).2 ((isRenamed_iff _ _ _).1 ha)]
  rw [e _ fun p hp => by
    obtain ⟨_, hm, n, _, hn⟩ := h3 p hp
    exact ⟨hm, by rw [(lastBy_some hn).2]; exact hn⟩]
  exact Nat.le_add_right _ _

/-- A new column that no rename accounts for. -/
theorem notRenamed_source {t o : Table} {uc : Bool} (ht : (t.columns.map (·.name)).Nodup) {c : Column}
    (hc : c ∈ notRenamed (columnRenames t o uc).1) :
    c ∈ t.columns ∧ c.name ∉ o.columns.map (·.name) ∧
      ∀ p ∈ renamedPairs (columnRenames t o uc).1, p.1.name ≠ c.name := by
  have h1 := findRenames_split o.columnNameMap (fun a b => a.isRenamed b (!uc)) (addedColumns t o) (removedNames t o)
  have hm := h1.mem_iff.1 (List.mem_append_right _ hc)
  obtain ⟨hc1, hc2⟩ := mem_addedColumns.1 hm
  refine ⟨hc1, hc2, fun p hp e => ?_⟩
  have hp1 := h1.mem_iff.1 (List.mem_append_left _ (List.mem_map_of_mem (f := Prod.fst) hp))
  have e' := List.inj_on_of_nodup_map ht (mem_addedColumns.1 hp1).1 hc1 e
  have hnd : (addedColumns t o).Nodup := (List.Nodup.of_map _ ht).filter _
  have := List.disjoint_of_nodup_append (h1.nodup_iff.2 hnd) (List.mem_map_of_mem (f := Prod.fst) hp)
  rw [e'] at this
  exact this hc

/-- C31, exactly: every new column of a table is reported (as an addition or as the target of a rename)
iff for every shape at least as many columns vanish as appear. -/
theorem C31_exact (opt : DiffOption) (sched : Sched) (hs : sched.Fair) (hf : opt.tableFilter = none)
    (hfrom : DistinctNames opt.diffFrom) (hto : DistinctNames opt.diffTo)
    (t o : Table) (ht : t ∈ opt.diffTo.tables) (ho : o ∈ opt.diffFrom.tables) (hn : o.name = t.name) :
    (∀ c ∈ t.columns, c.name ∉ o.columns.map (·.name) →
      (∃ old, .renameColumn t old c ∈ changesOf (getDiff opt sched)) ∨
      .addColumn t c ∈ changesOf (getDiff opt sched)) ↔ NoNetAdditions opt.useComments t o := by
  constructor
  · intro h
    rw [← notRenamed_nil_iff (hfrom.2 o ho), List.eq_nil_iff_forall_not_mem]
    intro c hc
    obtain ⟨h1, h2, h3⟩ := notRenamed_source (hto.2 t ht) hc
    rcases h c h1 h2 with ⟨old, h4⟩ | h4
    · rcases mem_allChanges h4 with ⟨i, t', o', he, hc'⟩ | ⟨_, h⟩ | ⟨_, _, h⟩ | ⟨_, _, h⟩ | ⟨_, _, h⟩ | ⟨_, h⟩
      · obtain ⟨hk1, _, hk3⟩ := mem_keptTables.1 he
        rcases mem_tableChanges hc' with ⟨_, _, h⟩ | ⟨p, hp, hc'⟩ | ⟨_, _, h⟩ | ⟨n, _, h⟩ | ⟨p, hp, h⟩ | ⟨_, h⟩ |
          ⟨_, _, h⟩
        · cases h
        · rcases mem_columnChanges (keptColumns_name hp) hc' with h | h | h | h | h <;> cases h
        · cases h
        · cases h
        · injection h with e1 e2 e3
          subst e1
          obtain ⟨ho1, ho2⟩ := lastBy_some hk3
          have eo := List.inj_on_of_nodup_map hfrom.1 ho1 ho (ho2.trans hn.symm)
          subst eo
          exact h3 p ((hs.2 i _).mem_iff.1 hp) (by rw [← e3])
        · cases h
        · cases h
      all_goals cases h
    · exact C31_never_reported opt sched t c h4
  · intro h c hc hc'
    exact Or.inl (C31_added_partial opt sched hs hf hfrom t o ht ho hn h c hc hc')

/-! ## C30 -/

/-- Statements after which a column that a table did not have is still missing there. -/
def CannotAdd {γ : Type} (n c : Str) : DbOp γ → Prop
  | .createTable m _ => m ≠ n
  | .dropTable _ => True
  | .renameTable _ m => m ≠ n
  | .alter m (.addColumn x _) => m ≠ n ∨ x ≠ c
  | .alter m (.renameColumn _ x) => m ≠ n ∨ x ≠ c
  | .alter _ _ => True

theorem step_cannotAdd {γ : Type} {n c : Str} {op : DbOp γ} (h : CannotAdd n c op) {d d' : Db γ}
    (hs : Step op d d') (hd : ∀ T, d n = some T → T.cols c = none) : ∀ T, d' n = some T → T.cols c = none := by
  intro T hT
  cases op with
  | createTable m t =>
    obtain ⟨_, rfl⟩ := hs
    rw [upd_ne _ _ (Ne.symm h)] at hT
    exact hd T hT
  | dropTable m =>
    obtain ⟨_, rfl⟩ := hs
    by_cases e : n = m
    · subst e; rw [upd_same] at hT; cases hT
    · rw [upd_ne _ _ e] at hT; exact hd T hT
  | renameTable a b =>
    obtain ⟨_, _, rfl⟩ := hs
    rw [upd_ne _ _ (Ne.symm h)] at hT
    by_cases e : n = a
    · subst e; rw [upd_same] at hT; cases hT
    · rw [upd_ne _ _ e] at hT; exact hd T hT
  | alter m op =>
    obtain ⟨t, t', h1, h2, rfl⟩ := hs
    by_cases e : n = m
    · subst e
      rw [upd_same, Option.some.injEq] at hT
      subst hT
      have h0 := hd t h1
      cases op with
      | setPrimaryKey s => rw [h2.2]; exact h0
      | dropPrimaryKey => rw [h2.2]; exact h0
      | addPrimaryKey s => rw [h2.2.2]; exact h0
      | dropUnique k => rw [h2.2]; exact h0
      | createUnique k s => rw [h2.2.2]; exact h0
      | addColumn x g =>
        have hx : x ≠ c := h.resolve_left (fun h => h rfl)
        rw [h2.2]
        show upd t.cols x (some g) c = none
        rw [upd_ne _ _ (Ne.symm hx)]; exact h0
      | dropColumn x =>
        rw [h2.2.2]
        show upd t.cols x none c = none
        by_cases e : c = x
        · subst e; exact upd_same ..
        · rw [upd_ne _ _ e]; exact h0
      | renameColumn a x =>
        have hx : x ≠ c := h.resolve_left (fun h => h rfl)
        rw [h2.2.2]
        show upd (upd t.cols a none) x (t.cols a) c = none
        rw [upd_ne _ _ (Ne.symm hx)]
        by_cases e : c = a
        · subst e; exact upd_same ..
        · rw [upd_ne _ _ e]; exact h0
      | modify x f =>
        obtain ⟨g, hg, rfl⟩ := h2
        show upd t.cols x (some (f g)) c = none
        rw [upd_ne _ _ (by rintro rfl; rw [h0] at hg; cases hg)]
        exact h0
      | outsideKey x => rw [h2.2]; exact h0
      | remark => rw [h2]; exact h0
    · rw [upd_ne _ _ e] at hT; exact hd T hT

theorem runs_cannotAdd {γ : Type} {n c : Str} {ops : List (DbOp γ)} (h : ∀ op ∈ ops, CannotAdd n c op) {d d' : Db γ}
    (hs : Runs ops d d') (hd : ∀ T, d n = some T → T.cols c = none) : ∀ T, d' n = some T → T.cols c = none := by
  induction ops generalizing d with
  | nil => cases hs; exact hd
  | cons op ops ih =>
    obtain ⟨d1, h1, h2⟩ := hs
    exact ih (fun o ho => h o (List.mem_cons_of_mem _ ho)) h2
      (step_cannotAdd (h op (List.mem_cons_self ..)) h1 hd)

/-- C30, exactly: for schemas with distinct names and without group filter, the reported changes turn a
database with the old structure into one with the new structure iff in no table that exists in both
versions some shape appears more often than it vanishes. -/
theorem C30_exact (opt : DiffOption) (sched : Sched) (hs : sched.Fair)
    (hf : opt.tableFilter = none) (hfrom : DistinctNames opt.diffFrom) (hto : DistinctNames opt.diffTo) :
    Runs ((changesOf (getDiff opt sched)).map (meaning opt.useComments opt.uniqueNameSuffix))
      (dbOf (attrOf opt.useComments) opt.uniqueNameSuffix opt.diffFrom)
      (dbOf (attrOf opt.useComments) opt.uniqueNameSuffix opt.diffTo) ↔
    ∀ t ∈ opt.diffTo.tables, ∀ o ∈ opt.diffFrom.tables, o.name = t.name → NoNetAdditions opt.useComments t o := by
  constructor
  · intro hr t ht o ho hn
    rw [← notRenamed_nil_iff (hfrom.2 o ho), List.eq_nil_iff_forall_not_mem]
    intro c hc
    obtain ⟨h1, h2, h3⟩ := notRenamed_source (hto.2 t ht) hc
    have hadded : ∀ u ∈ addedTables opt, u.name ≠ t.name := by
      intro u hu e
      refine (mem_addedTables.1 hu).2.2 ?_
      rw [e, ← hn]; exact List.mem_map_of_mem ho
    have hall : ∀ op ∈ (changesOf (getDiff opt sched)).map (meaning opt.useComments opt.uniqueNameSuffix),
        CannotAdd t.name c.name op := by
      intro op hop
      obtain ⟨ch, hch, rfl⟩ := List.mem_map.1 hop
      rw [changesOf_eq, allChanges_eq] at hch
      simp only [List.mem_append] at hch
      rcases hch with hch | hch | hch | hch
      · obtain ⟨⟨i, t', o'⟩, he, hch⟩ := List.mem_flatMap.1 hch
        obtain ⟨hk1, _, hk3⟩ := mem_keptTables.1 he
        rcases mem_tableChanges hch with ⟨_, _, rfl⟩ | ⟨p, hp, hc'⟩ | ⟨_, _, rfl⟩ | ⟨n, _, rfl⟩ | ⟨p, hp, rfl⟩ |
          ⟨_, rfl⟩ | ⟨_, _, rfl⟩
        · exact trivial
        · rcases mem_columnChanges (keptColumns_name hp) hc' with rfl | rfl | rfl | rfl | rfl <;> exact trivial
        · exact trivial
        · exact trivial
        · by_cases e : t'.name = t.name
          · right
            have et := List.inj_on_of_nodup_map hto.1 (List.mem_of_getElem? hk1) ht e
            subst et
            obtain ⟨ho1, ho2⟩ := lastBy_some hk3
            have eo := List.inj_on_of_nodup_map hfrom.1 ho1 ho (ho2.trans hn.symm)
            subst eo
            exact h3 p ((hs.2 i _).mem_iff.1 hp)
          · exact Or.inl e
        · exact trivial
        · exact trivial
      · obtain ⟨u, _, rfl⟩ := List.mem_map.1 hch
        exact trivial
      · obtain ⟨p, hp, hch⟩ := List.mem_flatMap.1 hch
        obtain ⟨hp1, _⟩ := renamedPairs_source ((hs.1 _).mem_iff.1 hp)
        rw [renameBlock_changes] at hch
        simp only [List.mem_append] at hch
        rcases hch with hch | hch | hch
        · split at hch <;> simp at hch
          subst hch; exact trivial
        · simp at hch
          subst hch; exact hadded _ hp1
        · split at hch <;> simp at hch
          subst hch; exact trivial
      · obtain ⟨u, hu, rfl⟩ := List.mem_map.1 hch
        have := (findRenames_split opt.diffFrom.tablesByName (fun a b => a.columns == b.columns)
          (addedTables opt) (removedTableNames opt)).mem_iff.1 (List.mem_append_right _ hu)
        exact hadded u this
    have hnone := runs_cannotAdd hall hr (by
      intro T hT
      rw [← hn, dbOf_some hfrom.1 ho, Option.some.injEq] at hT
      subst hT
      show (columnNamed o c.name).map _ = none
      rw [Option.map_eq_none_iff, columnNamed, List.find?_eq_none]
      intro x hx e
      exact h2 (List.mem_map.2 ⟨x, hx, by simpa using e⟩))
    have := hnone _ (dbOf_some hto.1 ht)
    change (columnNamed t c.name).map _ = none at this
    rw [Option.map_eq_none_iff, columnNamed, List.find?_eq_none] at this
    exact this c h1 (by simp)
  · exact C30_apply_partial opt sched hs hf hfrom hto

/-- A table that gains a column for good, next to one that only renames one. -/
def exGains : DiffOption :=
  { diffFrom := { tables := [{ name := "x"ₛ, columns := [{ name := "i"ₛ }] }, { name := "y"ₛ, columns := [{ name := "j"ₛ }] }] }
    diffTo := { tables := [{ name := "x"ₛ, columns := [{ name := "k"ₛ }] },
                           { name := "y"ₛ, columns := [{ name := "j"ₛ }, { name := "l"ₛ }] }] } }

example : DistinctNames exGains.diffFrom ∧ DistinctNames exGains.diffTo ∧
    notRenamed (columnRenames exGains.diffTo.tables[0] exGains.diffFrom.tables[0] false).1 = [] ∧
    notRenamed (columnRenames exGains.diffTo.tables[1] exGains.diffFrom.tables[1] false).1 ≠ [] := by
  unfold DistinctNames; decide +kernel

/-! ## C35 -/

/-- C35, exactly: for a change whose texts need no escaping, SQL is written and says what is meant iff
the change is one of `SqlOk`. -/
theorem C35_exact (suffix : Str) (hsuf : UnescapedName suffix) (c : Change) (hp : PlainChange c) :
    (toSQL suffix c ≠ [] ∧ readScript ((toSQL suffix c).flatMap (· ++ "\n"ₛ)) =
      some (meant Mysql.toMysqlColumnType suffix c)) ↔ SqlOk c := by
  constructor
  · rintro ⟨h1, h2⟩
    have hsil : ¬Silent c := fun h => h1 ((C35_silent_iff suffix c).2 h)
    cases c with
    | createTable t => exact trivial
    | dropTable t => exact trivial
    | renameTable o n => exact trivial
    | updatePrimaryKey o n => exact (C70_exact_partial suffix hsuf o n hp).1 h2
    | addColumn t c =>
      have := C68_violated suffix t c hp []
      rw [List.append_nil] at this
      rw [this] at h2; cases h2
    | setNotNull t c => exact (C69_exact_partial suffix t c hp).1 h2
    | setAutoIncrement t c =>
      show c.autoIncremental = true
      cases ha : c.autoIncremental with
      | true => rfl
      | false =>
        rw [C36_violated suffix t c hp ha] at h2
        have := Option.some.inj h2
        simp only [meant, List.cons.injEq, SqlAction.modifyColumn.injEq] at this
        cases this.1.2.2
    | _ => exact absurd trivial hsil
  · intro h
    refine ⟨fun e => ?_, (change_reads hsuf hp h).script⟩
    have := (C35_silent_iff suffix c).1 e
    cases c <;> first | exact this | exact h

/-- C31: of the two tables of `exGains`, the first reports all its new columns and the second does not. -/
example := C31_exact exGains idSched idSched_fair rfl (by unfold DistinctNames; decide +kernel) (by unfold DistinctNames; decide +kernel)
  exGains.diffTo.tables[0] exGains.diffFrom.tables[0] (.head _) (.head _) rfl

/-- C35: a change of the primary key says what is meant. -/
example := (C35_exact "_UQ"ₛ (by unfold UnescapedName; decide)
  (.updatePrimaryKey { name := "user"ₛ, columns := [{ name := "id"ₛ, type := "int64"ₛ, primaryKey := true }] }
    { name := "user"ₛ, columns := [{ name := "key"ₛ, type := "int64"ₛ, primaryKey := true }] })
  ⟨by unfold Word; decide, by unfold Word; decide⟩).2 rfl

end Octo
