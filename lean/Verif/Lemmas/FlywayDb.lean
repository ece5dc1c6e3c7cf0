import Verif.Lemmas.FlywayTable
import Verif.Props.Mysql

/-! The statements of a flyway script on a database. -/

namespace Octo.Flyway
open Spec

theorem actRuns_append {as bs : List SqlAction} {d d' : Db DdlColumn} :
    ActRuns (as ++ bs) d d' ↔ ∃ e, ActRuns as d e ∧ ActRuns bs e d' := by
  induction as generalizing d with
  | nil => exact ⟨fun h => ⟨d, rfl, h⟩, by rintro ⟨S, rfl, h⟩; exact h⟩
  | cons a as ih =>
    constructor
    · rintro ⟨S, h1, h3⟩
      obtain ⟨R, h4, h5⟩ := ih.1 h3
      exact ⟨R, ⟨S, h1, h4⟩, h5⟩
    · rintro ⟨R, ⟨S, h1, h4⟩, h5⟩
      exact ⟨S, h1, ih.2 ⟨R, h4, h5⟩⟩

theorem actStep_unique {a : SqlAction} {d d₁ d₂ : Db DdlColumn} (h₁ : ActStep a d d₁) (h₂ : ActStep a d d₂) : d₁ = d₂ := by
  have alter : (∃ n T T', altered a = some n ∧ d n = some T ∧ alterTable a T = some T' ∧ AutoRule T' ∧ d₁ = upd d n (some T')) →
      (∃ n T T', altered a = some n ∧ d n = some T ∧ alterTable a T = some T' ∧ AutoRule T' ∧ d₂ = upd d n (some T')) → d₁ = d₂ := by
    rintro ⟨n, T, T', a1, a2, a3, _, rfl⟩ ⟨m, U, U', b1, b2, b3, _, rfl⟩
    rw [a1] at b1; cases b1
    rw [a2] at b2; cases b2
    rw [a3] at b3; cases b3
    rfl
  cases a with
  | createTable t => exact ddlRuns_unique (ts := [t]) ⟨d₁, h₁, rfl⟩ ⟨d₂, h₂, rfl⟩
  | dropTable n => exact h₁.2.trans h₂.2.symm
  | renameTable n m => exact h₁.2.2.trans h₂.2.2.symm
  | dropPrimaryKey n => exact alter h₁ h₂
  | addPrimaryKey n c => exact alter h₁ h₂
  | addColumn n c => exact alter h₁ h₂
  | modifyColumn n c k => exact alter h₁ h₂

theorem actRuns_unique {as : List SqlAction} {d d₁ d₂ : Db DdlColumn} (h₁ : ActRuns as d d₁) (h₂ : ActRuns as d d₂) : d₁ = d₂ := by
  induction as generalizing d with
  | nil => exact h₁.trans h₂.symm
  | cons a as ih =>
    obtain ⟨e₁, s₁, r₁⟩ := h₁
    obtain ⟨e₂, s₂, r₂⟩ := h₂
    cases actStep_unique s₁ s₂
    exact ih r₁ r₂

/-! ## Altering tables -/

theorem actRuns_one {n : Str} {as : List SqlAction} (hs : ∀ a ∈ as, Simple a = true ∧ altered a = some n) {d d' : Db DdlColumn}
    {T : DbTable DdlColumn} (hd : d n = some T) : ActRuns as d d' ↔ ∃ T', TActs as T T' ∧ d' = upd d n (some T') := by
  induction as generalizing d T with
  | nil =>
    have : upd d n (some T) = d := by
      funext m; unfold upd; split
      · rename_i e; rw [e, hd]
      · rfl
    constructor
    · intro h; exact ⟨T, rfl, by rw [this]; exact h⟩
    · rintro ⟨T', rfl, h⟩; rw [this] at h; exact h
  | cons a as ih =>
    obtain ⟨ha, hn⟩ := hs a List.mem_cons_self
    have hstep : ∀ e, ActStep a d e ↔ ∃ T', alterTable a T = some T' ∧ AutoRule T' ∧ e = upd d n (some T') := by
      intro e
      have : ActStep a d e ↔ ∃ n T T', altered a = some n ∧ d n = some T ∧ alterTable a T = some T' ∧ AutoRule T' ∧ e = upd d n (some T') := by
        cases a with
        | createTable _ => cases ha
        | dropTable _ => cases ha
        | renameTable _ _ => cases ha
        | addColumn _ _ => cases ha
        | _ => exact Iff.rfl
      rw [this]
      constructor
      · rintro ⟨m, U, U', a1, a2, a3, a4, a5⟩
        rw [hn] at a1; cases a1
        rw [hd] at a2; cases a2
        exact ⟨U', a3, a4, a5⟩
      · rintro ⟨U', a3, a4, a5⟩
        exact ⟨n, T, U', hn, hd, a3, a4, a5⟩
    have hupd : ∀ (S S' : DbTable DdlColumn), upd (upd d n (some S)) n (some S') = upd d n (some S') := by
      intro S S'; funext m; unfold upd; split <;> rfl
    constructor
    · rintro ⟨e, h1, h2⟩
      obtain ⟨S, h3, h4, rfl⟩ := (hstep e).1 h1
      obtain ⟨T', h5, h6⟩ := (ih (fun x hx => hs x (List.mem_cons_of_mem _ hx)) (T := S) (if_pos rfl)).1 h2
      exact ⟨T', ⟨S, h3, h4, h5⟩, by rw [h6, hupd]⟩
    · rintro ⟨T', ⟨S, h3, h4, h5⟩, h6⟩
      exact ⟨upd d n (some S), (hstep _).2 ⟨S, h3, h4, rfl⟩,
        (ih (fun x hx => hs x (List.mem_cons_of_mem _ hx)) (T := S) (if_pos rfl)).2 ⟨T', h5, by rw [h6, hupd]⟩⟩

theorem actRuns_alters {ε : Type} (name : ε → Str) (acts : ε → List SqlAction) (F : ε → DbTable DdlColumn) {l : List ε}
    (hs : ∀ e ∈ l, ∀ a ∈ acts e, Simple a = true ∧ altered a = some (name e)) (hnd : (l.map name).Nodup) {d d' : Db DdlColumn}
    (hd : ∀ e ∈ l, d (name e) = some (F e)) :
    ActRuns (l.flatMap acts) d d' ↔ (∀ n, n ∉ l.map name → d' n = d n) ∧
      ∀ e ∈ l, ∃ T', TActs (acts e) (F e) T' ∧ d' (name e) = some T' := by
  induction l generalizing d with
  | nil =>
    constructor
    · intro h; cases h; exact ⟨fun _ _ => rfl, fun e he => by cases he⟩
    · rintro ⟨h, _⟩; exact funext fun n => h n (by simp)
  | cons e l ih =>
    rw [List.map_cons, List.nodup_cons] at hnd
    have hne : ∀ x ∈ l, name x ≠ name e := fun x hx h => hnd.1 (h ▸ List.mem_map_of_mem hx)
    have ih' : ∀ S, ActRuns (l.flatMap acts) (upd d (name e) (some S)) d' ↔ _ := fun S =>
      ih (d := upd d (name e) (some S)) (fun x hx => hs x (List.mem_cons_of_mem _ hx)) hnd.2 (fun x hx => by
        unfold upd; rw [if_neg (hne x hx)]; exact hd x (List.mem_cons_of_mem _ hx))
    rw [List.flatMap_cons, actRuns_append]
    constructor
    · rintro ⟨d1, h1, h2⟩
      obtain ⟨S, h3, rfl⟩ := (actRuns_one (hs e List.mem_cons_self) (hd e List.mem_cons_self)).1 h1
      obtain ⟨h4, h5⟩ := (ih' S).1 h2
      refine ⟨fun n hn => ?_, fun x hx => ?_⟩
      · rw [List.map_cons, List.mem_cons, not_or] at hn
        rw [h4 n hn.2]; exact if_neg hn.1
      · rcases List.mem_cons.1 hx with rfl | hx
        · exact ⟨S, h3, by rw [h4 _ hnd.1]; exact if_pos rfl⟩
        · exact h5 x hx
    · rintro ⟨h4, h5⟩
      obtain ⟨S, h6, h7⟩ := h5 e List.mem_cons_self
      refine ⟨upd d (name e) (some S), (actRuns_one (hs e List.mem_cons_self) (hd e List.mem_cons_self)).2 ⟨S, h6, rfl⟩,
        (ih' S).2 ⟨fun n hn => ?_, fun x hx => h5 x (List.mem_cons_of_mem _ hx)⟩⟩
      by_cases e' : n = name e
      · rw [e', h7]; exact (if_pos rfl).symm
      · rw [h4 n (by rw [List.map_cons, List.mem_cons, not_or]; exact ⟨e', hn⟩)]; exact (if_neg e').symm

/-! ## Dropping, renaming and creating tables -/

/-- A statement of the small database as a statement of the script. -/
def Means (a : SqlAction) (op : DbOp DdlColumn) : Prop :=
  match a, op with
  | .dropTable n, .dropTable m => n = m
  | .renameTable n m, .renameTable n' m' => n = n' ∧ m = m'
  | .createTable t, .createTable n T => t.name = n ∧ T = t.create ∧ Creatable t
  | _, _ => False

theorem runs_act {as : List SqlAction} {ops : List (DbOp DdlColumn)} (h : List.Forall₂ Means as ops) {d d' : Db DdlColumn}
    (hr : Runs ops d d') : ActRuns as d d' := by
  induction h generalizing d with
  | nil => exact hr
  | cons hm _ ih =>
    obtain ⟨e, h1, h2⟩ := hr
    refine ⟨e, ?_, ih h2⟩
    rename_i a op as ops _
    cases a <;> cases op <;> simp only [Means] at hm
    · obtain ⟨rfl, rfl, h3⟩ := hm
      exact Or.inr ⟨h1.1, h3, h1.2⟩
    · subst hm; exact h1
    · obtain ⟨rfl, rfl⟩ := hm; exact h1

/-! ## The script of a diff -/

section
variable {opt : DiffOption} {sched : Sched}

/-- The statements for the tables that are in both versions. -/
def keptActs (opt : DiffOption) : List SqlAction :=
  (keptTables opt).flatMap fun e => (keptColumns e.2.1 e.2.2).flatMap (colActs e.2.1.name) ++ keyActs e.2.2 e.2.1

/-- The remaining statements. -/
def restActs (suffix : Str) (opt : DiffOption) (sched : Sched) : List SqlAction :=
  (tableRenames opt).2.slice.map .dropTable ++
  ((sched.tables (renamedPairs (tableRenames opt).1)).map (fun p => .renameTable p.2.name p.1.name) ++
  (notRenamed (tableRenames opt).1).map fun t => .createTable (ddlTable Mysql.toMysqlColumnType suffix t))

theorem filterMap_tables (hfrom : (opt.diffFrom.tables.map (·.name)).Nodup) {l : List Str}
    (h : ∀ n ∈ l, n ∈ opt.diffFrom.tables.map (·.name)) :
    (l.filterMap opt.diffFrom.tablesByName).map (fun t => t.name) = l := by
  induction l with
  | nil => rfl
  | cons n l ih =>
    obtain ⟨t, ht, rfl⟩ := List.mem_map.1 (h n List.mem_cons_self)
    have : opt.diffFrom.tablesByName t.name = some t := lastBy_nodup hfrom ht
    rw [List.filterMap_cons, this, List.map_cons, ih fun n hn => h n (List.mem_cons_of_mem _ hn)]

theorem rest_removed : ∀ n ∈ (tableRenames opt).2.slice, n ∈ (removedTableNames opt).keys :=
  fun n hn => findRenames_rest_subset _ _ _ _ n (mem_slice.1 hn)

theorem acts_eq (hfrom : (opt.diffFrom.tables.map (·.name)).Nodup) (suf : Str) :
    (allChanges (getDiff opt sched)).flatMap (said suf) = keptActs opt ++ restActs suf opt sched := by
  rw [allChanges_eq]
  simp only [List.flatMap_append]
  unfold keptActs restActs
  have h1 : ((keptTables opt).flatMap (fun e =>
        tableChanges (sched.columns e.1) e.2.1 e.2.2 opt.useComments opt.uniqueNameSuffix)).flatMap (said suf) =
      (keptTables opt).flatMap fun e => (keptColumns e.2.1 e.2.2).flatMap (colActs e.2.1.name) ++ keyActs e.2.2 e.2.1 := by
    rw [List.flatMap_assoc]
    exact List.flatMap_congr fun e _ => tableChanges_said _ _ _ _ _ _
  have h2 : (((tableRenames opt).2.slice.filterMap opt.diffFrom.tablesByName).map Change.dropTable).flatMap (said suf) =
      (tableRenames opt).2.slice.map .dropTable := by
    conv_rhs => rw [← filterMap_tables hfrom (fun n hn => (mem_removedTableNames.1 (rest_removed n hn)).1), List.map_map]
    rw [List.flatMap_map, ← List.flatMap_singleton' (List.map _ _), List.flatMap_map]
    rfl
  have h3 : ((sched.tables (renamedPairs (tableRenames opt).1)).flatMap
        (fun p => blockChanges (renameBlock opt.uniqueNameSuffix p))).flatMap (said suf) =
      (sched.tables (renamedPairs (tableRenames opt).1)).map (fun p => .renameTable p.2.name p.1.name) := by
    rw [List.flatMap_assoc, ← List.flatMap_singleton' (List.map _ _), List.flatMap_map]
    refine List.flatMap_congr fun p _ => ?_
    rw [renameBlock_changes]
    split <;> split <;> rfl
  have h4 : ((notRenamed (tableRenames opt).1).map Change.createTable).flatMap (said suf) =
      (notRenamed (tableRenames opt).1).map fun t => .createTable (ddlTable Mysql.toMysqlColumnType suf t) := by
    rw [List.flatMap_map, ← List.flatMap_singleton' (List.map _ _), List.flatMap_map]
    rfl
  rw [h1, h2, h3, h4]

theorem changes_plain {suffix : Str} (hfrom : Scriptable suffix opt.diffFrom) (hto : Scriptable suffix opt.diffTo) (hs : sched.Fair) :
    ∀ c ∈ allChanges (getDiff opt sched), PlainChange c ∧ ∀ t x, c ≠ .addColumn t x := by
  have hname : ∀ s : Schema, Scriptable suffix s → ∀ t ∈ s.tables, Word t.name := fun s h t ht => (h.plain t ht).1.name
  have triv : ∀ {P : Prop} {l : List Change} {x c : Change} [Decidable P], c ∈ (if P then [x] else []) → c = x := by
    intro P l x c _ h
    split at h
    · exact List.mem_singleton.1 h
    · cases h
  intro c hc
  rw [allChanges_eq] at hc
  simp only [List.mem_append] at hc
  rcases hc with hc | hc | hc | hc
  · obtain ⟨⟨i, t, o⟩, he, hc⟩ := List.mem_flatMap.1 hc
    obtain ⟨hi, _, ho⟩ := mem_keptTables.1 he
    have ht : t ∈ opt.diffTo.tables := List.mem_of_getElem? hi
    obtain ⟨hpt, hcol⟩ := hto.plain t ht
    dsimp only at hc
    rw [tableChanges_eq] at hc
    simp only [List.mem_append] at hc
    rcases hc with hc | hc | hc | hc | hc | hc | hc
    · rw [triv (l := []) hc]; exact ⟨trivial, fun _ _ e => by cases e⟩
    · obtain ⟨p, hp, hc⟩ := List.mem_flatMap.1 hc
      have hp1 : p.1 ∈ t.columns := (mem_keptColumns.1 hp).1
      rw [columnChanges_eq _ _ _ _ (keptColumns_name hp)] at hc
      simp only [List.mem_append] at hc
      rcases hc with hc | hc | hc | hc | hc
      · rw [triv (l := []) hc]; exact ⟨trivial, fun _ _ e => by cases e⟩
      · rw [triv (l := []) hc]; exact ⟨trivial, fun _ _ e => by cases e⟩
      · rw [triv (l := []) hc]; exact ⟨⟨hpt.name, hpt.columns _ hp1, hcol _ hp1⟩, fun _ _ e => by cases e⟩
      · rw [triv (l := []) hc]; exact ⟨⟨hpt.name, hpt.columns _ hp1, hcol _ hp1⟩, fun _ _ e => by cases e⟩
      · rw [triv (l := []) hc]; exact ⟨trivial, fun _ _ e => by cases e⟩
    · rw [triv (l := []) hc]; exact ⟨trivial, fun _ _ e => by cases e⟩
    · obtain ⟨n, _, rfl⟩ := List.mem_map.1 hc; exact ⟨trivial, fun _ _ e => by cases e⟩
    · obtain ⟨n, _, rfl⟩ := List.mem_map.1 hc; exact ⟨trivial, fun _ _ e => by cases e⟩
    · rw [triv (l := []) hc]; exact ⟨⟨hpt.name, fun c hc => (hpt.columns c hc).name⟩, fun _ _ e => by cases e⟩
    · rw [triv (l := []) hc]; exact ⟨trivial, fun _ _ e => by cases e⟩
  · obtain ⟨t, ht, rfl⟩ := List.mem_map.1 hc
    obtain ⟨n, _, hn⟩ := List.mem_filterMap.1 ht
    exact ⟨hname _ hfrom t (lastBy_some hn).1, fun _ _ e => by cases e⟩
  · obtain ⟨p, hp, hc⟩ := List.mem_flatMap.1 hc
    obtain ⟨h1, _, _, h4⟩ := renamedPairs_source ((hs.1 _).mem_iff.1 hp)
    rw [renameBlock_changes] at hc
    simp only [List.mem_append] at hc
    rcases hc with hc | hc | hc
    · rw [triv (l := []) hc]; exact ⟨trivial, fun _ _ e => by cases e⟩
    · rw [List.mem_singleton.1 hc]
      exact ⟨⟨hname _ hfrom _ (lastBy_some h4).1, hname _ hto _ (mem_addedTables.1 h1).1⟩, fun _ _ e => by cases e⟩
    · rw [triv (l := []) hc]; exact ⟨trivial, fun _ _ e => by cases e⟩
  · obtain ⟨t, ht, rfl⟩ := List.mem_map.1 hc
    have hsplit := findRenames_split opt.diffFrom.tablesByName (fun a b : Table => a.columns == b.columns)
      (addedTables opt) (removedTableNames opt)
    have : t ∈ addedTables opt := hsplit.mem_iff.1 (List.mem_append_right _ ht)
    exact ⟨(hto.plain t (mem_addedTables.1 this).1).1, fun _ _ e => by cases e⟩

theorem script_reads {suffix : Str} (hsuf : UnescapedName suffix) (hfrom : Scriptable suffix opt.diffFrom)
    (hto : Scriptable suffix opt.diffTo) (hs : sched.Fair) :
    readScript (flyway suffix (getDiff opt sched)) = some (keptActs opt ++ restActs suffix opt sched) := by
  rw [flyway_says hsuf fun s hs' c hc => changes_plain hfrom hto hs c (List.mem_flatMap.2 ⟨s, hs', hc⟩)]
  exact congrArg some (acts_eq hfrom.tables suffix)

theorem C_renamed {suffix : Str} {o t : Table} (ho : (o.columns.map (·.name)).Nodup) (hc : t.columns = o.columns) (hu : ¬HasUnique t) :
    C suffix o = C suffix t := by
  have h1 : (C suffix o).cols = (C suffix t).cols := by
    funext n
    rw [C_cols ho, C_cols (by rw [hc]; exact ho)]
    unfold columnNamed
    rw [hc]
  have h2 : (C suffix o).pk = (C suffix t).pk := by
    funext n; apply propext; rw [C_pk, C_pk]; unfold pkNames; rw [hc]
  have h3 : (C suffix o).uniques = (C suffix t).uniques := by
    have e : t.columns.filter (·.uniqueKey) = [] := by
      by_contra h; exact hu (hasUnique_iff_filter.2 h)
    funext k
    unfold C
    rw [create_uniques, create_uniques, if_pos e, if_pos (by rw [← hc]; exact e)]
  generalize C suffix o = A at h1 h2 h3
  generalize C suffix t = B at h1 h2 h3
  cases A; cases B
  dsimp only at h1 h2 h3
  rw [h1, h2, h3]

theorem C_not_renamed {suffix : Str} {o t : Table} (hn : o.name ≠ t.name) (hu : HasUnique t) : C suffix o ≠ C suffix t := by
  intro h
  have h1 := congrFun (congrArg DbTable.uniques h) (t.name ++ suffix)
  unfold C at h1
  rw [create_uniques, create_uniques, if_neg (hasUnique_iff_filter.1 hu), if_pos rfl] at h1
  split at h1
  · cases h1
  · rw [if_neg fun e => hn (List.append_cancel_right e)] at h1
    cases h1

theorem restActs_run {suffix : Str} (hf : opt.tableFilter = none) (hfrom : Scriptable suffix opt.diffFrom)
    (hto : Scriptable suffix opt.diffTo) (hs : sched.Fair) {d1 : Db DdlColumn}
    (h0s : ∀ n ∈ opt.diffFrom.tables.map (·.name), (d1 n).isSome)
    (h0n : ∀ n, n ∉ opt.diffFrom.tables.map (·.name) → d1 n = none) :
    ∃ d4, ActRuns (restActs suffix opt sched) d1 d4 ∧
      (∀ t ∈ opt.diffTo.tables, ∃ T, d4 t.name = some T ∧
        (t.name ∈ opt.diffFrom.tables.map (·.name) → d1 t.name = some T) ∧
        (∀ o, (t, o) ∈ renamedPairs (tableRenames opt).1 → d1 o.name = some T) ∧
        (t ∈ notRenamed (tableRenames opt).1 → T = C suffix t)) ∧
      ∀ n, n ∉ opt.diffTo.tables.map (·.name) → d4 n = none := by
  have hadd : ∀ t, t ∈ addedTables opt ↔ t ∈ opt.diffTo.tables ∧ t.name ∉ opt.diffFrom.tables.map (·.name) := by
    intro t; rw [mem_addedTables]; simp [passes, hf]
  have hsplit := findRenames_split opt.diffFrom.tablesByName (fun a b : Table => a.columns == b.columns)
    (addedTables opt) (removedTableNames opt)
  change ((renamedPairs (tableRenames opt).1).map Prod.fst ++ notRenamed (tableRenames opt).1).Perm _ at hsplit
  have haddn : ((addedTables opt).map (·.name)).Nodup := (List.filter_sublist.map _).nodup hto.tables
  have hsplitn := (hsplit.nodup_iff.2 haddn.of_map)
  have hnr : ∀ t ∈ notRenamed (tableRenames opt).1, t ∈ addedTables opt :=
    fun t ht => hsplit.mem_iff.1 (List.mem_append_right _ ht)
  have hrn : ∀ p ∈ renamedPairs (tableRenames opt).1, p.1 ∈ addedTables opt :=
    fun p hp => (renamedPairs_source hp).1
  obtain ⟨d4, h1, h2, h3⟩ := migrate_db_gen opt
    (fun t T => (t.name ∈ opt.diffFrom.tables.map (·.name) → d1 t.name = some T) ∧
        (∀ o, (t, o) ∈ renamedPairs (tableRenames opt).1 → d1 o.name = some T) ∧
        (t ∈ notRenamed (tableRenames opt).1 → T = C suffix t)) d1 sched.tables hs.1 hf hfrom.tables hto.tables h0s h0n
    (fun _ => []) (fun p => [.renameTable p.2.name p.1.name])
    (fun t => [.createTable t.name (C suffix t)])
    (by
      rintro ⟨i, t, o⟩ he T hT
      obtain ⟨_, _, ho⟩ := mem_keptTables.1 he
      obtain ⟨ho, hn⟩ := lastBy_some ho
      dsimp only at hT ⊢
      have hm : t.name ∈ opt.diffFrom.tables.map (·.name) := by
        rw [← show o.name = t.name from hn]; exact List.mem_map_of_mem ho
      refine ⟨T, rfl, fun _ => ?_, fun x hx => ?_, fun hx => ?_⟩
      · rw [← show o.name = t.name from hn]; exact hT
      · exact absurd hm ((hadd t).1 (hrn _ hx)).2
      · exact absurd hm ((hadd t).1 (hnr _ hx)).2)
    (by
      intro p hp T hT
      refine ⟨T, ⟨fun h => absurd h ((hadd _).1 (hrn p hp)).2, fun o ho => ?_, fun h => ?_⟩, ?_⟩
      · have : (p.1, o) = p := List.inj_on_of_nodup_map (f := Prod.fst) (List.nodup_append.1 hsplitn).1 ho hp rfl
        rw [← this] at hT; exact hT
      · exact absurd rfl ((List.nodup_append.1 hsplitn).2.2 _ (List.mem_map_of_mem hp) _ h)
      · intro d hd1 hd2
        exact ⟨_, ⟨by rw [hd1]; rfl, hd2, rfl⟩, by rw [hd1]; rfl⟩)
    (by
      intro t ht
      refine ⟨C suffix t, ⟨fun h => absurd h ((hadd _).1 (hnr t ht)).2, fun o ho => ?_, fun _ => rfl⟩, ?_⟩
      · exact absurd rfl ((List.nodup_append.1 hsplitn).2.2 _ (List.mem_map_of_mem ho) _ ht)
      · intro d hd
        exact ⟨_, ⟨hd, rfl⟩, rfl⟩)
  refine ⟨d4, ?_, h2, h3⟩
  have h0 : (keptTables opt).flatMap (fun e => List.map (DbOp.alter (γ := DdlColumn) e.2.1.name) []) = [] :=
    List.flatMap_eq_nil_iff.2 fun _ _ => rfl
  rw [h0, List.nil_append] at h1
  refine runs_act ?_ h1
  unfold restActs
  refine List.rel_append ?_ (List.rel_append ?_ ?_)
  · rw [List.forall₂_map_left_iff, List.forall₂_map_right_iff, List.forall₂_same]
    intro n _; rfl
  · rw [← List.flatMap_singleton' (List.map _ _), List.flatMap_map]
    generalize sched.tables (renamedPairs (tableRenames opt).1) = l
    induction l with
    | nil => exact .nil
    | cons p l ih => exact .cons ⟨rfl, rfl⟩ ih
  · have hcr : ∀ t ∈ notRenamed (tableRenames opt).1, Creatable (ddlTable Mysql.toMysqlColumnType suffix t) := by
      intro t ht
      have := ((hadd t).1 (hnr t ht)).1
      exact ddlTable_creatable _ _ (hto.columns t this) (hto.keys t this)
    generalize notRenamed (tableRenames opt).1 = l at hcr
    induction l with
    | nil => exact .nil
    | cons t l ih => exact .cons ⟨rfl, rfl, hcr t List.mem_cons_self⟩ (ih fun t ht => hcr t (List.mem_cons_of_mem _ ht))

theorem migrates_iff {suffix : Str} (hsuf : UnescapedName suffix) (hf : opt.tableFilter = none) (hfrom : Scriptable suffix opt.diffFrom)
    (hto : Scriptable suffix opt.diffTo) (hs : sched.Fair) {d d' : Db DdlColumn}
    (hd : ∀ t ∈ opt.diffFrom.tables, d t.name = some (C suffix t))
    (hdn : ∀ n, n ∉ opt.diffFrom.tables.map (·.name) → d n = none)
    (hd' : ∀ t ∈ opt.diffTo.tables, d' t.name = some (C suffix t))
    (hdn' : ∀ n, n ∉ opt.diffTo.tables.map (·.name) → d' n = none) :
    Migrates (flyway suffix (getDiff opt sched)) d d' ↔ SchemaMoves Mysql.toMysqlColumnType opt.diffFrom opt.diffTo := by
  classical
  have hall : opt.diffTo.tables.filter (passes opt.tableFilter) = opt.diffTo.tables := by
    rw [List.filter_eq_self]; intro t _; simp [passes, hf]
  have hrem : ∀ n, n ∈ (removedTableNames opt).keys ↔ n ∈ opt.diffFrom.tables.map (·.name) ∧
      n ∉ opt.diffTo.tables.map (·.name) := by
    intro n; rw [mem_removedTableNames, hall]
  have hadd : ∀ t, t ∈ addedTables opt ↔ t ∈ opt.diffTo.tables ∧ t.name ∉ opt.diffFrom.tables.map (·.name) := by
    intro t; rw [mem_addedTables]; simp [passes, hf]
  have hkept : ∀ e ∈ keptTables opt, e.2.1 ∈ opt.diffTo.tables ∧ e.2.2 ∈ opt.diffFrom.tables ∧
      e.2.2.name = e.2.1.name := by
    rintro ⟨i, t, o⟩ he
    obtain ⟨h1, _, h3⟩ := mem_keptTables.1 he
    exact ⟨List.mem_of_getElem? h1, (lastBy_some h3).1, (lastBy_some h3).2⟩
  have hkeptI : ∀ o ∈ opt.diffFrom.tables, ∀ t ∈ opt.diffTo.tables, o.name = t.name → ∃ i, (i, t, o) ∈ keptTables opt := by
    intro o ho t ht hn
    obtain ⟨i, hi⟩ := List.mem_iff_getElem?.1 ht
    exact ⟨i, mem_keptTables.2 ⟨hi, by simp [passes, hf], by rw [← hn]; exact lastBy_nodup hfrom.tables ho⟩⟩
  have hkn : ((keptTables opt).map (fun e => e.2.1.name)).Nodup := by
    have hsub : ((keptTables opt).map (fun e => e.2.1.name)).Sublist (opt.diffTo.tables.map (·.name)) := by
      have h1 : opt.diffTo.tables.map (·.name) = opt.diffTo.tables.zipIdx.map (fun e => e.1.name) := by
        conv_lhs => rw [← List.zipIdx_map_fst 0 opt.diffTo.tables]
        rw [List.map_map]; rfl
      rw [h1, keptTables, List.map_filterMap, ← List.filterMap_eq_map]
      generalize opt.diffTo.tables.zipIdx = l
      induction l with
      | nil => exact List.Sublist.refl _
      | cons a l ih =>
        simp only [List.filterMap_cons, Function.comp]
        cases hg : opt.diffFrom.tablesByName a.1.name with
        | none => simp only [Option.map_none, ite_self]; exact ih.cons _
        | some x =>
          by_cases hp : passes opt.tableFilter a.1 = true
          · simp only [hp, if_true, Option.map_some]; exact ih.cons_cons _
          · simp only [hp]; exact ih.cons _
    exact hsub.nodup hto.tables
  have halter : ∀ d1, ActRuns (keptActs opt) d d1 ↔ _ := fun d1 =>
    actRuns_alters (d := d) (d' := d1) (fun e : Nat × Table × Table => e.2.1.name)
      (fun e => (keptColumns e.2.1 e.2.2).flatMap (colActs e.2.1.name) ++ keyActs e.2.2 e.2.1) (fun e => C suffix e.2.2)
      (l := keptTables opt)
      (by
        intro e _ a ha
        rcases List.mem_append.1 ha with h | h
        · obtain ⟨p, _, hp⟩ := List.mem_flatMap.1 h
          refine ⟨colActs_simple a hp, ?_⟩
          unfold colActs at hp
          rcases List.mem_append.1 hp with h | h
          · split at h
            · rw [List.mem_singleton.1 h]; rfl
            · cases h
          · split at h
            · rw [List.mem_singleton.1 h]; split <;> rfl
            · cases h
        · refine ⟨keyActs_simple a h, ?_⟩
          unfold keyActs at h
          split at h
          · rcases List.mem_cons.1 h with rfl | h
            · rfl
            · split at h
              · rw [List.mem_singleton.1 h]; rfl
              · cases h
          · cases h) hkn (by
        intro e he
        obtain ⟨_, h2, h3⟩ := hkept e he
        rw [← h3]; exact hd _ h2)
  have hoff : ∀ n ∈ (removedTableNames opt).keys, n ∉ (keptTables opt).map (fun e => e.2.1.name) := by
    intro n hn hm
    obtain ⟨e, he, rfl⟩ := List.mem_map.1 hm
    exact ((hrem _).1 hn).2 (List.mem_map_of_mem (hkept e he).1)
  have hstate : ∀ d1 : Db DdlColumn, (∀ n, n ∉ (keptTables opt).map (fun e => e.2.1.name) → d1 n = d n) →
      (∀ e ∈ keptTables opt, (d1 e.2.1.name).isSome) →
      (∀ n ∈ opt.diffFrom.tables.map (·.name), (d1 n).isSome) ∧ ∀ n, n ∉ opt.diffFrom.tables.map (·.name) → d1 n = none := by
    intro d1 h1 h2
    refine ⟨fun n hn => ?_, fun n hn => ?_⟩
    · by_cases hk : n ∈ (keptTables opt).map (fun e => e.2.1.name)
      · obtain ⟨e, he, rfl⟩ := List.mem_map.1 hk; exact h2 e he
      · obtain ⟨o, ho, rfl⟩ := List.mem_map.1 hn
        rw [h1 _ hk, hd o ho]; rfl
    · rw [h1, hdn n hn]
      intro hk
      obtain ⟨e, he, rfl⟩ := List.mem_map.1 hk
      obtain ⟨_, h3, h4⟩ := hkept e he
      exact hn (h4 ▸ List.mem_map_of_mem h3)
  have hsplit := findRenames_split opt.diffFrom.tablesByName (fun a b : Table => a.columns == b.columns)
    (addedTables opt) (removedTableNames opt)
  change ((renamedPairs (tableRenames opt).1).map Prod.fst ++ notRenamed (tableRenames opt).1).Perm _ at hsplit
  have hread : Migrates (flyway suffix (getDiff opt sched)) d d' ↔ ActRuns (keptActs opt ++ restActs suffix opt sched) d d' := by
    unfold Migrates
    rw [script_reads hsuf hfrom hto hs]
    constructor
    · rintro ⟨as, h1, h2⟩; cases h1; exact h2
    · intro h; exact ⟨_, rfl, h⟩
  rw [hread, actRuns_append]
  constructor
  · rintro ⟨d1, h1, h2⟩
    obtain ⟨h3, h4⟩ := (halter d1).1 h1
    obtain ⟨g1, g2⟩ := hstate d1 h3 (fun e he => by obtain ⟨T', _, h⟩ := h4 e he; rw [h]; rfl)
    obtain ⟨d4, r1, r2, r3⟩ := restActs_run hf hfrom hto hs g1 g2
    cases actRuns_unique h2 r1
    refine ⟨fun o ho t ht hn => ?_, fun o ho hno t ht hnt hcol hu => ?_⟩
    · obtain ⟨i, hi⟩ := hkeptI o ho t ht hn
      obtain ⟨T', h5, h6⟩ := h4 _ hi
      obtain ⟨T, h7, h8, _⟩ := r2 t ht
      have h9 := h8 (hn ▸ List.mem_map_of_mem ho)
      have h6 : d1 t.name = some T' := h6
      rw [h9] at h6; cases h6
      rw [hd' t ht] at h7; cases h7
      exact (table_iff (hto.columns t ht) (hfrom.columns o ho) hn).1 h5
    · have hpair : ∃ p ∈ renamedPairs (tableRenames opt).1, p.1.columns = t.columns := by
        have hor := (hrem o.name).2 ⟨List.mem_map_of_mem ho, hno⟩
        rcases List.mem_append.1 (hsplit.mem_iff.2 ((hadd t).2 ⟨ht, hnt⟩)) with h | h
        · obtain ⟨p, hp, rfl⟩ := List.mem_map.1 h; exact ⟨p, hp, rfl⟩
        · have hpart := findRenames_partition (get := opt.diffFrom.tablesByName)
            (m := fun a b : Table => a.columns == b.columns) (fun c => c.name) (fun n r h => (lastBy_some h).2)
            (addedTables opt) (removedTableNames opt) (nodup_removedTableNames opt)
          change ((renamedPairs (tableRenames opt).1).map (fun p => p.2.name) ++ (tableRenames opt).2.keys).Perm _ at hpart
          have hob : opt.diffFrom.tablesByName o.name = some o := lastBy_nodup hfrom.tables ho
          rcases List.mem_append.1 (hpart.mem_iff.2 hor) with h' | h'
          · obtain ⟨p, hp, e⟩ := List.mem_map.1 h'
            obtain ⟨_, e2, _, e4⟩ := renamedPairs_source hp
            rw [e, hob] at e4
            refine ⟨p, hp, ?_⟩
            rw [e2, hcol, ← Option.some.inj e4]
          · have := findRenames_maximal _ _ _ _ t h o.name h' o hob
            rw [hcol] at this
            simp at this
      obtain ⟨p, hp, hpc⟩ := hpair
      obtain ⟨e1, e2, e3, e4⟩ := renamedPairs_source hp
      obtain ⟨a1, a2⟩ := (hadd _).1 e1
      obtain ⟨T, h7, _, h8, _⟩ := r2 p.1 a1
      have h9 := h8 p.2 hp
      have hp2 := (lastBy_some e4).1
      rw [h3 _ (hoff _ e3), hd _ hp2] at h9
      cases h9
      rw [hd' _ a1] at h7
      have hu' : HasUnique p.1 := by unfold HasUnique; rw [hpc]; exact hu
      exact C_not_renamed (fun e => a2 (e ▸ List.mem_map_of_mem hp2)) hu' (Option.some.inj h7).symm
  · intro h
    let d1 : Db DdlColumn := fun n => if n ∈ (keptTables opt).map (fun e => e.2.1.name) then d' n else d n
    have hk1 : ∀ e ∈ keptTables opt, d1 e.2.1.name = some (C suffix e.2.1) := by
      intro e he
      change (if _ then _ else _) = _
      rw [if_pos (List.mem_map_of_mem (f := fun e : Nat × Table × Table => e.2.1.name) he)]
      exact hd' _ (hkept e he).1
    have hk2 : ∀ n, n ∉ (keptTables opt).map (fun e => e.2.1.name) → d1 n = d n := fun n hn => if_neg hn
    have h1 : ActRuns (keptActs opt) d d1 := by
      refine (halter d1).2 ⟨hk2, fun e he => ⟨C suffix e.2.1, ?_, hk1 e he⟩⟩
      obtain ⟨e1, e2, e3⟩ := hkept e he
      exact (table_iff (hto.columns _ e1) (hfrom.columns _ e2) e3).2 (h.kept _ e2 _ e1 e3)
    obtain ⟨g1, g2⟩ := hstate d1 hk2 (fun e he => by rw [hk1 e he]; rfl)
    obtain ⟨d4, r1, r2, r3⟩ := restActs_run hf hfrom hto hs g1 g2
    refine ⟨d1, h1, ?_⟩
    have : d' = d4 := by
      funext n
      by_cases hn : n ∈ opt.diffTo.tables.map (·.name)
      · obtain ⟨t, ht, rfl⟩ := List.mem_map.1 hn
        obtain ⟨T, h2, h3, h4, h5⟩ := r2 t ht
        rw [h2, hd' t ht]
        by_cases hm : t.name ∈ opt.diffFrom.tables.map (·.name)
        · obtain ⟨o, ho, e⟩ := List.mem_map.1 hm
          obtain ⟨i, hi⟩ := hkeptI o ho t ht e
          rw [← h3 hm]
          exact (hk1 _ hi).symm
        · rcases List.mem_append.1 (hsplit.mem_iff.2 ((hadd t).2 ⟨ht, hm⟩)) with h' | h'
          · obtain ⟨p, hp, rfl⟩ := List.mem_map.1 h'
            obtain ⟨e1, e2, e3, e4⟩ := renamedPairs_source hp
            have hp2 := (lastBy_some e4).1
            have h6 := h4 p.2 hp
            rw [hk2 _ (hoff _ e3), hd _ hp2] at h6
            rw [← h6]
            have hr := (hrem _).1 e3
            exact congrArg some (C_renamed (hfrom.columns _ hp2) e2 (h.renamed _ hp2 hr.2 _ ht hm e2)).symm
          · rw [h5 h']
      · rw [hdn' n hn, r3 n hn]
    rw [this]; exact r1

/-- What the exported script builds. -/
theorem builtBy {suffix : Str} (hsuf : UnescapedName suffix) {s : Schema} (h : Scriptable suffix s) {d : Db DdlColumn}
    (hb : BuiltBy (Mysql.exportSchema none suffix s) d) :
    (∀ t ∈ s.tables, d t.name = some (C suffix t)) ∧ ∀ n, n ∉ s.tables.map (·.name) → d n = none := by
  obtain ⟨ts, h1, h2⟩ := hb
  rw [C17_read_back none suffix hsuf s fun t ht _ => (h.plain t ht).1] at h1
  have hall : s.tables.filter (passes none) = s.tables := by
    rw [List.filter_eq_self]; intro t _; rfl
  rw [hall] at h1
  cases h1
  obtain ⟨d', r1, r2, r3⟩ := ddlRuns Mysql.toMysqlColumnType suffix s.tables (fun _ => none) h.tables
    (fun t ht => ddlTable_creatable _ _ (h.columns t ht) (h.keys t ht)) (fun _ _ => rfl)
  cases ddlRuns_unique h2 r1
  exact ⟨r2, r3⟩

/-- The exported script can be executed. -/
theorem builtBy_exists {suffix : Str} (hsuf : UnescapedName suffix) {s : Schema} (h : Scriptable suffix s) :
    ∃ d, BuiltBy (Mysql.exportSchema none suffix s) d := by
  have hall : s.tables.filter (passes none) = s.tables := by
    rw [List.filter_eq_self]; intro t _; rfl
  obtain ⟨d', r1, _, _⟩ := ddlRuns Mysql.toMysqlColumnType suffix s.tables (fun _ => none) h.tables
    (fun t ht => ddlTable_creatable _ _ (h.columns t ht) (h.keys t ht)) (fun _ _ => rfl)
  exact ⟨d', _, C17_read_back none suffix hsuf s fun t ht _ => (h.plain t ht).1, by rw [hall]; exact r1⟩

end

end Octo.Flyway
