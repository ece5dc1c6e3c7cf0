import Verif.Lemmas.LiquibaseExact
import Verif.Spec.LqMoves

/-! Exactly when the diff changelog migrates a table. -/

namespace Octo.Lq
open Octo.Spec

/-! ### Statements are functions -/

theorem tStep_unique {γ : Type} {op : TOp γ} {T A B : DbTable γ} (ha : TStep op T A) (hb : TStep op T B) : A = B := by
  cases op with
  | setPrimaryKey s => exact ha.2.trans hb.2.symm
  | dropPrimaryKey => exact ha.2.trans hb.2.symm
  | addPrimaryKey s => exact ha.2.2.trans hb.2.2.symm
  | dropUnique n => exact ha.2.trans hb.2.symm
  | createUnique n s => exact ha.2.2.trans hb.2.2.symm
  | addColumn n g => exact ha.2.trans hb.2.symm
  | dropColumn n => exact ha.2.2.trans hb.2.2.symm
  | renameColumn a b => exact ha.2.2.trans hb.2.2.symm
  | modify n f =>
    obtain ⟨g, h1, rfl⟩ := ha
    obtain ⟨g', h2, rfl⟩ := hb
    rw [h1] at h2; cases h2; rfl
  | outsideKey n => exact ha.2.trans hb.2.symm
  | remark => exact Eq.trans ha (Eq.symm hb)

theorem tRuns_unique {γ : Type} {ops : List (TOp γ)} {T A B : DbTable γ} (ha : TRuns ops T A) (hb : TRuns ops T B) : A = B := by
  induction ops generalizing T with
  | nil => exact Eq.trans ha (Eq.symm hb)
  | cons o ops ih =>
    obtain ⟨S, h1, h2⟩ := ha
    obtain ⟨S', h3, h4⟩ := hb
    cases tStep_unique h1 h3
    exact ih h2 h4

theorem step_unique {γ : Type} {op : DbOp γ} {d a b : Db γ} (ha : Step op d a) (hb : Step op d b) : a = b := by
  cases op with
  | createTable n t => exact ha.2.trans hb.2.symm
  | dropTable n => exact ha.2.trans hb.2.symm
  | renameTable x y => exact ha.2.2.trans hb.2.2.symm
  | alter n op =>
    obtain ⟨T, T', h1, h2, rfl⟩ := ha
    obtain ⟨U, U', h3, h4, rfl⟩ := hb
    rw [h1] at h3; cases h3
    rw [tStep_unique h2 h4]

theorem runs_unique {γ : Type} {ops : List (DbOp γ)} {d a b : Db γ} (ha : Runs ops d a) (hb : Runs ops d b) : a = b := by
  induction ops generalizing d with
  | nil => exact Eq.trans ha (Eq.symm hb)
  | cons o ops ih =>
    obtain ⟨S, h1, h2⟩ := ha
    obtain ⟨S', h3, h4⟩ := hb
    cases step_unique h1 h3
    exact ih h2 h4

/-- Statements that concern neither keys nor constraints. -/
def Quiet {γ : Type} : TOp γ → Prop
  | .modify _ _ | .outsideKey _ | .remark => True
  | _ => False

theorem quiet_runs {γ : Type} {ops : List (TOp γ)} (h : ∀ o ∈ ops, Quiet o) {T T' : DbTable γ} (hr : TRuns ops T T') :
    T'.pk = T.pk ∧ T'.uniques = T.uniques ∧ ∀ n, .outsideKey n ∈ ops → ¬T.pk n := by
  induction ops generalizing T with
  | nil => cases hr; exact ⟨rfl, rfl, fun n hn => absurd hn List.not_mem_nil⟩
  | cons o ops ih =>
    obtain ⟨S, h1, h2⟩ := hr
    obtain ⟨i1, i2, i3⟩ := ih (fun x hx => h x (List.mem_cons_of_mem _ hx)) h2
    have hq := h o List.mem_cons_self
    have hS : S.pk = T.pk ∧ S.uniques = T.uniques := by
      cases o with
      | modify n f => obtain ⟨g, _, rfl⟩ := h1; exact ⟨rfl, rfl⟩
      | outsideKey n => rw [h1.2]; exact ⟨rfl, rfl⟩
      | remark => rw [show S = T from h1]; exact ⟨rfl, rfl⟩
      | _ => exact absurd hq id
    refine ⟨i1.trans hS.1, i2.trans hS.2, fun n hn => ?_⟩
    rcases List.mem_cons.1 hn with e | hn
    · rw [← e] at h1; exact h1.1
    · rw [← hS.1]; exact i3 n hn

/-! ### Columns that stay -/

/-- The statements for a column that stays. -/
def stayOps (env : LqEnv) (uc : Bool) (c b : Column) : List (TOp LqAttr) :=
  (if (c.type != b.type || c.size != b.size || c.scale != b.scale) = true then
    [.modify c.name fun g => { env.onRetype g with type := lqTypeText c }] else []) ++
  ((if (uc && c.description != b.description) = true then
    [.modify c.name fun g => { g with remarks := c.description }] else []) ++
  ((if (c.notNull != b.notNull) = true then
    (if c.notNull = true then [.modify c.name fun g => { g with notNull := true }]
      else [.outsideKey c.name, .modify c.name fun g => { g with notNull := false }]) else []) ++
  ((if (c.autoIncremental != b.autoIncremental && c.autoIncremental) = true then
    [.modify c.name fun g => { g with autoIncrement := true }] else []) ++
  (if (c.defaultValue != b.defaultValue) = true then
    [.modify c.name fun g => { g with default := defaultMeaning c.defaultValue }] else []))))

/-- What they leave. -/
def stayAttr (env : LqEnv) (uc : Bool) (c b : Column) : LqAttr :=
  ⟨lqTypeText c, if c.notNull = b.notNull then (retyped env uc c b).notNull else c.notNull,
    (retyped env uc c b).autoIncrement || (c.autoIncremental && !b.autoIncremental),
    if c.defaultValue = b.defaultValue then (retyped env uc c b).default else defaultMeaning c.defaultValue,
    if (uc && c.description != b.description) = true then c.description else (retyped env uc c b).remarks⟩

theorem columnSets_ops (env : LqEnv) {pf : Str → Option Str} {t : Table} {uc : Bool} {c b : Column} (hn : c.name = b.name)
    (hd : PlainDefault pf c) : ∃ ps, columnSets pf t c b uc = some ps ∧ setsTOps env ps = stayOps env uc c b := by
  obtain ⟨d, hd1, hd2⟩ : ∃ d, defaultSets pf t c b = some d ∧
      (setsTOps env d = if (c.defaultValue != b.defaultValue) = true then
        [.modify c.name fun g => { g with default := defaultMeaning c.defaultValue }] else []) := by
    unfold defaultSets
    by_cases h1 : (c.defaultValue != b.defaultValue) = true
    · rw [if_pos h1, if_pos h1]
      by_cases h2 : c.defaultValue = []
      · rw [if_pos h2]
        exact ⟨_, rfl, by rw [h2]; rfl⟩
      · rw [if_neg h2]
        obtain ⟨dv, h3, h4⟩ := newLqDefaultValue_plain hd h2
        refine ⟨_, by rw [newAddDefaultValue, h3]; rfl, ?_⟩
        simp [setsTOps, lqTableOps, h4]
    · rw [if_neg h1, if_neg h1]
      exact ⟨_, rfl, rfl⟩
  refine ⟨attrSets t c b uc ++ d, by rw [columnSets, hd1]; rfl, ?_⟩
  have hname : (c.name != b.name) = false := by simp [hn]
  rw [setsTOps_append, hd2]
  unfold attrSets stayOps
  simp only [setsTOps_append, setsTOps_whenS, hname, Bool.false_eq_true, if_false, List.nil_append, List.flatMap_cons,
    List.flatMap_nil, List.append_nil, List.append_assoc]
  simp only [lqTableOps, getLiquibaseType_eq]
  congr 1
  congr 1
  congr 1
  by_cases h1 : c.notNull = true
  · simp only [h1, if_true]
  · simp only [h1, Bool.false_eq_true, if_false]

theorem stayOps_quiet (env : LqEnv) (uc : Bool) (c b : Column) : ∀ o ∈ stayOps env uc c b, Quiet o := by
  intro o ho
  unfold stayOps at ho
  simp only [List.mem_append] at ho
  rcases ho with h | h | h | h | h
  · split at h
    · rw [List.mem_singleton.1 h]; trivial
    · cases h
  · split at h
    · rw [List.mem_singleton.1 h]; trivial
    · cases h
  · split at h
    · split at h
      · rw [List.mem_singleton.1 h]; trivial
      · rcases List.mem_cons.1 h with rfl | h
        · trivial
        · rw [List.mem_singleton.1 h]; trivial
    · cases h
  · split at h
    · rw [List.mem_singleton.1 h]; trivial
    · cases h
  · split at h
    · rw [List.mem_singleton.1 h]; trivial
    · cases h

theorem stayOps_outside (env : LqEnv) (uc : Bool) {c b : Column} (h1 : b.notNull = true) (h2 : c.notNull = false) :
    .outsideKey c.name ∈ stayOps env uc c b := by
  unfold stayOps
  refine List.mem_append_right _ (List.mem_append_right _ (List.mem_append_left _ ?_))
  rw [h1, h2, if_pos (c := (false != true) = true) (by decide), if_neg (by decide)]
  exact List.mem_cons_self

theorem retyped_type {env : LqEnv} {uc : Bool} {c b : Column}
    (h : ¬(c.type != b.type || c.size != b.size || c.scale != b.scale) = true) :
    retyped env uc c b = lqAttrOf uc b ∧ lqTypeText b = lqTypeText c := by
  simp only [Bool.or_eq_true, bne_iff_ne, not_or, not_not] at h
  obtain ⟨⟨h1, h2⟩, h3⟩ := h
  refine ⟨if_pos ⟨h1, h2, h3⟩, ?_⟩
  rw [lqTypeText, lqTypeText, h1, h2, h3]

theorem retyped_ne {env : LqEnv} {uc : Bool} {c b : Column}
    (h : (c.type != b.type || c.size != b.size || c.scale != b.scale) = true) :
    retyped env uc c b = env.onRetype (lqAttrOf uc b) := by
  refine if_neg ?_
  rintro ⟨h1, h2, h3⟩
  simp [h1, h2, h3] at h

theorem tRuns_stay (env : LqEnv) {uc : Bool} {o : Table} {c b : Column} (hb : b ∈ o.columns) (hn : c.name = b.name)
    (hno : (o.columns.map (·.name)).Nodup) (hleave : b.notNull = true → c.notNull = false → b.primaryKey = false)
    (T : DbTable LqAttr) (hpk : T.pk = pkNames o) (hT : T.cols c.name = some (lqAttrOf uc b)) :
    TRuns (stayOps env uc c b) T { T with cols := upd T.cols c.name (some (stayAttr env uc c b)) } := by
  have hnn : ∀ (T : DbTable LqAttr) (g : LqAttr), T.pk = pkNames o → T.cols c.name = some g →
      TRuns (if (c.notNull != b.notNull) = true then
          (if c.notNull = true then [TOp.modify c.name fun g : LqAttr => { g with notNull := true }]
            else [.outsideKey c.name, .modify c.name fun g => { g with notNull := false }]) else []) T
        { T with cols := upd T.cols c.name (some (if (c.notNull != b.notNull) = true then
            { g with notNull := c.notNull } else g)) } := by
    intro T g hpk hg
    by_cases h1 : (c.notNull != b.notNull) = true
    · rw [if_pos h1, if_pos h1]
      by_cases h2 : c.notNull = true
      · rw [if_pos h2, h2]
        exact tRuns_one ⟨g, hg, rfl⟩
      · rw [if_neg h2]
        have h3 : c.notNull = false := by simpa using h2
        have h4 : b.notNull = true := by rw [h3] at h1; simpa using h1
        rw [h3]
        refine ⟨T, ⟨?_, rfl⟩, tRuns_one ⟨g, hg, rfl⟩⟩
        rw [hpk]
        rintro ⟨x, hx, h5, h6⟩
        have : x = b := eq_of_nodup_map hno hx hb (h6.trans hn)
        subst this
        rw [hleave h4 h3] at h5
        cases h5
    · rw [if_neg h1, if_neg h1, ← hg, upd_self]; rfl
  unfold stayOps
  refine tRuns_append (tRuns_modifyIf _ c.name _ T _ hT) ?_
  refine tRuns_append (tRuns_modifyIf _ c.name _ _ _ (upd_same T.cols c.name _)) ?_
  refine tRuns_append (hnn { T with cols := upd (upd T.cols c.name _) c.name _ } _ hpk (upd_same _ c.name _)) ?_
  refine tRuns_append (tRuns_modifyIf _ c.name _ _ _ (upd_same _ c.name _)) ?_
  have h6 : ∀ (T1 T3 : DbTable LqAttr) (g : LqAttr), T1.cols c.name = some g →
      T3 = { T1 with cols := upd T1.cols c.name (some (if (c.defaultValue != b.defaultValue) = true then
        { g with default := defaultMeaning c.defaultValue } else g)) } →
      TRuns (if (c.defaultValue != b.defaultValue) = true then
        [.modify c.name (fun g : LqAttr => { g with default := defaultMeaning c.defaultValue })] else []) T1 T3 := by
    rintro T1 T3 g h rfl
    exact tRuns_modifyIf (c.defaultValue != b.defaultValue) c.name
      (fun g : LqAttr => { g with default := defaultMeaning c.defaultValue }) T1 g h
  refine h6 _ _ _ (upd_same _ c.name _) ?_
  simp only [upd_upd]
  congr 2
  have e1 : ∀ (b : Bool) (x y : LqAttr), (if b = true then x else y) =
      ⟨if b then x.type else y.type, if b then x.notNull else y.notNull,
       if b then x.autoIncrement else y.autoIncrement, if b then x.default else y.default,
       if b then x.remarks else y.remarks⟩ := by
    intro b x y; cases b <;> rfl
  by_cases ht : (c.type != b.type || c.size != b.size || c.scale != b.scale) = true
  · simp only [if_pos ht, e1, ite_self, stayAttr, retyped_ne ht]
    simp only [Option.some.injEq, LqAttr.mk.injEq, true_and]
    refine ⟨?_, ?_, ?_, trivial⟩
    · by_cases h : c.notNull = b.notNull <;> simp [h]
    · cases c.autoIncremental <;> cases b.autoIncremental <;> simp
    · by_cases h : c.defaultValue = b.defaultValue <;> simp [h]
  · obtain ⟨r1, r2⟩ := retyped_type (env := env) (uc := uc) ht
    simp only [if_neg ht, e1, ite_self, stayAttr, r1]
    simp only [Option.some.injEq, LqAttr.mk.injEq]
    refine ⟨r2.symm, ?_, ?_, ?_, trivial⟩
    · by_cases h : c.notNull = b.notNull <;> simp [h]
    · cases c.autoIncremental <;> cases b.autoIncremental <;> simp
    · by_cases h : c.defaultValue = b.defaultValue <;> simp [h]

/-! ### Renamed and added columns -/

/-- What renaming leaves. -/
def renameAttr (env : LqEnv) (uc : Bool) (b : Column) : LqAttr :=
  { env.onRename (lqAttrOf uc b) with notNull := (env.onRename (lqAttrOf uc b)).notNull || b.notNull }

/-- What a column of the new version has before the key is set. -/
def arrival (env : LqEnv) (uc : Bool) (t o : Table) (c : Column) : LqAttr :=
  match o.columnNameMap c.name with
  | some b => stayAttr env uc c b
  | none =>
    match (renamedPairs (columnRenames t o uc).1).find? (fun p => p.1.name == c.name) with
    | some p => renameAttr env uc p.2
    | none => { lqAttrOf uc c with notNull := c.notNull }

theorem split_names {t o : Table} {uc : Bool} (ht : (t.columns.map (·.name)).Nodup) :
    ((renamedPairs (columnRenames t o uc).1).map (fun p => p.1.name) ++
      (notRenamed (columnRenames t o uc).1).map (·.name)).Nodup := by
  have hsplit := findRenames_split o.columnNameMap (fun a b => a.isRenamed b (!uc)) (addedColumns t o) (removedNames t o)
  change ((renamedPairs (columnRenames t o uc).1).map Prod.fst ++ notRenamed (columnRenames t o uc).1).Perm _ at hsplit
  have hadd : ((addedColumns t o).map (·.name)).Nodup := (List.filter_sublist.map _).nodup ht
  have hsplitn := (hsplit.map (·.name)).nodup_iff.2 hadd
  rw [List.map_append, List.map_map] at hsplitn
  exact hsplitn

theorem mem_notRenamed {t o : Table} {uc : Bool} {c : Column} (hc : c ∈ notRenamed (columnRenames t o uc).1) :
    c ∈ t.columns ∧ c.name ∉ o.columns.map (·.name) := by
  have hsplit := findRenames_split o.columnNameMap (fun a b => a.isRenamed b (!uc)) (addedColumns t o) (removedNames t o)
  exact mem_addedColumns.1 (hsplit.mem_iff.1 (List.mem_append_right _ hc))

theorem map_none {o : Table} {n : Str} (h : n ∉ o.columns.map (·.name)) : o.columnNameMap n = none := by
  rw [Table.columnNameMap, lastBy_none]; exact h

theorem arrival_stay {env : LqEnv} {uc : Bool} {t o : Table} {p : Column × Column} (hp : p ∈ keptColumns t o) :
    arrival env uc t o p.1 = stayAttr env uc p.1 p.2 := by
  unfold arrival
  rw [(mem_keptColumns.1 hp).2]

theorem arrival_rename {env : LqEnv} {uc : Bool} {t o : Table} (ht : (t.columns.map (·.name)).Nodup) {p : Column × Column}
    (hp : p ∈ renamedPairs (columnRenames t o uc).1) : arrival env uc t o p.1 = renameAttr env uc p.2 := by
  unfold arrival
  rw [map_none (columnPairs_spec hp).2.1]
  have : (renamedPairs (columnRenames t o uc).1).find? (fun q => q.1.name == p.1.name) = some p := by
    cases hf : (renamedPairs (columnRenames t o uc).1).find? (fun q => q.1.name == p.1.name) with
    | none => have := List.find?_eq_none.1 hf p hp; simp at this
    | some q =>
      have h2 := List.mem_of_find?_eq_some hf
      have h3 : q.1.name = p.1.name := by simpa using List.find?_some hf
      rw [List.inj_on_of_nodup_map (List.nodup_append.1 (split_names (o := o) (uc := uc) ht)).1 h2 hp h3]
  rw [this]

theorem arrival_add {env : LqEnv} {uc : Bool} {t o : Table} (ht : (t.columns.map (·.name)).Nodup) {c : Column}
    (hc : c ∈ notRenamed (columnRenames t o uc).1) : arrival env uc t o c = { lqAttrOf uc c with notNull := c.notNull } := by
  unfold arrival
  rw [map_none (mem_notRenamed hc).2]
  have : (renamedPairs (columnRenames t o uc).1).find? (fun q => q.1.name == c.name) = none := by
    rw [List.find?_eq_none]
    intro q hq h
    have h3 : q.1.name = c.name := by simpa using h
    exact (List.nodup_append.1 (split_names (o := o) (uc := uc) ht)).2.2 _ (List.mem_map_of_mem hq) _ (List.mem_map_of_mem hc) h3
  rw [this]

/-- The statements for a renamed column. -/
def moveOps (env : LqEnv) (p : Column × Column) : List (TOp LqAttr) :=
  [.renameColumn p.2.name p.1.name] ++ ([.modify p.1.name env.onRename] ++
    (if p.2.notNull = true then [.modify p.1.name fun g : LqAttr => { g with notNull := true }] else []))

theorem renameSets_ops (env : LqEnv) (t : Table) (p : Column × Column) : setsTOps env (renameSets t p) = moveOps env p := by
  have : renameSets t p = [(false, [.renameColumn t.name p.1.name p.2.name (getLiquibaseType p.1)])] ++
    whenS p.2.notNull [.addNotNullConstraint t.name p.1.name (getLiquibaseType p.1) p.1.defaultValue] := rfl
  rw [this, setsTOps_append, setsTOps_whenS]
  rfl

theorem tRuns_move (env : LqEnv) {uc : Bool} {t o : Table} (ht : (t.columns.map (·.name)).Nodup) {p : Column × Column}
    (hp : p ∈ renamedPairs (columnRenames t o uc).1) (T : DbTable LqAttr) (hT : T.cols p.2.name = some (lqAttrOf uc p.2))
    (hT' : T.cols p.1.name = none) :
    TRuns (moveOps env p) T (renamedTo T p.2.name p.1.name (arrival env uc t o p.1)) := by
  rw [arrival_rename ht hp]
  unfold moveOps
  refine tRuns_append (tRuns_one (t' := renamedT T p.2.name p.1.name) ⟨by rw [hT]; rfl, hT', rfl⟩) ?_
  have hnew : (renamedT T p.2.name p.1.name).cols p.1.name = some (lqAttrOf uc p.2) := by
    simp only [renamedT, upd_same, hT]
  refine tRuns_append (tRuns_one ⟨_, hnew, rfl⟩) ?_
  cases hnn : p.2.notNull with
  | true =>
    rw [if_pos rfl]
    refine ⟨_, ⟨_, upd_same _ p.1.name _, rfl⟩, ?_⟩
    show renamedTo _ _ _ _ = _
    simp only [renamedTo, renamedT, upd_upd, renameAttr, hnn, Bool.or_true]
  | false =>
    rw [if_neg (by decide)]
    show renamedTo _ _ _ _ = _
    simp only [renamedTo, renamedT, upd_upd, renameAttr, hnn, Bool.or_false]

theorem addSets_ops (env : LqEnv) {pf : Str → Option Str} (t : Table) (cols : List Column) (uc : Bool)
    (hpl : ∀ c ∈ cols, PlainDefault pf c) :
    ∃ ps, addSets pf t cols uc = some ps ∧ SetsIn t.name ps ∧
      setsTOps env ps = cols.map fun c => .addColumn c.name { lqAttrOf uc c with notNull := c.notNull } := by
  unfold addSets
  by_cases hl : cols.length > 0
  · rw [if_pos hl]
    have h1 : ∃ lcs, cols.mapM (newAddedColumn pf t uc) = some lcs ∧ List.Forall₂ (ColumnFor uc false false) cols lcs := by
      clear hl
      induction cols with
      | nil => exact ⟨[], rfl, .nil⟩
      | cons c cs ih =>
        obtain ⟨lcs, h1, h2⟩ := ih (fun c hc => hpl c (by simp [hc]))
        obtain ⟨lc, h3, h4⟩ := newLqColumn_plain (hpl c (by simp)) uc true true
        refine ⟨{ stripRemarks uc lc with afterColumn := lastColName c t.columns [] } :: lcs, ?_, .cons ?_ h2⟩
        · rw [List.mapM_cons, newAddedColumn, h3, h1]; rfl
        · exact ⟨h4.name, h4.attr, h4.pk, h4.unique⟩
    obtain ⟨lcs, h1, h2⟩ := h1
    refine ⟨_, by rw [newAddColumn, h1]; rfl, setsIn_one ⟨rfl, fun _ => rfl⟩, ?_⟩
    have hpk : lcs.any inlinePk = false := by
      rw [List.any_eq_false]
      intro lc hlc
      obtain ⟨c, _, hcf⟩ := forall₂_right h2 hlc
      rw [hcf.pk]; simp
    have huq : lcs.filter inlineUnique = [] := by
      rw [List.filter_eq_nil_iff]
      intro lc hlc
      obtain ⟨c, _, hcf⟩ := forall₂_right h2 hlc
      rw [hcf.unique]; simp
    simp only [setsTOps, List.flatMap_cons, List.flatMap_nil, List.append_nil, lqTableOps, hpk, huq,
      Bool.false_eq_true, if_false, List.map_nil]
    clear h1 hpk huq hl
    induction h2 with
    | nil => rfl
    | @cons c lc cs lcs hcf _ ih =>
      rw [List.map_cons, List.map_cons, ih (fun c hc => hpl c (by simp [hc])), hcf.name, hcf.attr]
      simp only [Bool.and_false, Bool.or_false]
  · rw [if_neg hl]
    have : cols = [] := List.length_eq_zero_iff.1 (by omega)
    subst this
    exact ⟨[], rfl, fun p (hp : p ∈ []) => (List.not_mem_nil hp).elim, rfl⟩

/-! ### The statements for a table -/

/-- The statements for a table that is in both versions. -/
def tableOps (env : LqEnv) (sched : List (Column × Column) → List (Column × Column)) (t o : Table) (uc : Bool) (suffix : Str) :
    List (TOp LqAttr) :=
  (if (uc && t.description != o.description) = true then [.remark] else []) ++
  ((keptColumns t o).flatMap (fun p => stayOps env uc p.1 p.2) ++
  ((if uniqueChanged t o = true then [.dropUnique (t.name ++ suffix)] else []) ++
  ((columnRenames t o uc).2.slice.map .dropColumn ++
  ((sched (renamedPairs (columnRenames t o uc).1)).flatMap (moveOps env) ++
  ((notRenamed (columnRenames t o uc).1).map (fun c => .addColumn c.name (arrival env uc t o c)) ++
  setsTOps env (endSets t o suffix))))))

theorem tableSets_ops (env : LqEnv) {pf : Str → Option Str} (sched : List (Column × Column) → List (Column × Column))
    (t o : Table) (uc : Bool) (suffix : Str) (ht : CleanTable pf t) :
    ∃ ps, tableSets pf sched t o uc suffix = some ps ∧ SetsIn t.name ps ∧ setsTOps env ps = tableOps env sched t o uc suffix := by
  obtain ⟨cs, hcs, hcsIn, hcsOps⟩ : ∃ cs, (keptColumns t o).mapM (fun p => columnSets pf t p.1 p.2 uc) = some cs ∧
      SetsIn t.name cs.flatten ∧ setsTOps env cs.flatten = (keptColumns t o).flatMap fun p => stayOps env uc p.1 p.2 := by
    have : ∀ p ∈ keptColumns t o, ∃ ps, columnSets pf t p.1 p.2 uc = some ps ∧ setsTOps env ps = stayOps env uc p.1 p.2 :=
      fun p hp => columnSets_ops env (keptColumns_name hp) (ht.2 _ (mem_keptColumns.1 hp).1).2
    generalize keptColumns t o = l at this
    induction l with
    | nil => exact ⟨[], rfl, fun p (hp : p ∈ []) => (List.not_mem_nil hp).elim, rfl⟩
    | cons p l ih =>
      obtain ⟨cs, h1, h2, h3⟩ := ih (fun q hq => this q (by simp [hq]))
      obtain ⟨ps, h4, h5⟩ := this p (by simp)
      refine ⟨ps :: cs, by rw [List.mapM_cons, h4, h1]; rfl, ?_, ?_⟩
      · rw [List.flatten_cons, setsIn_append]; exact ⟨columnSets_in h4, h2⟩
      · rw [List.flatten_cons, setsTOps_append, h3, List.flatMap_cons, h5]
  obtain ⟨add, hadd, haddIn, haddOps⟩ := addSets_ops env t (notRenamed (columnRenames t o uc).1) uc
    (fun c hc => (ht.2 c (mem_notRenamed hc).1).2)
  refine ⟨_, by rw [tableSets, hcs, hadd]; rfl, ?_, ?_⟩
  · simp only [setsIn_append]
    refine ⟨setsIn_whenS ?_, hcsIn, midSets_in _ _ _ _ _, haddIn, endSets_in _ _ _⟩
    intro c hc; rw [List.mem_singleton] at hc; subst hc; exact ⟨rfl, fun _ => rfl⟩
  · unfold tableOps
    simp only [setsTOps_append, hcsOps, haddOps, midSets, setsTOps_whenS, setsTOps_flatMap, List.append_assoc]
    have e1 : (notRenamed (columnRenames t o uc).1).map
        (fun c => TOp.addColumn c.name { lqAttrOf uc c with notNull := c.notNull }) =
        (notRenamed (columnRenames t o uc).1).map (fun c => .addColumn c.name (arrival env uc t o c)) := by
      refine List.map_congr_left fun c hc => ?_
      rw [arrival_add ht.1 hc]
    have e2 : setsTOps env ((columnRenames t o uc).2.slice.map (fun n => (false, [.dropColumn t.name n]))) =
        (columnRenames t o uc).2.slice.map .dropColumn := by
      simp [setsTOps, List.flatMap_map, lqTableOps, ← List.map_eq_flatMap]
    have e3 : (sched (renamedPairs (columnRenames t o uc).1)).flatMap (fun p => setsTOps env (renameSets t p)) =
        (sched (renamedPairs (columnRenames t o uc).1)).flatMap (moveOps env) :=
      List.flatMap_congr fun p _ => renameSets_ops env t p
    rw [e1, e2, e3]
    rfl

/-! ### Keys and constraints -/

open Classical in
theorem end_runs (env : LqEnv) {pf : Str → Option Str} (uc : Bool) (suffix : Str) {t o : Table} (ht : CleanTable pf t)
    (T : DbTable LqAttr) (hexN : ∀ n, n ∈ t.columns.map (·.name) → (T.cols n).isSome)
    (hpk : ∀ n, T.pk n ↔ (pkNames o n ∧ n ∈ t.columns.map (·.name)) ∨
      ∃ p ∈ renamedPairs (columnRenames t o uc).1, n = p.1.name ∧ p.2.primaryKey = true)
    (hkey : SameKey t o ∨ (∀ n, ¬pkNames o n) ∨ ∃ n, T.pk n) (hdiff : ¬SameUnique t o → T.uniques = fun _ => none) :
    ∃ T', TRuns (setsTOps env (endSets t o suffix)) T T' ∧
      (∀ n, T'.cols n = if ¬SameKey t o ∧ pkNames t n then (T.cols n).map fun g => { g with notNull := true } else T.cols n) ∧
      (∀ n, T'.pk n ↔ pkNames t n) ∧
      T'.uniques = if ¬SameUnique t o ∧ HasUnique t then upd T.uniques (t.name ++ suffix) (some (uqNames t)) else T.uniques := by
  obtain ⟨T1, hr1, h1c, h1p, h1u⟩ : ∃ T1, TRuns (setsTOps env (whenS (!t.primaryKeyNameSet.equals o.primaryKeyNameSet)
      (pkChanges t o))) T T1 ∧
      (∀ n, T1.cols n = if ¬SameKey t o ∧ pkNames t n then (T.cols n).map fun g => { g with notNull := true } else T.cols n) ∧
      (∀ n, T1.pk n ↔ pkNames t n) ∧ T1.uniques = T.uniques := by
    rw [setsTOps_whenS]
    cases heq : t.primaryKeyNameSet.equals o.primaryKeyNameSet with
    | true =>
      have hsp : SameKey t o := (primaryChanged_iff t o).1 heq
      refine ⟨T, rfl, fun n => (if_neg (fun h => h.1 hsp)).symm, ?_, rfl⟩
      intro n
      rw [hpk n]
      constructor
      · rintro (⟨h1, _⟩ | ⟨p, hp, rfl, h⟩)
        · exact (hsp n).2 h1
        · exfalso
          obtain ⟨_, _, h3, h4, _⟩ := columnPairs_spec hp
          obtain ⟨c, hc, _, e⟩ := (hsp p.2.name).2 ⟨p.2, h3, h, rfl⟩
          exact h4 (e ▸ List.mem_map_of_mem hc)
      · intro h
        refine Or.inl ⟨(hsp n).1 h, ?_⟩
        obtain ⟨c, hc, _, rfl⟩ := h
        exact List.mem_map_of_mem hc
    | false =>
      have hne : ¬SameKey t o := by
        intro h
        rw [(primaryChanged_iff t o).2 h] at heq; cases heq
      simp only [Bool.not_false, if_true, pkChanges, List.flatMap_append]
      obtain ⟨T1, hr1, h1c, h1p, h1u⟩ : ∃ T1, TRuns (List.flatMap (lqTableOps env)
          (if o.primaryKeyNameSet.size > 0 then [.dropPrimaryKey t.name] else [])) T T1 ∧ T1.cols = T.cols ∧
          (∀ n, ¬T1.pk n) ∧ T1.uniques = T.uniques := by
        by_cases hsz : o.primaryKeyNameSet.size > 0
        · rw [if_pos hsz]
          obtain ⟨b, hb, hb2⟩ := size_pos_primary.1 hsz
          rcases hkey with h | h | h
          · exact absurd h hne
          · exact absurd ⟨b, hb, hb2, rfl⟩ (h b.name)
          · exact ⟨{ T with pk := fun _ => False }, tRuns_one ⟨h, rfl⟩, rfl, fun _ h => h, rfl⟩
        · rw [if_neg hsz]
          refine ⟨T, rfl, rfl, ?_, rfl⟩
          intro n hn2
          apply hsz
          rcases (hpk n).1 hn2 with ⟨⟨c, hc, h1, _⟩, _⟩ | ⟨p, hp, _, h1⟩
          · exact size_pos_primary.2 ⟨c, hc, h1⟩
          · exact size_pos_primary.2 ⟨p.2, (columnPairs_spec hp).2.2.1, h1⟩
      by_cases hsz : t.primaryKeyNameSet.size > 0
      · rw [if_pos hsz]
        have hl2 : listed (t.primaryKeyNameSet.joinKeys ", "ₛ) = t.primaryKeyNameSet.slice :=
          listed_slice hsz (by
            intro n hn
            obtain ⟨c, hc, _, rfl⟩ := mem_primaryKeyNameSet.1 hn
            exact (ht.2 c hc).1)
        have hmem : ∀ n, n ∈ t.primaryKeyNameSet.slice ↔ pkNames t n := fun n => mem_slice.trans mem_primaryKeyNameSet
        have hex : ∀ n, n ∈ t.primaryKeyNameSet.slice → (T.cols n).isSome := by
          intro n hn
          obtain ⟨c, hc, _, rfl⟩ := (hmem n).1 hn
          exact hexN _ (List.mem_map_of_mem hc)
        refine ⟨{ cols := fun m => if m ∈ t.primaryKeyNameSet.slice then
              (T1.cols m).map fun g => { g with notNull := true } else T1.cols m
                  pk := fun n => n ∈ t.primaryKeyNameSet.slice, uniques := T1.uniques }, tRuns_append hr1 ?_, ?_, hmem, ?_⟩
        · simp only [List.flatMap_cons, List.flatMap_nil, List.append_nil, lqTableOps, hl2]
          exact ⟨{ T1 with pk := fun n => n ∈ t.primaryKeyNameSet.slice }, ⟨h1p, fun n hn => by rw [h1c]; exact hex n hn, rfl⟩,
            tRuns_notNulls _ _ (by intro n hn; simp only; rw [h1c]; exact hex n hn)⟩
        · intro n
          simp only [h1c]
          by_cases hm : n ∈ t.primaryKeyNameSet.slice
          · rw [if_pos hm, if_pos ⟨hne, (hmem n).1 hm⟩]
          · rw [if_neg hm, if_neg fun h => hm ((hmem n).2 h.2)]
        · exact h1u
      · rw [if_neg hsz]
        have hno : ∀ n, ¬pkNames t n := by
          rintro n ⟨c, hc, h1, _⟩
          exact hsz (size_pos_primary.2 ⟨c, hc, h1⟩)
        refine ⟨T1, tRuns_append hr1 rfl, fun n => ?_, fun n => ⟨fun h => absurd h (h1p n), fun h => absurd h (hno n)⟩, h1u⟩
        rw [h1c, if_neg fun h => hno n h.2]
  obtain ⟨T2, hr2, h2c, h2p, h2u⟩ : ∃ T2, TRuns (setsTOps env (whenS (uniqueChanged t o) (uqChanges t suffix))) T1 T2 ∧
      T2.cols = T1.cols ∧ T2.pk = T1.pk ∧
      T2.uniques = if ¬SameUnique t o ∧ HasUnique t then upd T.uniques (t.name ++ suffix) (some (uqNames t)) else T.uniques := by
    rw [setsTOps_whenS]
    by_cases hsu : SameUnique t o
    · rw [(uniqueChanged_iff t o).2 hsu]
      exact ⟨T1, rfl, rfl, rfl, by rw [if_neg fun h => h.1 hsu]; exact h1u⟩
    · have hch : uniqueChanged t o = true := by
        cases h : uniqueChanged t o
        · exact absurd ((uniqueChanged_iff t o).1 h) hsu
        · rfl
      rw [hch, if_pos rfl, uqChanges]
      by_cases hsz : t.uniqueKeyNameSet.size > 0
      · rw [if_pos hsz, if_pos ⟨hsu, size_pos_unique.1 hsz⟩]
        have hl2 : listed (t.uniqueKeyNameSet.joinKeys ", "ₛ) = t.uniqueKeyNameSet.slice :=
          listed_slice hsz (by
            intro n hn
            obtain ⟨c, hc, _, rfl⟩ := mem_uniqueKeyNameSet.1 hn
            exact (ht.2 c hc).1)
        have hmem : (fun n => n ∈ t.uniqueKeyNameSet.slice) = uqNames t := by
          funext n; exact propext (mem_slice.trans mem_uniqueKeyNameSet)
        refine ⟨{ T1 with uniques := upd T1.uniques (t.name ++ suffix) (some (uqNames t)) }, ?_, rfl, rfl, by rw [h1u]⟩
        simp only [List.flatMap_cons, List.flatMap_nil, List.append_nil, lqTableOps, hl2, hmem]
        refine tRuns_one ⟨by rw [h1u, hdiff hsu], ?_, rfl⟩
        rintro n ⟨c, hc, _, rfl⟩
        rw [h1c]
        have := hexN _ (List.mem_map_of_mem hc)
        split
        · rw [Option.isSome_map]; exact this
        · exact this
      · rw [if_neg hsz, if_neg fun h => hsz (size_pos_unique.2 h.2)]
        exact ⟨T1, rfl, rfl, rfl, h1u⟩
  refine ⟨T2, ?_, fun n => by rw [h2c]; exact h1c n, fun n => by rw [h2p]; exact h1p n, h2u⟩
  rw [endSets, setsTOps_append]
  exact tRuns_append hr1 hr2

/-! ### Renamed columns exist -/

/-- Where a column replaces another one, some column of this shape is renamed. -/
theorem renamed_of_replaces {uc : Bool} {t o : Table} (ho : (o.columns.map (·.name)).Nodup) {c b : Column}
    (h : Replaces uc t o c b) : ∃ p ∈ renamedPairs (columnRenames t o uc).1, SameShape uc p.2 b := by
  obtain ⟨hc, hb, hco, hbt, hsh⟩ := h
  have hsplit := findRenames_split o.columnNameMap (fun a b => a.isRenamed b (!uc)) (addedColumns t o) (removedNames t o)
  have hpart := findRenames_partition (get := o.columnNameMap) (m := fun a b => a.isRenamed b (!uc))
    (fun c => c.name) (fun n r h => (lastBy_some h).2) (addedColumns t o) (removedNames t o) (nodup_removedNames t o)
  have key : ∀ {x y : Column}, SameShape uc x y ↔ shapeKey uc x = shapeKey uc y := fun {x y} => (shapeKey_iff uc x y).symm
  rcases List.mem_append.1 (hsplit.mem_iff.2 (mem_addedColumns.2 ⟨hc, hco⟩)) with h1 | h1
  · obtain ⟨p, hp, rfl⟩ := List.mem_map.1 h1
    refine ⟨p, hp, key.2 ?_⟩
    exact (key.1 (columnPairs_spec hp).2.2.2.2.2).symm.trans (key.1 hsh)
  · rcases List.mem_append.1 (hpart.mem_iff.2 (mem_removedNames.2 ⟨List.mem_map_of_mem hb, hbt⟩)) with h2 | h2
    · obtain ⟨p, hp, e⟩ := List.mem_map.1 h2
      have : p.2 = b := eq_of_nodup_map ho (columnPairs_spec hp).2.2.1 hb e
      exact ⟨p, hp, key.2 (by rw [this])⟩
    · have := findRenames_maximal o.columnNameMap (fun a b => a.isRenamed b (!uc)) (addedColumns t o) (removedNames t o)
        c h1 b.name h2 b (lastBy_nodup ho hb)
      rw [(isRenamed_iff _ _ _).2 hsh] at this
      cases this

/-! ### A table -/

open Classical in
/-- What a column of the new version has in the end. -/
noncomputable def final (env : LqEnv) (uc : Bool) (t o : Table) (c : Column) : LqAttr :=
  if ¬SameKey t o ∧ c.primaryKey = true then { arrival env uc t o c with notNull := true } else arrival env uc t o c

/-- The conditions under which the statements are accepted. -/
structure Accepted (uc : Bool) (t o : Table) : Prop where
  leave : ∀ c ∈ t.columns, ∀ b ∈ o.columns, c.name = b.name → b.notNull = true → c.notNull = false → b.primaryKey = false
  firstUnique : ¬SameUnique t o → HasUnique o
  key : SameKey t o ∨ (∀ n, ¬pkNames o n) ∨
    ∃ b ∈ o.columns, b.primaryKey = true ∧ (b.name ∈ t.columns.map (·.name) ∨ ∃ c, Replaces uc t o c b)

theorem keptColumns_mem {t o : Table} (ho : (o.columns.map (·.name)).Nodup) {c b : Column} (hc : c ∈ t.columns) (hb : b ∈ o.columns)
    (hn : c.name = b.name) : (c, b) ∈ keptColumns t o :=
  mem_keptColumns.2 ⟨hc, by rw [hn]; exact lastBy_nodup ho hb⟩

section
variable (env : LqEnv) (sys : Str → Prop) {pf : Str → Option Str}
  (sched : List (Column × Column) → List (Column × Column)) (hs : ∀ l, (sched l).Perm l) (t o : Table) (uc : Bool)
  (suffix : Str) (hn : o.name = t.name) (ht : CleanTable pf t) (ho : (o.columns.map (·.name)).Nodup)
  (T0 : DbTable LqAttr) (h0 : HoldsTable sys uc true suffix o T0)
  (h0o : ¬SameUnique t o → ∀ k, k ≠ t.name ++ suffix → T0.uniques k = none)
include hs hn ht ho h0 h0o

theorem middle_runs (hleave : ∀ c ∈ t.columns, ∀ b ∈ o.columns, c.name = b.name → b.notNull = true → c.notNull = false →
    b.primaryKey = false) :
    ∃ T, TRuns (migrateOps (arrival env uc t o) suffix uc (fun p => stayOps env uc p.1 p.2) (moveOps env) sched t o) T0 T ∧
      T.cols = (dbTable (arrival env uc t o) suffix t).cols ∧
      (SameUnique t o → T.uniques = T0.uniques) ∧
      (¬SameUnique t o → T.uniques = fun _ => none) ∧
      ∀ n, T.pk n ↔ (pkNames o n ∧ n ∈ t.columns.map (·.name)) ∨
        ∃ p ∈ renamedPairs (columnRenames t o uc).1, n = p.1.name ∧ p.2.primaryKey = true := by
  have h0c : T0.cols = (dbTable (lqAttrOf uc) suffix o).cols := funext h0.cols
  have h0p : T0.pk = pkNames o := funext fun n => propext (h0.pk n)
  refine migrate_columns_to (lqAttrOf uc) (arrival env uc t o) suffix uc _ _ sched hs t o T0 h0c h0p
    (fun k s h => ⟨(h0.only k s h).1, (h0.only k s h).2.1⟩) (fun _ hu => by rw [← hn, h0.named rfl hu]; rfl) h0o ht.1 ho ?_ ?_
  · intro p hp T hTp hTc
    obtain ⟨h1, h2⟩ := mem_keptColumns.1 hp
    rw [arrival_stay hp]
    exact tRuns_stay env (lastBy_some h2).1 (keptColumns_name hp) ho
      (hleave _ h1 _ (lastBy_some h2).1 (keptColumns_name hp)) T hTp hTc
  · exact fun p hp T hT hT' => tRuns_move env ht.1 hp T hT hT'

omit hs hn ht ho h0 h0o in
theorem tableOps_eq (hfirst : ¬SameUnique t o → HasUnique o) : tableOps env sched t o uc suffix =
    (if (uc && t.description != o.description) = true then [.remark] else []) ++
    (migrateOps (arrival env uc t o) suffix uc (fun p => stayOps env uc p.1 p.2) (moveOps env) sched t o ++
      setsTOps env (endSets t o suffix)) := by
  unfold tableOps migrateOps
  simp only [List.append_assoc]
  congr 2
  congr 1
  cases hu : uniqueChanged t o with
  | false => rfl
  | true =>
    have : HasUnique o := hfirst fun hsu => by rw [(uniqueChanged_iff t o).2 hsu] at hu; cases hu
    rw [decide_eq_true (size_pos_unique.2 this)]; rfl

/-- When the statements are accepted, and what they leave. -/
theorem table_runs (ha : Accepted uc t o) : ∃ T', TRuns (tableOps env sched t o uc suffix) T0 T' ∧
    (∀ n, T'.cols n = (columnNamed t n).map (final env uc t o)) ∧ (∀ n, T'.pk n ↔ pkNames t n) ∧
    (HasUnique t → T'.uniques (t.name ++ suffix) = some (uqNames t)) ∧
    (∀ k s, T'.uniques k = some s → HasUnique t ∧ s = uqNames t ∧ (k = t.name ++ suffix ∨ sys k)) := by
  classical
  obtain ⟨T, hr, hcols, hsame, hdiff, hpk⟩ := middle_runs env sys sched hs t o uc suffix hn ht ho T0 h0 h0o ha.leave
  have hexN : ∀ n, n ∈ t.columns.map (·.name) → (T.cols n).isSome := by
    intro n hn'; rw [hcols]; exact cols_dbTable_isSome.2 hn'
  have hkey : SameKey t o ∨ (∀ n, ¬pkNames o n) ∨ ∃ n, T.pk n := by
    rcases ha.key with h | h | ⟨b, hb, hp, h | ⟨c, h⟩⟩
    · exact Or.inl h
    · exact Or.inr (Or.inl h)
    · exact Or.inr (Or.inr ⟨b.name, (hpk _).2 (Or.inl ⟨⟨b, hb, hp, rfl⟩, h⟩)⟩)
    · obtain ⟨p, hp', hsh⟩ := renamed_of_replaces ho h
      exact Or.inr (Or.inr ⟨p.1.name, (hpk _).2 (Or.inr ⟨p, hp', rfl, by rw [hsh.primaryKey]; exact hp⟩)⟩)
  obtain ⟨T', hr', hc', hp', hu'⟩ := end_runs env uc suffix ht T hexN hpk hkey hdiff
  refine ⟨T', ?_, ?_, hp', ?_, ?_⟩
  · rw [tableOps_eq env sched t o uc suffix ha.firstUnique]
    refine tRuns_append (t' := T0) ?_ (tRuns_append hr hr')
    split
    · exact tRuns_one rfl
    · exact rfl
  · intro n
    rw [hc' n, hcols]
    show (if _ then ((columnNamed t n).map _).map _ else (columnNamed t n).map _) = _
    cases hf : columnNamed t n with
    | none => simp
    | some c =>
      obtain ⟨hc, rfl⟩ := (columnNamed_eq_some ht.1).1 hf
      have hiff : pkNames t c.name ↔ c.primaryKey = true := by
        constructor
        · rintro ⟨x, hx, h1, h2⟩; rw [← eq_of_nodup_map ht.1 hx hc h2]; exact h1
        · intro h; exact ⟨c, hc, h, rfl⟩
      unfold final
      by_cases h : ¬SameKey t o ∧ c.primaryKey = true
      · rw [if_pos ⟨h.1, hiff.2 h.2⟩]
        simp only [Option.map_some, if_pos h]
      · rw [if_neg fun h' => h ⟨h'.1, hiff.1 h'.2⟩]
        simp only [Option.map_some, if_neg h]
  · intro hu
    rw [hu']
    by_cases hsu : SameUnique t o
    · rw [if_neg fun h => h.1 hsu, hsame hsu]
      have huq : uqNames o = uqNames t := by funext n; exact propext (hsu n).symm
      have : HasUnique o := by
        obtain ⟨c, h1, h2⟩ := hu
        obtain ⟨d, h3, h4, _⟩ := (hsu c.name).1 ⟨c, h1, h2, rfl⟩
        exact ⟨d, h3, h4⟩
      rw [← huq, ← hn]; exact h0.named rfl this
    · rw [if_pos ⟨hsu, hu⟩]; exact upd_same _ _ _
  · intro k s hk
    rw [hu'] at hk
    by_cases hsu : SameUnique t o
    · rw [if_neg fun h => h.1 hsu, hsame hsu] at hk
      have huq : uqNames o = uqNames t := by funext n; exact propext (hsu n).symm
      obtain ⟨⟨c, h1, h2⟩, h4, h5⟩ := h0.only k s hk
      obtain ⟨d, h6, h7, _⟩ := (hsu c.name).2 ⟨c, h1, h2, rfl⟩
      exact ⟨⟨d, h6, h7⟩, h4.trans huq, by rw [← hn]; exact h5⟩
    · rw [hdiff hsu] at hk
      split at hk
      · rename_i hc
        by_cases hkk : k = t.name ++ suffix
        · subst hkk
          simp only [upd_same, Option.some.injEq] at hk
          exact ⟨hc.2, hk.symm, Or.inl rfl⟩
        · simp only [upd_ne _ _ hkk] at hk; cases hk
      · cases hk

/-- Statements that are accepted meet the conditions. -/
theorem accepted_of_runs {T' : DbTable LqAttr} (hr : TRuns (tableOps env sched t o uc suffix) T0 T') : Accepted uc t o := by
  have h0p : T0.pk = pkNames o := funext fun n => propext (h0.pk n)
  have hr' := hr
  unfold tableOps at hr
  obtain ⟨S0, q0, hr1⟩ := tRuns_split hr
  have hS0 : S0 = T0 := by
    split at q0
    · obtain ⟨_, e, e'⟩ := q0; exact Eq.trans e' e
    · exact q0
  subst hS0
  obtain ⟨S1, q1, hr2⟩ := tRuns_split hr1
  obtain ⟨k1, k2, k3⟩ := quiet_runs (by
    intro op hop
    obtain ⟨p, _, h⟩ := List.mem_flatMap.1 hop
    exact stayOps_quiet env uc p.1 p.2 op h) q1
  have hleave : ∀ c ∈ t.columns, ∀ b ∈ o.columns, c.name = b.name → b.notNull = true → c.notNull = false →
      b.primaryKey = false := by
    intro c hc b hb e h1 h2
    have := k3 c.name (List.mem_flatMap.2 ⟨(c, b), keptColumns_mem ho hc hb e, stayOps_outside env uc h1 h2⟩)
    rw [h0p] at this
    cases hp : b.primaryKey
    · rfl
    · exact absurd ⟨b, hb, hp, e.symm⟩ this
  obtain ⟨S2, q2, _⟩ := tRuns_split hr2
  have hfirst : ¬SameUnique t o → HasUnique o := by
    intro hsu
    have hch : uniqueChanged t o = true := by
      cases h : uniqueChanged t o
      · exact absurd ((uniqueChanged_iff t o).1 h) hsu
      · rfl
    rw [if_pos hch] at q2
    obtain ⟨_, ⟨h1, _⟩, _⟩ := q2
    rw [k2] at h1
    obtain ⟨s, hs'⟩ := Option.isSome_iff_exists.1 h1
    exact (h0.only _ _ hs').1
  refine ⟨hleave, hfirst, ?_⟩
  obtain ⟨T, hm, _, _, _, hpk⟩ := middle_runs env sys sched hs t o uc suffix hn ht ho S0 h0 h0o hleave
  rw [tableOps_eq env sched t o uc suffix hfirst] at hr'
  obtain ⟨R0, p0, hr3⟩ := tRuns_split hr'
  have : R0 = S0 := by
    split at p0
    · obtain ⟨_, e, e'⟩ := p0; exact Eq.trans e' e
    · exact p0
  subst this
  obtain ⟨R1, p1, p2⟩ := tRuns_split hr3
  cases tRuns_unique p1 hm
  by_cases hsk : SameKey t o
  · exact Or.inl hsk
  by_cases hex : ∀ n, ¬pkNames o n
  · exact Or.inr (Or.inl hex)
  right; right
  have hchanged : t.primaryKeyNameSet.equals o.primaryKeyNameSet = false := by
    cases h : t.primaryKeyNameSet.equals o.primaryKeyNameSet
    · rfl
    · exact absurd ((primaryChanged_iff t o).1 h) hsk
  have hsz : o.primaryKeyNameSet.size > 0 := by
    by_contra h
    apply hex
    rintro n ⟨c, hc, h1, _⟩
    exact h (size_pos_primary.2 ⟨c, hc, h1⟩)
  rw [endSets, setsTOps_append, setsTOps_whenS, hchanged, Bool.not_false, if_pos rfl, pkChanges, if_pos hsz] at p2
  obtain ⟨_, ⟨h1, _⟩, _⟩ := p2
  obtain ⟨n, hn'⟩ := h1
  rcases (hpk n).1 hn' with ⟨⟨b, hb, h2, e⟩, h3⟩ | ⟨p, hp, _, h2⟩
  · exact ⟨b, hb, h2, Or.inl (by rw [e]; exact h3)⟩
  · obtain ⟨c1, c2, c3, c4, _, c6⟩ := columnPairs_spec hp
    exact ⟨p.2, c3, h2, Or.inr ⟨p.1, c1, c3, c2, c4, c6⟩⟩

end

end Octo.Lq
