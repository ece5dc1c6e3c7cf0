import Verif.Lemmas.LiquibaseDiff

/-!
# When the generated changelog builds the tables
-/

namespace Octo.Lq
open Octo.Spec

/-! ### Statements in reverse -/

theorem tRuns_split {γ : Type} {a b : List (TOp γ)} {t t'' : DbTable γ} (h : TRuns (a ++ b) t t'') :
    ∃ t', TRuns a t t' ∧ TRuns b t' t'' := by
  induction a generalizing t with
  | nil => exact ⟨t, rfl, h⟩
  | cons o r ih =>
    obtain ⟨u, hs, hr⟩ := h
    obtain ⟨t', h1, h2⟩ := ih hr
    exact ⟨t', ⟨u, hs, h1⟩, h2⟩

theorem runs_split {γ : Type} {a b : List (DbOp γ)} {t t'' : Db γ} (h : Runs (a ++ b) t t'') :
    ∃ t', Runs a t t' ∧ Runs b t' t'' := by
  induction a generalizing t with
  | nil => exact ⟨t, rfl, h⟩
  | cons o r ih =>
    obtain ⟨u, hs, hr⟩ := h
    obtain ⟨t', h1, h2⟩ := ih hr
    exact ⟨t', ⟨u, hs, h1⟩, h2⟩

theorem alter_runs {γ : Type} {ops : List (TOp γ)} {d d' : Db γ} {n : Str} {t : DbTable γ} (hd : d n = some t)
    (h : Runs (ops.map (.alter n)) d d') : ∃ t', TRuns ops t t' ∧ d' = upd d n (some t') := by
  induction ops generalizing d t with
  | nil => exact ⟨t, rfl, by rw [← hd, upd_self]; exact h⟩
  | cons o r ih =>
    obtain ⟨_, ⟨u, u', hu, hs, rfl⟩, hr⟩ := h
    rw [hd] at hu
    cases hu
    obtain ⟨t', h1, h2⟩ := ih (upd_same _ _ _) hr
    exact ⟨t', ⟨u', hs, h1⟩, by rw [h2, upd_upd]⟩

/-- Statements that make a table and change it. -/
theorem runs_make {γ : Type} {ops : List (TOp γ)} {d d' : Db γ} {n : Str} {t : DbTable γ}
    (h : Runs (.createTable n t :: ops.map (.alter n)) d d') :
    d n = none ∧ ∃ t', TRuns ops t t' ∧ d' = upd d n (some t') := by
  obtain ⟨_, ⟨h1, rfl⟩, h2⟩ := h
  obtain ⟨t', h3, h4⟩ := alter_runs (upd_same _ _ _) h2
  exact ⟨h1, t', h3, by rw [h4, upd_upd]⟩

theorem adds_tRuns {γ κ : Type} (name : κ → Str) (g : κ → γ) {ks : List κ} {t t' : DbTable γ}
    (h : TRuns (ks.map fun k => .addColumn (name k) (g k)) t t') :
    (ks.map name).Nodup ∧ (∀ k ∈ ks, t.cols (name k) = none) ∧ (∀ k ∈ ks, t'.cols (name k) = some (g k)) ∧
      (∀ m, m ∉ ks.map name → t'.cols m = t.cols m) := by
  induction ks generalizing t with
  | nil => cases h; exact ⟨List.nodup_nil, by simp, by simp, fun _ _ => rfl⟩
  | cons k ks ih =>
    obtain ⟨_, ⟨h1, rfl⟩, h2⟩ := h
    obtain ⟨h3, h4, h5, h6⟩ := ih h2
    have hk : name k ∉ ks.map name := by
      intro hm
      obtain ⟨k', hk', e⟩ := List.mem_map.1 hm
      have := h4 k' hk'
      rw [e] at this
      simp only [upd_same] at this
      cases this
    refine ⟨List.nodup_cons.2 ⟨hk, h3⟩, ?_, ?_, ?_⟩
    · intro k' hk'
      rcases List.mem_cons.1 hk' with rfl | hk'
      · exact h1
      · have := h4 k' hk'
        have hne : name k' ≠ name k := fun e => hk (by rw [← e]; exact List.mem_map_of_mem hk')
        simp only [upd_ne _ _ hne] at this
        exact this
    · intro k' hk'
      rcases List.mem_cons.1 hk' with rfl | hk'
      · rw [h6 _ hk]; exact upd_same _ _ _
      · exact h5 k' hk'
    · intro m hm
      rw [List.map_cons, List.mem_cons, not_or] at hm
      rw [h6 m hm.2]
      exact upd_ne _ _ hm.1

/-- Statements that leave default values alone. -/
def KeepsDefaults : TOp LqAttr → Prop
  | .addPrimaryKey _ | .createUnique _ _ => True
  | .modify _ f => ∀ g, (f g).default = g.default
  | _ => False

theorem keeps_tRuns {ops : List (TOp LqAttr)} (h : ∀ o ∈ ops, KeepsDefaults o) {t t' : DbTable LqAttr}
    (hr : TRuns ops t t') (n : Str) : (t'.cols n).map LqAttr.default = (t.cols n).map LqAttr.default := by
  induction ops generalizing t with
  | nil => cases hr; rfl
  | cons o ops ih =>
    obtain ⟨u, hs, hr⟩ := hr
    rw [ih (fun o ho => h o (List.mem_cons_of_mem _ ho)) hr]
    have ho := h o List.mem_cons_self
    cases o with
    | addPrimaryKey s => obtain ⟨_, _, rfl⟩ := hs; rfl
    | createUnique k s => obtain ⟨_, _, rfl⟩ := hs; rfl
    | modify c f =>
      obtain ⟨g, hg, rfl⟩ := hs
      by_cases e : n = c
      · subst e
        simp only [upd_same, hg, Option.map_some]
        rw [ho g]
      · simp only [upd_ne _ _ e]
    | _ => exact ho.elim

theorem createUniques_some {γ κ : Type} (key : κ → Str) (cols : κ → Str → Prop) {ks : List κ} {t t' : DbTable γ}
    (h : TRuns (ks.map fun k => .createUnique (key k) (cols k)) t t') {n : Str}
    (hn : (t.uniques n).isSome ∨ ∃ k ∈ ks, key k = n) : (t'.uniques n).isSome := by
  induction ks generalizing t with
  | nil =>
    cases h
    rcases hn with h | ⟨k, hk, _⟩
    · exact h
    · cases hk
  | cons k ks ih =>
    obtain ⟨_, ⟨_, _, rfl⟩, h2⟩ := h
    refine ih h2 ?_
    by_cases e : n = key k
    · left; rw [e]; simp only [upd_same]; rfl
    · simp only [upd_ne _ _ e]
      rcases hn with h | ⟨k', hk', e'⟩
      · exact Or.inl h
      · rcases List.mem_cons.1 hk' with rfl | hk'
        · exact absurd e'.symm e
        · exact Or.inr ⟨k', hk', e'⟩

theorem modifies_same {γ κ : Type} (name : κ → Str) (f : κ → γ → γ) {ks : List κ} {t t' : DbTable γ}
    (h : TRuns (ks.map fun k => .modify (name k) (f k)) t t') : t'.pk = t.pk ∧ t'.uniques = t.uniques := by
  induction ks generalizing t with
  | nil => cases h; exact ⟨rfl, rfl⟩
  | cons k ks ih =>
    obtain ⟨_, ⟨g, _, rfl⟩, h2⟩ := h
    obtain ⟨h3, h4⟩ := ih h2
    exact ⟨h3, h4⟩

/-- Several tables made one after the other. -/
theorem creates_runs {γ κ : Type} (name : κ → Str) (P : κ → DbTable γ → Prop) (ops : κ → List (DbOp γ)) {ks : List κ}
    (hstep : ∀ k ∈ ks, ∀ e e' : Db γ, Runs (ops k) e e' → e (name k) = none ∧ ∃ T, P k T ∧ e' = upd e (name k) (some T))
    {d d' : Db γ} (h : Runs (ks.flatMap ops) d d') :
    (ks.map name).Nodup ∧ (∀ k ∈ ks, d (name k) = none ∧ ∃ T, P k T ∧ d' (name k) = some T) ∧
      ∀ m, m ∉ ks.map name → d' m = d m := by
  induction ks generalizing d with
  | nil => cases h; exact ⟨List.nodup_nil, by simp, fun _ _ => rfl⟩
  | cons k ks ih =>
    rw [List.flatMap_cons] at h
    obtain ⟨e, h1, h2⟩ := runs_split h
    obtain ⟨h3, T, h4, rfl⟩ := hstep k List.mem_cons_self _ _ h1
    obtain ⟨h5, h6, h7⟩ := ih (fun k' hk' => hstep k' (List.mem_cons_of_mem _ hk')) h2
    have hk : name k ∉ ks.map name := by
      intro hm
      obtain ⟨k', hk', e⟩ := List.mem_map.1 hm
      have := (h6 k' hk').1
      rw [e, upd_same] at this
      cases this
    refine ⟨List.nodup_cons.2 ⟨hk, h5⟩, ?_, ?_⟩
    · intro k' hk'
      rcases List.mem_cons.1 hk' with rfl | hk'
      · exact ⟨h3, T, h4, by rw [h7 _ hk, upd_same]⟩
      · obtain ⟨h8, h9⟩ := h6 k' hk'
        have hne : name k' ≠ name k := fun e => hk (by rw [← e]; exact List.mem_map_of_mem hk')
        rw [upd_ne _ _ hne] at h8
        exact ⟨h8, h9⟩
    · intro m hm
      rw [List.map_cons, List.mem_cons, not_or] at hm
      rw [h7 m hm.2, upd_ne _ _ hm.1]

/-! ### One table -/

theorem clean_of_listed {names n : Str} (h : n ∈ listed names) : CleanName n := by
  obtain ⟨p, hp, rfl⟩ := List.mem_map.1 h
  refine ⟨?_, trimSpace_trimSpace p⟩
  intro hc
  refine not_mem_split hp ?_
  unfold trimSpace at hc
  have h1 := List.mem_reverse.1 hc
  have h2 := List.mem_reverse.1 ((List.dropWhile_sublist _).mem h1)
  exact (List.dropWhile_sublist _).mem h2

/-- Name, uniqueness and default of a `column` element. -/
theorem newLqColumn_parts {pf : Str → Option Str} {c : Column} {a b uc : Bool} {lc : LqColumn}
    (h : (newLqColumn pf c a b).map (stripRemarks uc) = some lc) :
    lc.name = c.name ∧ inlineUnique lc = (c.uniqueKey && !b) ∧
    (c.defaultValue ≠ [] → newLqDefaultValue pf c = some lc.default) := by
  obtain ⟨l, hl, rfl⟩ := Option.map_eq_some_iff.1 h
  unfold newLqColumn at hl
  dsimp only at hl
  have hu : ∀ l' : LqColumn, l'.name = c.name → l'.constraints = newConstraints c a b →
      (stripRemarks uc l').name = c.name ∧ inlineUnique (stripRemarks uc l') = (c.uniqueKey && !b) := by
    intro l' h1 h2
    refine ⟨?_, ?_⟩
    · cases uc <;> exact h1
    · have : inlineUnique (stripRemarks uc l') = decide ((newConstraints c a b).bind (·.unique) = some true) := by
        unfold inlineUnique
        rw [← h2]
        cases uc <;> rfl
      rw [this]
      unfold newConstraints
      cases c.notNull <;> cases c.primaryKey <;> cases a <;> cases c.uniqueKey <;> cases b <;> decide
  by_cases hv : c.defaultValue ≠ []
  · rw [if_pos hv] at hl
    obtain ⟨dv, hd, rfl⟩ := Option.map_eq_some_iff.1 hl
    obtain ⟨h1, h2⟩ := hu { name := c.name, type := getLiquibaseType c, autoIncrement := if c.autoIncremental then some true else none,
                                  constraints := newConstraints c a b, remarks := c.description, default := dv } rfl rfl
    refine ⟨h1, h2, fun _ => ?_⟩
    rw [hd]
    cases uc <;> rfl
  · rw [if_neg hv] at hl
    obtain ⟨h1, h2⟩ := hu l (by rw [← Option.some.inj hl]) (by rw [← Option.some.inj hl])
    exact ⟨h1, h2, fun h => absurd h hv⟩

theorem createColumns_parts {pf : Str → Option Str} {t : Table} {uc : Bool} {lcs : List LqColumn}
    (h : createColumns pf t uc = some lcs) :
    List.Forall₂ (fun c lc => lc.name = c.name ∧
      inlineUnique lc = (c.uniqueKey && !decide (t.uniqueKeyNameSet.size > 1)) ∧
      (c.defaultValue ≠ [] → newLqDefaultValue pf c = some lc.default)) t.columns lcs := by
  unfold createColumns at h
  generalize decide (t.primaryKeyNameSet.size > 1) = a at h
  generalize decide (t.uniqueKeyNameSet.size > 1) = b at h ⊢
  generalize t.columns = cs at h ⊢
  induction cs generalizing lcs with
  | nil => cases h; exact .nil
  | cons c cs ih =>
    rw [List.mapM_cons] at h
    cases h1 : (newLqColumn pf c a b).map (stripRemarks uc) with
    | none => rw [h1] at h; cases h
    | some lc =>
      rw [h1] at h
      cases h2 : List.mapM (fun c => (newLqColumn pf c a b).map (stripRemarks uc)) cs with
      | none => rw [h2] at h; cases h
      | some r =>
        rw [h2] at h
        cases h
        exact .cons (newLqColumn_parts h1) (ih h2)

/-- A table that the changelog builds meets the conditions. -/
theorem buildable_of_runs {env : LqEnv} {sys : Str → Prop} {pf : Str → Option Str} {suffix : Str} {uc : Bool} {t : Table}
    {lcs : List LqColumn} {T : DbTable LqAttr} (hc : createColumns pf t uc = some lcs)
    (hr : TRuns (createTOps env suffix t lcs) emptyTable T) (hT : HoldsTable sys uc env.listed suffix t T) :
    Buildable env pf suffix t := by
  have hf := createColumns_parts hc
  unfold createTOps at hr
  obtain ⟨T1, hA, hr1⟩ := tRuns_split hr
  obtain ⟨T2, hB, hr2⟩ := tRuns_split hr1
  obtain ⟨T3, hC, hr3⟩ := tRuns_split hr2
  obtain ⟨T4, hD, hE⟩ := tRuns_split hr3
  obtain ⟨hnd, _, hcols, _⟩ := adds_tRuns (fun lc : LqColumn => lc.name) lqColumnAttr hA
  have hnames : t.columns.map (·.name) = lcs.map (·.name) := forall₂_map hf (fun _ _ h => h.1.symm)
  have hn : (t.columns.map (·.name)).Nodup := hnames ▸ hnd
  -- the last statements
  have hE' : T.pk = T4.pk ∧ (t.uniqueKeyNameSet.size ≥ 1 ∧
      ¬(decide (t.uniqueKeyNameSet.size = 1) && !env.listed) = true → T4.uniques (t.name ++ suffix) = none ∧
        T.uniques (t.name ++ suffix) = some fun n => n ∈ listed (t.uniqueKeyNameSet.joinKeys ", "ₛ)) := by
    by_cases hcond : t.uniqueKeyNameSet.size ≥ 1 ∧ ¬(decide (t.uniqueKeyNameSet.size = 1) && !env.listed) = true
    · rw [if_pos hcond] at hE
      obtain ⟨_, ⟨h1, _, rfl⟩, rfl⟩ := hE
      exact ⟨rfl, fun _ => ⟨h1, upd_same _ _ _⟩⟩
    · rw [if_neg hcond] at hE
      cases hE
      exact ⟨rfl, fun h => absurd h hcond⟩
  have hD' : T4.uniques = T3.uniques ∧ (t.primaryKeyNameSet.size ≥ 2 →
      T4.pk = fun n => n ∈ listed (t.primaryKeyNameSet.joinKeys ", "ₛ)) := by
    by_cases hsz : t.primaryKeyNameSet.size ≥ 2
    · rw [if_pos hsz] at hD
      obtain ⟨_, ⟨_, _, rfl⟩, h2⟩ := hD
      obtain ⟨h3, h4⟩ := modifies_same (fun n : Str => n) (fun _ (g : LqAttr) => { g with notNull := true }) h2
      exact ⟨h4, fun _ => h3⟩
    · rw [if_neg hsz] at hD
      cases hD
      exact ⟨rfl, fun h => absurd h hsz⟩
  have hcond : (env.listed = true ∨ ∃ a b, a ≠ b ∧ uqNames t a ∧ uqNames t b) → (∃ n, uqNames t n) →
      t.uniqueKeyNameSet.size ≥ 1 ∧ ¬(decide (t.uniqueKeyNameSet.size = 1) && !env.listed) = true := by
    rintro h ⟨n, hn⟩
    refine ⟨List.length_pos_iff_exists_mem.2 ⟨n, mem_uniqueKeyNameSet.2 hn⟩, ?_⟩
    rcases h with h | ⟨a, b, hab, ha, hb⟩
    · rw [h]; simp
    · have := size_of_two hab (mem_uniqueKeyNameSet.2 ha) (mem_uniqueKeyNameSet.2 hb)
      rw [decide_eq_false (by omega)]; simp
  refine ⟨hn, ?_, ?_, ?_, ?_⟩
  · -- defaults
    intro c hcm hv
    obtain ⟨lc, hlc, h1, _, h3⟩ := forall₂_left hf hcm
    have hkeep : ∀ o ∈ (if lcs.any inlinePk then
          [TOp.addPrimaryKey fun m => ∃ lc ∈ lcs, inlinePk lc = true ∧ lc.name = m] else []) ++
        ((lcs.filter inlineUnique).map (fun lc => .createUnique (env.sysName t.name lc.name) fun m => m = lc.name) ++
        ((if t.primaryKeyNameSet.size ≥ 2 then
          lqTableOps env (.addPrimaryKey t.name (t.primaryKeyNameSet.joinKeys ", "ₛ)) else []) ++
        (if t.uniqueKeyNameSet.size ≥ 1 ∧ ¬(decide (t.uniqueKeyNameSet.size = 1) && !env.listed) = true then
          [TOp.createUnique (t.name ++ suffix) fun n => n ∈ listed (t.uniqueKeyNameSet.joinKeys ", "ₛ)] else []))),
        KeepsDefaults o := by
      intro o ho
      rcases List.mem_append.1 ho with ho | ho
      · split at ho
        · rw [List.mem_singleton.1 ho]; trivial
        · cases ho
      rcases List.mem_append.1 ho with ho | ho
      · obtain ⟨_, _, rfl⟩ := List.mem_map.1 ho; trivial
      rcases List.mem_append.1 ho with ho | ho
      · split at ho
        · rcases List.mem_cons.1 ho with rfl | ho
          · trivial
          · obtain ⟨_, _, rfl⟩ := List.mem_map.1 ho
            intro g; rfl
        · cases ho
      · split at ho
        · rw [List.mem_singleton.1 ho]; trivial
        · cases ho
    have h4 := keeps_tRuns hkeep hr1 c.name
    rw [hT.cols, (columnNamed_eq_some hn).2 ⟨hcm, rfl⟩, ← h1, hcols lc hlc] at h4
    have h5 : defaultMeaning c.defaultValue = givenDefault lc.default := Option.some.inj h4
    exact (newLqDefaultValue_iff hv).1 ⟨_, h3 hv, h5.symm⟩ hv
  · -- key
    rintro ⟨a, b, hab, ha, hb⟩ n hn'
    have hsz := size_of_two hab (mem_primaryKeyNameSet.2 ha) (mem_primaryKeyNameSet.2 hb)
    have := (hT.pk n).2 hn'
    rw [hE'.1, hD'.2 hsz] at this
    exact clean_of_listed this
  · -- unique
    intro h n hn'
    have h1 := (hE'.2 (hcond h ⟨n, hn'⟩)).2
    obtain ⟨_, h2, _⟩ := hT.only _ _ h1
    rw [← h2] at hn'
    exact clean_of_listed hn'
  · -- free
    intro hl n hn' e
    obtain ⟨c, hcm, hu, rfl⟩ := (hn' n).2 rfl
    have h1 := (hE'.2 (hcond (Or.inl hl) ⟨c.name, c, hcm, hu, rfl⟩)).1
    rw [hD'.1] at h1
    obtain ⟨lc, hlc, h2, h3, _⟩ := forall₂_left hf hcm
    have hsz : ¬t.uniqueKeyNameSet.size > 1 := by
      intro h
      obtain ⟨a, b, hab, ha, hb⟩ := two_of_size h (nodup_uniqueKeyNameSet t)
      exact hab (((hn' a).1 (mem_uniqueKeyNameSet.1 ha)).trans ((hn' b).1 (mem_uniqueKeyNameSet.1 hb)).symm)
    have h4 : lc ∈ lcs.filter inlineUnique := List.mem_filter.2 ⟨hlc, by rw [h3, hu, decide_eq_false hsz]; rfl⟩
    have h5 := createUniques_some (fun lc : LqColumn => env.sysName t.name lc.name) (fun lc m => m = lc.name) hC
      (n := t.name ++ suffix) (Or.inr ⟨lc, h4, by rw [h2]; exact e⟩)
    rw [h1] at h5
    cases h5

/-! ### The whole changelog -/

/-- Running the generated changelog on an empty database succeeds and leaves the selected tables exactly
if these meet the conditions. -/
theorem lq_create_iff (env : LqEnv) (pf : Str → Option Str) (opt : GenOption) (schema : Schema) :
    (∃ sets, generateAll pf opt schema = some sets ∧ ∃ d', Runs (changelogOps env sets) (fun _ => none) d' ∧
      HoldsDb env.system opt.useComments env.listed opt.uniqueNameSuffix (schema.tables.filter (passes opt.tableFilter)) d') ↔
    ((schema.tables.filter (passes opt.tableFilter)).map (·.name)).Nodup ∧
      ∀ t ∈ schema.tables.filter (passes opt.tableFilter), Buildable env pf opt.uniqueNameSuffix t := by
  rw [generateAll_eq]
  generalize schema.tables.filter (passes opt.tableFilter) = ts
  constructor
  · rintro ⟨sets, hs, d', hr, hd⟩
    obtain ⟨pss, hp, rfl⟩ := Option.map_eq_some_iff.1 hs
    rw [changelogOps_number] at hr
    have hp' : List.Forall₂ (fun t ps => createSets pf opt.uniqueNameSuffix opt.useComments t = some ps) ts pss := by
      clear hd hr hs
      induction ts generalizing pss with
      | nil => cases hp; exact .nil
      | cons t ts ih =>
        rw [List.mapM_cons] at hp
        cases h1 : createSets pf opt.uniqueNameSuffix opt.useComments t with
        | none => rw [h1] at hp; cases hp
        | some ps =>
          rw [h1] at hp
          cases h2 : List.mapM (createSets pf opt.uniqueNameSuffix opt.useComments) ts with
          | none => rw [h2] at hp; cases hp
          | some r =>
            rw [h2] at hp
            cases hp
            exact .cons h1 (ih _ h2)
    have hops : pss.flatMap (setsOps env) = ts.flatMap (fun t =>
        setsOps env ((createSets pf opt.uniqueNameSuffix opt.useComments t).getD [])) := by
      clear hd hr hs hp
      induction hp' with
      | nil => rfl
      | cons h1 _ ih => rw [List.flatMap_cons, List.flatMap_cons, ih, h1]; rfl
    rw [hops] at hr
    obtain ⟨h1, h2, _⟩ := creates_runs (fun t : Table => t.name) (fun t T => ∃ lcs,
        createColumns pf t opt.useComments = some lcs ∧ TRuns (createTOps env opt.uniqueNameSuffix t lcs) emptyTable T)
      (fun t => setsOps env ((createSets pf opt.uniqueNameSuffix opt.useComments t).getD [])) (by
        intro t ht e e' h
        obtain ⟨ps, _, h3⟩ := forall₂_left hp' ht
        rw [h3, Option.getD_some] at h
        obtain ⟨lcs, h4, h5⟩ := Option.map_eq_some_iff.1 h3
        rw [← h5, setsOps_create] at h
        obtain ⟨h6, T, h7, h8⟩ := runs_make h
        exact ⟨h6, T, ⟨lcs, h4, h7⟩, h8⟩) hr
    refine ⟨h1, fun t ht => ?_⟩
    obtain ⟨_, T, ⟨lcs, h3, h4⟩, h5⟩ := h2 t ht
    obtain ⟨T', h6, h7⟩ := hd.1 t ht
    rw [h5] at h6
    cases h6
    exact buildable_of_runs h3 h4 h7
  · rintro ⟨hnd, hb⟩
    have hcr : ∀ t ∈ ts, ∃ ps, createSets pf opt.uniqueNameSuffix opt.useComments t = some ps ∧ ∃ T,
        HoldsTable env.system opt.useComments env.listed opt.uniqueNameSuffix t T ∧
        ∀ d, d t.name = none → Runs (setsOps env ps) d (upd d t.name (some T)) := fun t ht =>
      runs_buildable env env.system pf opt.uniqueNameSuffix opt.useComments t (hb t ht) (fun _ c _ => ⟨t.name, c.name, rfl⟩)
    obtain ⟨cs, hcs, hcsOps⟩ : ∃ cs, ts.mapM (createSets pf opt.uniqueNameSuffix opt.useComments) = some cs ∧
        cs.flatMap (setsOps env) = ts.flatMap (fun t =>
          setsOps env ((createSets pf opt.uniqueNameSuffix opt.useComments t).getD [])) := by
      have : ∀ t ∈ ts, ∃ ps, createSets pf opt.uniqueNameSuffix opt.useComments t = some ps :=
        fun t ht => (hcr t ht).imp fun _ h => h.1
      clear * - this
      induction ts with
      | nil => exact ⟨[], rfl, rfl⟩
      | cons e l ih =>
        obtain ⟨ks, h1, h2⟩ := ih (fun q hq => this q (List.mem_cons_of_mem _ hq))
        obtain ⟨ps, h3⟩ := this e List.mem_cons_self
        refine ⟨ps :: ks, by rw [List.mapM_cons, h3, h1]; rfl, ?_⟩
        rw [List.flatMap_cons, h2, List.flatMap_cons, h3]; rfl
    refine ⟨_, by rw [hcs]; rfl, ?_⟩
    rw [changelogOps_number, hcsOps]
    have hex : ∀ t, ∃ T : DbTable LqAttr, t ∈ ts →
        HoldsTable env.system opt.useComments env.listed opt.uniqueNameSuffix t T ∧
        ∀ d, d t.name = none → Runs (setsOps env ((createSets pf opt.uniqueNameSuffix opt.useComments t).getD [])) d
          (upd d t.name (some T)) := by
      intro t
      by_cases ht : t ∈ ts
      · obtain ⟨ps, h1, T, h2, h3⟩ := hcr t ht
        exact ⟨T, fun _ => ⟨h2, by rw [h1]; exact h3⟩⟩
      · exact ⟨emptyTable, fun h => absurd h ht⟩
    choose T hT using hex
    obtain ⟨d', h1, h2, h3⟩ := runs_creates (fun t : Table => t.name) T
      (fun t => setsOps env ((createSets pf opt.uniqueNameSuffix opt.useComments t).getD [])) ts
      (fun t ht => (hT t ht).2) hnd (fun _ => none) (fun _ _ => rfl)
    exact ⟨d', h1, fun t ht => ⟨T t, h2 t ht, (hT t ht).1⟩, h3⟩

end Octo.Lq
