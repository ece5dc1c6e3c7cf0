import Verif.Props.Liquibase
import Verif.Lemmas.LiquibaseExact

/-! Properties C39, C40 and C71: what Liquibase changelogs do to a database. -/

namespace Octo
open Lq Spec

/-- C39, restricted: for every database product, running the generated changelog on an empty database
succeeds and leaves exactly the selected tables.  Excluded are default values the generator does not
write as they are (functions, booleans other than true and false, numbers that do not parse) and column
names with commas or surrounding spaces; the names given by the database must not collide with the
constraints named by the changelog. -/
theorem C39_builds_partial (env : LqEnv) (pf : Str → Option Str) (opt : GenOption) (schema : Schema)
    (hnd : ((schema.tables.filter (passes opt.tableFilter)).map (·.name)).Nodup)
    (hclean : ∀ t ∈ schema.tables.filter (passes opt.tableFilter), CleanTable pf t)
    (hno : ∀ t ∈ schema.tables, ¬env.system (t.name ++ opt.uniqueNameSuffix)) :
    ∃ sets, generateAll pf opt schema = some sets ∧ ∃ d', Runs (changelogOps env sets) (fun _ => none) d' ∧
      HoldsDb env.system opt.useComments env.listed opt.uniqueNameSuffix (schema.tables.filter (passes opt.tableFilter)) d' := by
  obtain ⟨sets, h1, d', h2, h3, _⟩ := lq_create env env.system pf opt schema hnd hclean
    (fun t _ c _ => ⟨t.name, c.name, rfl⟩) (fun t ht => hno t (List.mem_filter.1 ht).1)
  exact ⟨sets, h1, d', h2, h3⟩

/-- C39, exactly: for every database product, running the generated changelog on an empty database succeeds
and leaves exactly the selected tables if and only if these have different names and each one has
different column names, default values that are written as they are, names that survive being listed where
they are listed, and a free name for its constraint. -/
theorem C39_exact (env : LqEnv) (pf : Str → Option Str) (opt : GenOption) (schema : Schema) :
    (∃ sets, generateAll pf opt schema = some sets ∧ ∃ d', Runs (changelogOps env sets) (fun _ => none) d' ∧
      HoldsDb env.system opt.useComments env.listed opt.uniqueNameSuffix (schema.tables.filter (passes opt.tableFilter)) d') ↔
    ((schema.tables.filter (passes opt.tableFilter)).map (·.name)).Nodup ∧
      ∀ t ∈ schema.tables.filter (passes opt.tableFilter), Buildable env pf opt.uniqueNameSuffix t :=
  lq_create_iff env pf opt schema

/-- C40, restricted: on products where changing a type keeps the other attributes, running the diff on a
database of the old schema succeeds and leaves the database of the new schema.  The corner cases that
are not handled are excluded by `SmoothChange`; no constraints with names given by the database may be
left on the tables whose unique columns change. -/
theorem C40_migrates_partial (env : LqEnv) (henv : ∀ g, env.onRetype g = g) (hlist : env.listed = true)
    (pf : Str → Option Str) (opt : DiffOption) (sched : Sched) (hs : sched.Fair) (hf : opt.tableFilter = none)
    (hfrom : DistinctNames opt.diffFrom) (hto : (opt.diffTo.tables.map (·.name)).Nodup)
    (hclean : ∀ t ∈ opt.diffTo.tables, CleanTable pf t)
    (hno : ∀ t ∈ opt.diffTo.tables, ¬env.system (t.name ++ opt.uniqueNameSuffix))
    (hsm : ∀ t ∈ opt.diffTo.tables, ∀ o ∈ opt.diffFrom.tables, o.name = t.name → SmoothChange env opt.useComments t o)
    (d0 : Db LqAttr) (h0 : HoldsDb env.system opt.useComments true opt.uniqueNameSuffix opt.diffFrom.tables d0)
    (h0o : ∀ t ∈ opt.diffTo.tables, ∀ o ∈ opt.diffFrom.tables, o.name = t.name → ¬SameUnique t o →
      ∀ T, d0 o.name = some T → ∀ k, k ≠ t.name ++ opt.uniqueNameSuffix → T.uniques k = none) :
    ∃ sets, generate pf opt sched = some sets ∧ ∃ d', Runs (changelogOps env sets) d0 d' ∧
      HoldsDb env.system opt.useComments true opt.uniqueNameSuffix opt.diffTo.tables d' :=
  lq_migrate env henv hlist env.system pf opt sched hs hf hfrom hto hclean (fun t _ c _ => ⟨t.name, c.name, rfl⟩) hno hsm
    d0 h0 h0o

/-- C71, restricted: the changelog of the old schema followed by the diff to the new schema builds the new
schema, provided tables whose unique columns change had more than one of them. -/
theorem C71_generate_then_diff_partial (env : LqEnv) (henv : ∀ g, env.onRetype g = g) (hlist : env.listed = true)
    (pf : Str → Option Str) (opt : DiffOption) (sched : Sched) (hs : sched.Fair) (hf : opt.tableFilter = none)
    (hfrom : (opt.diffFrom.tables.map (·.name)).Nodup) (hto : (opt.diffTo.tables.map (·.name)).Nodup)
    (hcleanFrom : ∀ t ∈ opt.diffFrom.tables, CleanTable pf t) (hcleanTo : ∀ t ∈ opt.diffTo.tables, CleanTable pf t)
    (hnoFrom : ∀ t ∈ opt.diffFrom.tables, ¬env.system (t.name ++ opt.uniqueNameSuffix))
    (hnoTo : ∀ t ∈ opt.diffTo.tables, ¬env.system (t.name ++ opt.uniqueNameSuffix))
    (hsm : ∀ t ∈ opt.diffTo.tables, ∀ o ∈ opt.diffFrom.tables, o.name = t.name → SmoothChange env opt.useComments t o)
    (hmany : ∀ t ∈ opt.diffTo.tables, ∀ o ∈ opt.diffFrom.tables, o.name = t.name → ¬SameUnique t o →
      ∃ a b, a ≠ b ∧ uqNames o a ∧ uqNames o b) :
    ∃ gen sets d', generateAll pf { uniqueNameSuffix := opt.uniqueNameSuffix, useComments := opt.useComments }
        opt.diffFrom = some gen ∧
      generate pf opt sched = some sets ∧ Runs (changelogOps env (gen ++ sets)) (fun _ => none) d' ∧
      HoldsDb env.system opt.useComments true opt.uniqueNameSuffix opt.diffTo.tables d' := by
  have hsel : opt.diffFrom.tables.filter (passes (none : Option (Table → Bool))) = opt.diffFrom.tables := by
    rw [List.filter_eq_self]; intro _ _; rfl
  obtain ⟨gen, hg, d1, hr1, hd1, hm⟩ := lq_create env env.system pf
    { uniqueNameSuffix := opt.uniqueNameSuffix, useComments := opt.useComments } opt.diffFrom
    (by dsimp only; rw [hsel]; exact hfrom) (by dsimp only; rw [hsel]; exact hcleanFrom)
    (fun t _ c _ => ⟨t.name, c.name, rfl⟩) (by dsimp only; rw [hsel]; exact hnoFrom)
  dsimp only at hd1 hm
  rw [hsel] at hd1 hm
  rw [hlist] at hd1
  obtain ⟨sets, hsets, d', hr2, hd2⟩ := lq_migrate env henv hlist env.system pf opt sched hs hf
    ⟨hfrom, fun t ht => (hcleanFrom t ht).1⟩ hto hcleanTo (fun t _ c _ => ⟨t.name, c.name, rfl⟩) hnoTo hsm d1 hd1 (by
      intro t ht o ho hn hsu T hT k hk
      refine hm o ho T hT ?_ k (hn ▸ hk)
      obtain ⟨a, b, hab, ha, hb⟩ := hmany t ht o ho hn hsu
      by_contra hle
      exact hab (size_le_one hle (mem_uniqueKeyNameSet.2 ha) (mem_uniqueKeyNameSet.2 hb)))
  refine ⟨gen, sets, d', hg, hsets, ?_, hd2⟩
  unfold changelogOps at hr1 hr2 ⊢
  rw [List.flatMap_append]
  exact runs_append hr1 hr2

/-! ### Violations -/

/-- A table without unique columns has a database. -/
theorem holds_exists (sys : Str → Prop) (uc named : Bool) (suffix : Str) (t : Table) (h : ¬HasUnique t) :
    ∃ d, HoldsDb sys uc named suffix [t] d := by
  refine ⟨upd (fun _ => none) t.name (some ⟨fun n => (columnNamed t n).map (lqAttrOf uc), pkNames t, fun _ => none⟩), ?_, ?_⟩
  · intro t' ht
    rw [List.mem_singleton.1 ht]
    refine ⟨_, if_pos rfl, ⟨fun _ => rfl, fun _ => Iff.rfl, fun hu => absurd hu h, fun _ hu => absurd hu h, ?_⟩⟩
    intro k s hs; cases hs
  · intro n hn
    refine if_neg ?_
    rintro rfl
    exact hn (by simp)

/-- C40 is violated: when a table gets its first unique column, no database of the old schema accepts the
changelog. -/
theorem C40_violated (env : LqEnv) : ∃ (opt : DiffOption) (sets : List LqChangeSet),
    generate some opt idSched = some sets ∧
    (∃ d0, HoldsDb env.system opt.useComments true opt.uniqueNameSuffix opt.diffFrom.tables d0) ∧
    ∀ d0, HoldsDb env.system opt.useComments true opt.uniqueNameSuffix opt.diffFrom.tables d0 →
      ¬∃ d', Runs (changelogOps env sets) d0 d' := by
  refine ⟨{ diffFrom := oneTable "t"ₛ [{ name := "a"ₛ, type := "int32"ₛ }]
            diffTo := oneTable "t"ₛ [{ name := "a"ₛ, type := "int32"ₛ, uniqueKey := true }]
            uniqueNameSuffix := "_uq"ₛ }, _, rfl, holds_exists _ _ _ _ _ (by unfold HasUnique; decide), ?_⟩
  rintro d0 h0 ⟨d', d1, ⟨T, T', hT, ⟨hu, _⟩, _⟩, _⟩
  obtain ⟨T0, h1, h2⟩ := h0.1 _ (List.mem_singleton.2 rfl)
  have : T = T0 := Option.some.inj (hT.symm.trans h1)
  subst this
  obtain ⟨s, hs⟩ := Option.isSome_iff_exists.1 hu
  obtain ⟨c, hc, hq⟩ := (h2.only _ _ hs).1
  rw [List.mem_singleton.1 hc] at hq
  cases hq

/-- C40 is violated: taking auto-increment away from a column has no effect. -/
theorem C40_violated_autoincrement (env : LqEnv) : ∃ (opt : DiffOption) (sets : List LqChangeSet),
    generate some opt idSched = some sets ∧
    (∃ d0, HoldsDb env.system opt.useComments true opt.uniqueNameSuffix opt.diffFrom.tables d0) ∧
    ∀ d0, HoldsDb env.system opt.useComments true opt.uniqueNameSuffix opt.diffFrom.tables d0 →
      ¬∃ d', Runs (changelogOps env sets) d0 d' ∧
        HoldsDb env.system opt.useComments true opt.uniqueNameSuffix opt.diffTo.tables d' := by
  refine ⟨{ diffFrom := oneTable "t"ₛ [{ name := "a"ₛ, type := "int32"ₛ, autoIncremental := true }]
            diffTo := oneTable "t"ₛ [{ name := "a"ₛ, type := "int32"ₛ }]
            uniqueNameSuffix := "_uq"ₛ }, _, rfl, holds_exists _ _ _ _ _ (by unfold HasUnique; decide), ?_⟩
  rintro d0 h0 ⟨d', hr, h3⟩
  have hd : d' = d0 := hr
  subst hd
  obtain ⟨T0, h1, h2⟩ := h0.1 _ (List.mem_singleton.2 rfl)
  obtain ⟨T1, h4, h5⟩ := h3.1 _ (List.mem_singleton.2 rfl)
  have : T1 = T0 := Option.some.inj (h4.symm.trans h1)
  subst this
  have h6 := (h2.cols "a"ₛ).symm.trans (h5.cols "a"ₛ)
  have h7 := congrArg (fun o : Option LqAttr => (o.map LqAttr.autoIncrement).getD true) h6
  revert h7
  decide

/-- C40 is violated: a column that leaves the primary key and becomes nullable at once is made nullable
while it still belongs to the key. -/
theorem C40_violated_key (env : LqEnv) : ∃ (opt : DiffOption) (sets : List LqChangeSet),
    generate some opt idSched = some sets ∧
    (∃ d0, HoldsDb env.system opt.useComments true opt.uniqueNameSuffix opt.diffFrom.tables d0) ∧
    ∀ d0, HoldsDb env.system opt.useComments true opt.uniqueNameSuffix opt.diffFrom.tables d0 →
      ¬∃ d', Runs (changelogOps env sets) d0 d' := by
  refine ⟨{ diffFrom := oneTable "t"ₛ [{ name := "a"ₛ, type := "int32"ₛ, primaryKey := true, notNull := true }]
            diffTo := oneTable "t"ₛ [{ name := "a"ₛ, type := "int32"ₛ }]
            uniqueNameSuffix := "_uq"ₛ }, _, rfl, holds_exists _ _ _ _ _ (by unfold HasUnique; decide), ?_⟩
  rintro d0 h0 ⟨d', d1, ⟨T, T', hT, ⟨hu, _⟩, _⟩, _⟩
  obtain ⟨T0, h1, h2⟩ := h0.1 _ (List.mem_singleton.2 rfl)
  have : T = T0 := Option.some.inj (hT.symm.trans h1)
  subst this
  exact hu ((h2.pk _).2 ⟨_, List.mem_singleton.2 rfl, rfl, rfl⟩)

/-- C39 is violated: there are schemas for which no changelog is generated at all. -/
theorem C39_violated (pf : Str → Option Str) (hpf : pf "fn::NOW"ₛ = none) :
    generateAll pf {} (oneTable "t"ₛ [{ name := "a"ₛ, type := "decimal"ₛ, defaultValue := "fn::NOW"ₛ }]) = none :=
  (C43_violated_function pf hpf).1

/-- C39 is violated: a changelog is generated for a text column whose default is a function, but whatever
the database product, it does not build the table: the default is the text of the function. -/
theorem C39_violated_function (env : LqEnv) (pf : Str → Option Str) :
    ∃ sets, generateAll pf {} (oneTable "t"ₛ [{ name := "a"ₛ, type := "varchar"ₛ, defaultValue := "fn::NOW"ₛ }]) = some sets ∧
      ¬∃ d', Runs (changelogOps env sets) (fun _ => none) d' ∧ HoldsDb env.system false env.listed []
        (oneTable "t"ₛ [{ name := "a"ₛ, type := "varchar"ₛ, defaultValue := "fn::NOW"ₛ }]).tables d' := by
  refine ⟨_, rfl, fun ⟨d', h1, h2⟩ => ?_⟩
  have := ((C39_exact env pf {} (oneTable "t"ₛ [{ name := "a"ₛ, type := "varchar"ₛ, defaultValue := "fn::NOW"ₛ }])).1 ⟨_, rfl, d', h1, h2⟩).2 _ (List.mem_singleton.2 rfl)
  have := (this.defaults _ (List.mem_singleton.2 rfl) (by decide)).1
  revert this
  decide

/-- C71 is violated: a table with one unique column has two constraints for it, one of them named by the
database.  When the column is no longer unique, the latter stays. -/
theorem C71_violated (sysName : Str → Str → Str) (onRename onRetype : LqAttr → LqAttr)
    (hsys : sysName "t"ₛ "a"ₛ ≠ "t_uq"ₛ) :
    ∃ (opt : DiffOption) (gen sets : List LqChangeSet),
      generateAll some { uniqueNameSuffix := opt.uniqueNameSuffix } opt.diffFrom = some gen ∧
      generate some opt idSched = some sets ∧
      ∀ d', Runs (changelogOps ⟨true, sysName, onRename, onRetype⟩ (gen ++ sets)) (fun _ => none) d' →
        ∃ T, d' "t"ₛ = some T ∧ (T.uniques (sysName "t"ₛ "a"ₛ)).isSome ∧ ∀ t ∈ opt.diffTo.tables, ¬HasUnique t := by
  refine ⟨{ diffFrom := oneTable "t"ₛ [{ name := "a"ₛ, type := "int32"ₛ, uniqueKey := true }]
            diffTo := oneTable "t"ₛ [{ name := "a"ₛ, type := "int32"ₛ }]
            uniqueNameSuffix := "_uq"ₛ }, _, _, rfl, rfl, ?_⟩
  rintro d' ⟨_, ⟨_, rfl⟩, _, ⟨T1, T1', h1, ⟨_, rfl⟩, rfl⟩, _, ⟨T2, T2', h2, ⟨_, _, rfl⟩, rfl⟩,
    _, ⟨T3, T3', h3, ⟨_, _, rfl⟩, rfl⟩, _, ⟨T4, T4', h4, ⟨_, rfl⟩, rfl⟩, rfl⟩
  refine ⟨_, if_pos rfl, ?_, by unfold HasUnique; decide⟩
  have e4 := Option.some.inj h4
  have e3 := Option.some.inj h3
  subst e4 e3
  show (upd (upd (upd T2.uniques (sysName "t"ₛ "a"ₛ) (some _)) "t_uq"ₛ _) "t_uq"ₛ none (sysName "t"ₛ "a"ₛ)).isSome = true
  unfold upd
  rw [if_neg hsys, if_neg hsys, if_pos rfl]
  rfl

/-! ### Examples -/

/-- A product that names constraints after the table and the column. -/
def demoEnv : LqEnv := ⟨true, fun t c => t ++ "_"ₛ ++ c ++ "_key"ₛ, id, id⟩

theorem demoEnv_system (n : Str) : ¬demoEnv.system (n ++ "_uq"ₛ) := by
  rintro ⟨a, b, h⟩
  have := congrArg (fun l => l.reverse.head?) h
  simp [demoEnv] at this

/-- A sufficient condition that can be evaluated. -/
def plainColumn (c : Column) : Bool :=
  decide (',' ∉ c.name ∧ trimSpace c.name = c.name) &&
  (decide (c.defaultValue = []) ||
    (decide (hasPrefix c.defaultValue "fn::"ₛ = false) &&
     (decide (lower c.type ∉ ["bool"ₛ, "boolean"ₛ]) || decide (c.defaultValue ∈ ["true"ₛ, "false"ₛ])) &&
     decide (lower c.type ∉ ["long"ₛ, "bigint"ₛ, "int"ₛ, "smallint"ₛ])))

theorem cleanTable_of {t : Table} (h1 : (t.columns.map (·.name)).Nodup) (h2 : ∀ c ∈ t.columns, plainColumn c = true) :
    CleanTable some t := by
  refine ⟨h1, fun c hc => ?_⟩
  have h := h2 c hc
  unfold plainColumn at h
  simp only [Bool.and_eq_true, Bool.or_eq_true, decide_eq_true_eq] at h
  refine ⟨h.1, fun hv => ?_⟩
  rcases h.2 with e | ⟨⟨e1, e2⟩, e3⟩
  · exact absurd e hv
  · exact ⟨e1, fun hb => e2.resolve_left (fun e => e hb), fun hi => absurd hi e3, fun _ => rfl⟩

theorem lqDemo_clean : ∀ t ∈ lqDemo.tables, CleanTable some t := by
  have h : ∀ t ∈ lqDemo.tables, (t.columns.map (·.name)).Nodup ∧ ∀ c ∈ t.columns, plainColumn c = true := by decide +kernel
  exact fun t ht => cleanTable_of (h t ht).1 (h t ht).2

/-- The example meets the conditions of `C39_exact`; so does a column whose name could not be listed, as long
as it is the only one of its key. -/
example : (lqDemo.tables.map (·.name)).Nodup ∧ (∀ t ∈ lqDemo.tables, Buildable demoEnv some "_uq"ₛ t) ∧
    Buildable demoEnv some "_uq"ₛ { name := "t"ₛ, columns := [{ name := "a,b"ₛ, type := "int32"ₛ, primaryKey := true }] } := by
  refine ⟨by decide, fun t ht => buildable_of_clean (sys := demoEnv.system) (lqDemo_clean t ht)
    (fun _ c _ => ⟨t.name, c.name, rfl⟩) (demoEnv_system t.name), ?_⟩
  refine ⟨by decide, fun c hc hv => ?_, ?_, ?_, ?_⟩
  · rw [List.mem_singleton.1 hc] at hv; exact absurd rfl hv
  · rintro ⟨a, b, hab, ⟨c, hc, _, rfl⟩, ⟨c', hc', _, rfl⟩⟩
    rw [List.mem_singleton.1 hc, List.mem_singleton.1 hc'] at hab
    exact absurd rfl hab
  · rintro _ n ⟨c, hc, hu, _⟩
    rw [List.mem_singleton.1 hc] at hu
    cases hu
  · intro _ n hn
    obtain ⟨c, hc, hu, _⟩ := (hn n).2 rfl
    rw [List.mem_singleton.1 hc] at hu
    cases hu

/-- A later version of the example with the same unique columns: types and defaults change, columns are
added and renamed, a table goes and one comes. -/
def lqDemo3 : Schema :=
  { author := "me"ₛ
    tables := [
      { name := "user"ₛ, columns := [
        { name := "uid"ₛ, type := "int64"ₛ, primaryKey := true, notNull := true, autoIncremental := true },
        { name := "age"ₛ, type := "int32"ₛ, defaultValue := "1"ₛ },
        { name := "name"ₛ, type := "varchar"ₛ, size := 80, uniqueKey := true, notNull := true },
        { name := "active"ₛ, type := "boolean"ₛ, defaultValue := "false"ₛ }] },
      { name := "team"ₛ, columns := [{ name := "id"ₛ, type := "int64"ₛ, primaryKey := true }] }] }

theorem lqDemo3_clean : ∀ t ∈ lqDemo3.tables, CleanTable some t := by
  have h : ∀ t ∈ lqDemo3.tables, (t.columns.map (·.name)).Nodup ∧ ∀ c ∈ t.columns, plainColumn c = true := by decide +kernel
  exact fun t ht => cleanTable_of (h t ht).1 (h t ht).2

theorem lqDemo3_smooth : ∀ t ∈ lqDemo3.tables, ∀ o ∈ lqDemo.tables, o.name = t.name → SmoothChange demoEnv false t o := by
  have h1 : ∀ t ∈ lqDemo3.tables, ∀ o ∈ lqDemo.tables, o.name = t.name →
      (∀ c ∈ t.columns, c.primaryKey = true → c.notNull = true) ∧
      (∀ b ∈ o.columns, b.primaryKey = true → b.notNull = true) ∧
      (∀ c ∈ t.columns, ∀ b ∈ o.columns, c.name = b.name → b.primaryKey = true → c.notNull = true) ∧
      (∀ c ∈ t.columns, ∀ b ∈ o.columns, c.name = b.name → b.autoIncremental = true → c.autoIncremental = true) ∧
      (∃ c ∈ o.columns, c.uniqueKey = true) ∧
      ∃ b ∈ o.columns, b.primaryKey = true ∧ (b.name ∈ t.columns.map (·.name) ∨
        ((o.columns.filter (fun c => decide (c.name ∉ t.columns.map (·.name)))).map (shapeKey false)).count (shapeKey false b) ≤
        ((t.columns.filter (fun c => decide (c.name ∉ o.columns.map (·.name)))).map (shapeKey false)).count (shapeKey false b)) := by
    decide +kernel
  intro t ht o ho hn
  obtain ⟨h2, h3, h4, h5, h6, h7⟩ := h1 t ht o ho hn
  exact ⟨h2, h3, h4, h5, fun _ => h6, Or.inr (Or.inr h7), fun _ _ _ => Or.inl rfl⟩

/-- The example meets the hypotheses of `C71_generate_then_diff_partial` (and so of `C39_builds_partial` and
`C40_migrates_partial`, which it is derived from). -/
example : ∃ gen sets d', generateAll some { uniqueNameSuffix := "_uq"ₛ } lqDemo = some gen ∧
    generate some { diffFrom := lqDemo, diffTo := lqDemo3, uniqueNameSuffix := "_uq"ₛ } idSched = some sets ∧
    Runs (changelogOps demoEnv (gen ++ sets)) (fun _ => none) d' ∧
    HoldsDb demoEnv.system false true "_uq"ₛ lqDemo3.tables d' := by
  refine C71_generate_then_diff_partial demoEnv (fun _ => rfl) rfl some
    { diffFrom := lqDemo, diffTo := lqDemo3, uniqueNameSuffix := "_uq"ₛ } idSched idSched_fair rfl (by decide) (by decide)
    lqDemo_clean lqDemo3_clean (fun t _ => demoEnv_system t.name) (fun t _ => demoEnv_system t.name) lqDemo3_smooth ?_
  intro t ht o ho hn hsu
  exfalso
  apply hsu
  have hu : ∀ t ∈ lqDemo3.tables, ∀ o ∈ lqDemo.tables, o.name = t.name →
      uniqueChanged t o = false := by decide +kernel
  exact (uniqueChanged_iff t o).1 (hu t ht o ho hn)

/-- C39: the demo on an empty database. -/
example := C39_builds_partial demoEnv some { uniqueNameSuffix := "_uq"ₛ } lqDemo (by decide)
  (fun t ht => lqDemo_clean t (List.mem_filter.1 ht).1) (fun t _ => demoEnv_system t.name)

example := C39_violated (fun _ => none) rfl

end Octo
