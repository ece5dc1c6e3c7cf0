import Verif.Lemmas.LqUniqueMoves
import Verif.Props.LqHistory

/-! Property C40, exactly: which changes a Liquibase diff carries over to a database; property C141 for the histories made of them. -/

namespace Octo
open Spec Lq

/-- C40, exactly, for every database product: running the diff on a database of the old version leaves the
database of the new one if and only if every table that is in both versions meets the conditions of
`LqTableMoves`, and those of `UniqueMoves` when its unique columns change while the database has further
constraints on them.  The conditions do not depend on the order in which maps are iterated over. -/
theorem C40_exact (env : LqEnv) (hlist : env.listed = true) (pf : Str → Option Str) (opt : DiffOption) (sched : Sched)
    (hs : sched.Fair) (hf : opt.tableFilter = none) (hfrom : DistinctNames opt.diffFrom)
    (hto : (opt.diffTo.tables.map (·.name)).Nodup) (hclean : ∀ t ∈ opt.diffTo.tables, CleanTable pf t)
    (hno : ∀ t ∈ opt.diffTo.tables, ¬env.system (t.name ++ opt.uniqueNameSuffix))
    (d0 : Db LqAttr) (h0 : HoldsDb env.system opt.useComments true opt.uniqueNameSuffix opt.diffFrom.tables d0) :
    (∃ sets, generate pf opt sched = some sets ∧ ∃ d', Runs (changelogOps env sets) d0 d' ∧
      HoldsDb env.system opt.useComments true opt.uniqueNameSuffix opt.diffTo.tables d') ↔
    ∀ t ∈ opt.diffTo.tables, ∀ o ∈ opt.diffFrom.tables, o.name = t.name → LqTableMoves env opt.useComments t o ∧
      (¬SameUnique t o → ∀ T, d0 o.name = some T → (∃ k, k ≠ t.name ++ opt.uniqueNameSuffix ∧ (T.uniques k).isSome) →
        UniqueMoves opt.useComments t o) :=
  lq_moves env hlist env.system pf opt sched hs hf hfrom hto hclean (fun t _ c _ => ⟨t.name, c.name, rfl⟩) hno d0 h0

/-- On products that keep what a statement does not mention, the conditions are those of `PlainMoves`. -/
theorem moves_plain {env : LqEnv} (henv : env.Keeps) {uc : Bool} {t o : Table} (ht : (t.columns.map (·.name)).Nodup)
    (ho : (o.columns.map (·.name)).Nodup) : LqTableMoves env uc t o ↔ PlainMoves uc t o := by
  classical
  have hret : ∀ c b, retyped env uc c b = lqAttrOf uc b := by
    intro c b; unfold retyped; split
    · rfl
    · exact henv.retype _
  constructor
  · intro h
    refine ⟨?_, ?_, h.firstUnique, h.key⟩
    · intro c hc b hb e hp
      have m := h.columns c hc b hb e (decide (SameKey t o)) (by simp)
      cases hcn : c.notNull with
      | true => exact Or.inl rfl
      | false =>
        have hbn : b.notNull = false := by
          cases hbn : b.notNull
          · rfl
          · rw [m.leave hbn hcn] at hp; cases hp
        refine Or.inr ⟨hbn, ?_⟩
        have := m.notNull (hcn.trans hbn.symm)
        rw [hret, hcn] at this
        simp only [lqAttrOf, hp, Bool.or_true, Bool.true_or, Bool.false_or] at this
        exact this.symm
    · intro c hc b hb e ha
      have m := (h.columns c hc b hb e (decide (SameKey t o)) (by simp)).autoIncrement
      rw [hret] at m
      simp only [lqAttrOf, ha, Bool.true_or] at m
      exact m.symm
  · intro h
    refine ⟨?_, ?_, h.firstUnique, h.key⟩
    · intro c hc b hb e k hk
      refine ⟨?_, ?_, ?_, ?_, ?_⟩
      · intro hbn hcn
        cases hp : b.primaryKey
        · rfl
        · rcases h.leaveKey c hc b hb e hp with h1 | ⟨h1, _⟩
          · rw [hcn] at h1; cases h1
          · rw [hbn] at h1; cases h1
      · intro hcb
        rw [hret, hcb]
        simp only [lqAttrOf]
        cases hbn : b.notNull with
        | true => simp
        | false =>
          simp only [Bool.false_or]
          cases hp : b.primaryKey with
          | true =>
            rcases h.leaveKey c hc b hb e hp with h1 | ⟨_, h1⟩
            · rw [hcb, hbn] at h1; cases h1
            · rw [h1]; simp
          | false =>
            cases hcp : c.primaryKey with
            | false => rfl
            | true =>
              cases k with
              | false => rfl
              | true =>
                have h7 := (hk.1 rfl c.name).1 ((pk_names_iff ht hc).2 hcp)
                rw [e] at h7
                have h8 := (pk_names_iff ho hb).1 h7
                rw [hp] at h8; cases h8
      · rw [hret]
        simp only [lqAttrOf]
        cases hb' : b.autoIncremental with
        | true => rw [h.autoIncrement c hc b hb e hb']; rfl
        | false => simp
      · intro hd; rw [hret, hd]; rfl
      · intro hd
        rw [hret]
        simp only [lqAttrOf]
        cases uc with
        | false => rfl
        | true => rw [hd rfl]
    · intro c b _
      rcases henv.rename (lqAttrOf uc b) with h1 | h1
      · refine ⟨by rw [h1]; rfl, fun h => ?_, by rw [h1]; rfl, by rw [h1]; rfl, by rw [h1]; rfl⟩
        rw [h1] at h
        simpa [lqAttrOf] using h
      · refine ⟨by rw [h1]; rfl, fun h => ?_, by rw [h1]; rfl, by rw [h1]; rfl, by rw [h1]; rfl⟩
        rw [h1] at h; cases h

/-- C40, exactly, for products that keep what a statement does not mention: auto-increment is not taken away, columns of
the old key stay not null or in the key, no table gets its first unique column, and a column of an old key that
changes is left. -/
theorem C40_exact_plain (env : LqEnv) (henv : env.Keeps) (hlist : env.listed = true) (pf : Str → Option Str) (opt : DiffOption)
    (sched : Sched) (hs : sched.Fair) (hf : opt.tableFilter = none) (hfrom : DistinctNames opt.diffFrom)
    (hto : (opt.diffTo.tables.map (·.name)).Nodup) (hclean : ∀ t ∈ opt.diffTo.tables, CleanTable pf t)
    (hno : ∀ t ∈ opt.diffTo.tables, ¬env.system (t.name ++ opt.uniqueNameSuffix))
    (d0 : Db LqAttr) (h0 : HoldsDb env.system opt.useComments true opt.uniqueNameSuffix opt.diffFrom.tables d0) :
    (∃ sets, generate pf opt sched = some sets ∧ ∃ d', Runs (changelogOps env sets) d0 d' ∧
      HoldsDb env.system opt.useComments true opt.uniqueNameSuffix opt.diffTo.tables d') ↔
    ∀ t ∈ opt.diffTo.tables, ∀ o ∈ opt.diffFrom.tables, o.name = t.name → PlainMoves opt.useComments t o ∧
      (¬SameUnique t o → ∀ T, d0 o.name = some T → (∃ k, k ≠ t.name ++ opt.uniqueNameSuffix ∧ (T.uniques k).isSome) →
        UniqueMoves opt.useComments t o) := by
  rw [C40_exact env hlist pf opt sched hs hf hfrom hto hclean hno d0 h0]
  exact forall₄_congr fun t ht o ho => forall_congr' fun _ =>
    and_congr (moves_plain henv (hclean t ht).1 (hfrom.2 o ho)) Iff.rfl

/-- C71, exactly, for every database product: the changelog of the old schema followed by the diff to the new
schema builds the new schema if and only if every table that is in both versions meets the conditions of
`LqTableMoves`, and those of `UniqueMoves` when its unique columns change and the old version has exactly
one. -/
theorem C71_exact (env : LqEnv) (hlist : env.listed = true)
    (pf : Str → Option Str) (opt : DiffOption) (sched : Sched) (hs : sched.Fair) (hf : opt.tableFilter = none)
    (hfrom : (opt.diffFrom.tables.map (·.name)).Nodup) (hto : (opt.diffTo.tables.map (·.name)).Nodup)
    (hcleanFrom : ∀ t ∈ opt.diffFrom.tables, CleanTable pf t) (hcleanTo : ∀ t ∈ opt.diffTo.tables, CleanTable pf t)
    (hnoFrom : ∀ t ∈ opt.diffFrom.tables, ¬env.system (t.name ++ opt.uniqueNameSuffix))
    (hnoTo : ∀ t ∈ opt.diffTo.tables, ¬env.system (t.name ++ opt.uniqueNameSuffix)) :
    (∃ gen sets d', generateAll pf { uniqueNameSuffix := opt.uniqueNameSuffix, useComments := opt.useComments }
        opt.diffFrom = some gen ∧
      generate pf opt sched = some sets ∧ Runs (changelogOps env (gen ++ sets)) (fun _ => none) d' ∧
      HoldsDb env.system opt.useComments true opt.uniqueNameSuffix opt.diffTo.tables d') ↔
    ∀ t ∈ opt.diffTo.tables, ∀ o ∈ opt.diffFrom.tables, o.name = t.name → LqTableMoves env opt.useComments t o ∧
      (¬SameUnique t o → (∃ n, ∀ m, uqNames o m ↔ m = n) → UniqueMoves opt.useComments t o) := by
  have hsel : opt.diffFrom.tables.filter (passes (none : Option (Table → Bool))) = opt.diffFrom.tables := by
    rw [List.filter_eq_self]; intro _ _; rfl
  obtain ⟨gen, hg, d1, hr1, hd1, hm⟩ := lq_create_more env env.system pf
    { uniqueNameSuffix := opt.uniqueNameSuffix, useComments := opt.useComments } opt.diffFrom
    (by dsimp only; rw [hsel]; exact hfrom) (by dsimp only; rw [hsel]; exact hcleanFrom)
    (fun t _ c _ => ⟨t.name, c.name, rfl⟩) (by dsimp only; rw [hsel]; exact hnoFrom)
  dsimp only at hd1 hm
  rw [hsel] at hd1 hm
  rw [hlist] at hd1
  have hex := C40_exact env hlist pf opt sched hs hf ⟨hfrom, fun t ht => (hcleanFrom t ht).1⟩ hto hcleanTo hnoTo d1 hd1
  have hone : ∀ t ∈ opt.diffTo.tables, ∀ o ∈ opt.diffFrom.tables, o.name = t.name → ∀ T, d1 o.name = some T →
      ((∃ k, k ≠ t.name ++ opt.uniqueNameSuffix ∧ (T.uniques k).isSome) ↔ ∃ n, ∀ m, uqNames o m ↔ m = n) := by
    intro t _ o ho hn T hT
    obtain ⟨m1, m2⟩ := hm o ho T hT
    rw [← hn]
    constructor
    · rintro ⟨k, hk, hs⟩
      have hsz : ¬o.uniqueKeyNameSet.size > 1 := by
        intro hsz
        rw [m1 hsz k hk] at hs; cases hs
      obtain ⟨T', hT', hh⟩ := hd1.1 o ho
      rw [hT] at hT'
      cases hT'
      obtain ⟨x, hx⟩ := Option.isSome_iff_exists.1 hs
      obtain ⟨⟨c, hc, hu⟩, _⟩ := hh.only k x hx
      refine ⟨c.name, fun m => ⟨fun h => ?_, fun h => ⟨c, hc, hu, h.symm⟩⟩⟩
      exact size_le_one hsz (mem_uniqueKeyNameSet.2 h) (mem_uniqueKeyNameSet.2 ⟨c, hc, hu, rfl⟩)
    · rintro ⟨n, h⟩
      obtain ⟨c, hc, hu, _⟩ := (h n).2 rfl
      refine m2 ⟨c, hc, hu⟩ ?_
      intro hsz
      obtain ⟨a, b, hab, ha, hb⟩ := two_of_size hsz (nodup_uniqueKeyNameSet o)
      exact hab (((h a).1 (mem_uniqueKeyNameSet.1 ha)).trans ((h b).1 (mem_uniqueKeyNameSet.1 hb)).symm)
  have hmid : (∃ gen sets d', generateAll pf { uniqueNameSuffix := opt.uniqueNameSuffix, useComments := opt.useComments }
        opt.diffFrom = some gen ∧
      generate pf opt sched = some sets ∧ Runs (changelogOps env (gen ++ sets)) (fun _ => none) d' ∧
      HoldsDb env.system opt.useComments true opt.uniqueNameSuffix opt.diffTo.tables d') ↔
      ∃ sets, generate pf opt sched = some sets ∧ ∃ d', Runs (changelogOps env sets) d1 d' ∧
        HoldsDb env.system opt.useComments true opt.uniqueNameSuffix opt.diffTo.tables d' := by
    unfold changelogOps at hr1 ⊢
    constructor
    · rintro ⟨gen', sets, d', h1, h2, h3, h4⟩
      rw [hg] at h1
      cases h1
      rw [List.flatMap_append] at h3
      obtain ⟨e, r1, r2⟩ := runs_split h3
      cases runs_unique r1 hr1
      exact ⟨sets, h2, d', r2, h4⟩
    · rintro ⟨sets, h2, d', r2, h4⟩
      refine ⟨gen, sets, d', hg, h2, ?_, h4⟩
      rw [List.flatMap_append]
      exact runs_append hr1 r2
  rw [hmid, hex]
  refine forall₄_congr fun t ht o ho => forall_congr' fun hn => and_congr Iff.rfl (forall_congr' fun _ => ?_)
  obtain ⟨T, hT, _⟩ := hd1.1 o ho
  constructor
  · intro h h1
    exact h T hT ((hone t ht o ho hn T hT).2 h1)
  · intro h T' hT' h1
    exact h ((hone t ht o ho hn T' hT').1 h1)

/-- C40 is violated on products where changing a type makes a column nullable, as `MODIFY` does in MySQL: a column that
is not null is nullable once its type has changed. -/
theorem C40_violated_retype (env : LqEnv) (hlist : env.listed = true) (hret : ∀ g, (env.onRetype g).notNull = false)
    (hno : ¬env.system "t_uq"ₛ) : ∃ opt : DiffOption,
    (∃ d0, HoldsDb env.system opt.useComments true opt.uniqueNameSuffix opt.diffFrom.tables d0) ∧
    ∀ d0, HoldsDb env.system opt.useComments true opt.uniqueNameSuffix opt.diffFrom.tables d0 →
      ¬∃ sets, generate some opt idSched = some sets ∧ ∃ d', Runs (changelogOps env sets) d0 d' ∧
        HoldsDb env.system opt.useComments true opt.uniqueNameSuffix opt.diffTo.tables d' := by
  refine ⟨{ diffFrom := oneTable "t"ₛ [{ name := "a"ₛ, type := "int32"ₛ, notNull := true }]
            diffTo := oneTable "t"ₛ [{ name := "a"ₛ, type := "int64"ₛ, notNull := true }]
            uniqueNameSuffix := "_uq"ₛ }, holds_exists _ _ _ _ _ (by unfold HasUnique; decide), ?_⟩
  intro d0 h0
  rw [C40_exact env hlist some _ idSched idSched_fair rfl (by unfold DistinctNames; decide) (by decide) ?_ ?_ d0 h0]
  · intro h
    have m := (h _ (List.mem_singleton.2 rfl) _ (List.mem_singleton.2 rfl) rfl).1
    have m := m.columns _ (List.mem_singleton.2 rfl) _ (List.mem_singleton.2 rfl) rfl true (by simp [SameKey, pkNames])
    have := m.notNull rfl
    rw [retyped, if_neg (by decide), hret] at this
    exact absurd this (by decide)
  · intro t ht
    rw [List.mem_singleton.1 ht]
    exact cleanTable_of (by decide) (by decide)
  · intro t ht
    rw [List.mem_singleton.1 ht]
    exact hno

/-! ### Histories -/

/-- C141 for every database product: a history of changes that the diff carries over. -/
theorem C141_moves_partial (env : LqEnv) (hlist : env.listed = true) (pf : Str → Option Str) (uc : Bool)
    (suffix : Str) : ∀ (rs : List Release) (s : Schema), DistinctNames s → MovingHistory env pf uc suffix s rs →
    ∀ d0, HoldsDb env.system uc true suffix s.tables d0 →
    ∃ ls, Logs pf uc suffix s rs ls ∧ ∃ d', Runs (changelogOps env ls.flatten) d0 d' ∧
      HoldsDb env.system uc true suffix (latest s rs).tables d'
  | [], s, _, _, d0, h0 => ⟨[], trivial, d0, rfl, h0⟩
  | r :: rs, s, hs, ⟨hf, hst, hrest⟩, d0, h0 => by
    obtain ⟨l, hl, d1, hr1, hd1⟩ := (C40_exact env hlist pf
      { diffFrom := s, diffTo := r.schema, author := r.author, uniqueNameSuffix := suffix, useComments := uc } r.sched hf rfl hs hst.names
      hst.clean hst.free d0 h0).2 (fun t ht o ho hn => ⟨hst.moves t ht o ho hn, fun hsu _ _ _ => hst.unique t ht o ho hn hsu⟩)
    obtain ⟨ls, hls, d', hr2, hd2⟩ := C141_moves_partial env hlist pf uc suffix rs r.schema
      ⟨hst.names, fun t ht => (hst.clean t ht).1⟩ hrest d1 hd1
    refine ⟨l :: ls, ⟨hl, hls⟩, d', ?_, hd2⟩
    rw [List.flatten_cons]
    unfold changelogOps at hr1 hr2 ⊢
    rw [List.flatMap_append]
    exact runs_append hr1 hr2

/-- C141: the way does not matter, on every database product. -/
theorem C141_moves_ways_partial (env : LqEnv) (hlist : env.listed = true) (pf : Str → Option Str) (uc : Bool)
    (suffix : Str) (rs rs' : List Release) (s : Schema) (hs : DistinctNames s) (h : MovingHistory env pf uc suffix s rs)
    (h' : MovingHistory env pf uc suffix s rs') (hl : (latest s rs).tables = (latest s rs').tables) (d0 : Db LqAttr)
    (h0 : HoldsDb env.system uc true suffix s.tables d0) :
    ∃ ls ls' d d', Logs pf uc suffix s rs ls ∧ Logs pf uc suffix s rs' ls' ∧ Runs (changelogOps env ls.flatten) d0 d ∧
      Runs (changelogOps env ls'.flatten) d0 d' ∧ SameLqDb env.system d d' := by
  obtain ⟨ls, a, d, b, c⟩ := C141_moves_partial env hlist pf uc suffix rs s hs h d0 h0
  obtain ⟨ls', a', d', b', c'⟩ := C141_moves_partial env hlist pf uc suffix rs' s hs h' d0 h0
  rw [← hl] at c'
  exact ⟨ls, ls', d, d', a, a', b, b', holdsDb_same c c'⟩

/-! ### Examples -/

theorem demoEnv_keeps : demoEnv.Keeps := ⟨fun _ => rfl, fun _ => Or.inl rfl⟩

theorem lqDemo3_moves : ∀ t ∈ lqDemo3.tables, ∀ o ∈ lqDemo.tables, o.name = t.name → LqTableMoves demoEnv false t o := by
  intro t ht o ho hn
  have hs := lqDemo3_smooth t ht o ho hn
  rw [moves_plain demoEnv_keeps (lqDemo3_clean t ht).1 (lqDemo_clean o ho).1]
  refine ⟨fun c hc b hb e hp => Or.inl (hs.leaveKey c hc b hb e hp), hs.autoIncrement, hs.firstUnique, ?_⟩
  have : ∀ t ∈ lqDemo3.tables, ∀ o ∈ lqDemo.tables, o.name = t.name → ∃ b ∈ o.columns, b.primaryKey = true ∧
      (b.name ∈ t.columns.map (·.name) ∨ ∃ c ∈ t.columns, c.name ∉ o.columns.map (·.name) ∧
        b.name ∉ t.columns.map (·.name) ∧ shapeKey false c = shapeKey false b) := by decide +kernel
  obtain ⟨b, hb, hp, h⟩ := this t ht o ho hn
  refine Or.inr (Or.inr ⟨b, hb, hp, h.imp_right ?_⟩)
  rintro ⟨c, h1, h2, h3, h4⟩
  exact ⟨c, h1, hb, h2, h3, (shapeKey_iff false c b).1 h4⟩

/-- C40_exact and C40_exact_plain: columns renamed, added and retyped, a table dropped and one created. -/
example (d0 : Db LqAttr) (h0 : HoldsDb demoEnv.system false true "_uq"ₛ lqDemo.tables d0) :
    ∃ sets, generate some { diffFrom := lqDemo, diffTo := lqDemo3, uniqueNameSuffix := "_uq"ₛ } idSched = some sets ∧
      ∃ d', Runs (changelogOps demoEnv sets) d0 d' ∧ HoldsDb demoEnv.system false true "_uq"ₛ lqDemo3.tables d' := by
  have hu : ∀ t ∈ lqDemo3.tables, ∀ o ∈ lqDemo.tables, o.name = t.name → uniqueChanged t o = false := by decide +kernel
  exact (C40_exact demoEnv rfl some { diffFrom := lqDemo, diffTo := lqDemo3, uniqueNameSuffix := "_uq"ₛ } idSched idSched_fair rfl
    ⟨by decide, fun t ht => (lqDemo_clean t ht).1⟩ (by decide) lqDemo3_clean (fun t _ => demoEnv_system t.name) d0 h0).2
    (fun t ht o ho hn => ⟨lqDemo3_moves t ht o ho hn, fun hsu => absurd ((uniqueChanged_iff t o).1 (hu t ht o ho hn)) hsu⟩)

/-- C71_exact on the same schemas. -/
example : ∃ gen sets d', generateAll some { uniqueNameSuffix := "_uq"ₛ, useComments := false } lqDemo = some gen ∧
    generate some { diffFrom := lqDemo, diffTo := lqDemo3, uniqueNameSuffix := "_uq"ₛ } idSched = some sets ∧
    Runs (changelogOps demoEnv (gen ++ sets)) (fun _ => none) d' ∧
    HoldsDb demoEnv.system false true "_uq"ₛ lqDemo3.tables d' := by
  have hu : ∀ t ∈ lqDemo3.tables, ∀ o ∈ lqDemo.tables, o.name = t.name → uniqueChanged t o = false := by decide +kernel
  exact (C71_exact demoEnv rfl some { diffFrom := lqDemo, diffTo := lqDemo3, uniqueNameSuffix := "_uq"ₛ } idSched idSched_fair rfl
    (by decide) (by decide) lqDemo_clean lqDemo3_clean (fun t _ => demoEnv_system t.name) (fun t _ => demoEnv_system t.name)).2
    (fun t ht o ho hn => ⟨lqDemo3_moves t ht o ho hn, fun hsu => absurd ((uniqueChanged_iff t o).1 (hu t ht o ho hn)) hsu⟩)

def uniqueOld : Table := { name := "t"ₛ, columns := [{ name := "id"ₛ, type := "int64"ₛ, primaryKey := true, notNull := true },
  { name := "mail"ₛ, type := "varchar"ₛ, size := 40, uniqueKey := true }] }

def uniqueRenamed : Table := { name := "t"ₛ, columns := [{ name := "id"ₛ, type := "int64"ₛ, primaryKey := true, notNull := true },
  { name := "email"ₛ, type := "varchar"ₛ, size := 40, uniqueKey := true }] }

/-- The only unique column is renamed: both of its constraints follow it. -/
example : ∃ gen sets d', generateAll some { uniqueNameSuffix := "_uq"ₛ } { tables := [uniqueOld] } = some gen ∧
    generate some { diffFrom := { tables := [uniqueOld] }, diffTo := { tables := [uniqueRenamed] }, uniqueNameSuffix := "_uq"ₛ }
      idSched = some sets ∧
    Runs (changelogOps demoEnv (gen ++ sets)) (fun _ => none) d' ∧ HoldsDb demoEnv.system false true "_uq"ₛ [uniqueRenamed] d' := by
  refine (C71_exact demoEnv rfl some { diffFrom := { tables := [uniqueOld] }, diffTo := { tables := [uniqueRenamed] }, uniqueNameSuffix := "_uq"ₛ }
    idSched idSched_fair rfl (by decide) (by decide)
    (fun t ht => by rw [List.mem_singleton.1 ht]; exact cleanTable_of (by decide) (by decide))
    (fun t ht => by rw [List.mem_singleton.1 ht]; exact cleanTable_of (by decide) (by decide))
    (fun t _ => demoEnv_system t.name) (fun t _ => demoEnv_system t.name)).2 ?_
  intro t ht o ho _
  rw [List.mem_singleton.1 ht, List.mem_singleton.1 ho]
  refine ⟨(moves_plain demoEnv_keeps (by decide) (by decide)).2 ⟨?_, ?_, ?_, Or.inl ((primaryChanged_iff _ _).1 (by decide +kernel))⟩,
    fun _ _ => ⟨by decide, by decide⟩⟩
  · decide
  · decide
  · exact fun _ => ⟨_, List.mem_cons_of_mem _ List.mem_cons_self, rfl⟩

/-- A product on which `MODIFY` drops what it does not mention. -/
def forgetEnv : LqEnv := { demoEnv with onRetype := fun g => { g with notNull := false, autoIncrement := false, default := none, remarks := [] } }

example := C40_violated_retype forgetEnv rfl (fun _ => rfl) (demoEnv_system "t"ₛ)

def forgetTable : Table := { name := "t"ₛ, columns := [{ name := "a"ₛ, type := "int32"ₛ, primaryKey := true },
  { name := "b"ₛ, type := "int64"ₛ }, { name := "c"ₛ, type := "int32"ₛ, notNull := true }] }

def forgetOld : Table := { name := "t"ₛ, columns := [{ name := "a"ₛ, type := "int32"ₛ, primaryKey := true },
  { name := "b"ₛ, type := "int32"ₛ }, { name := "c"ₛ, type := "int32"ₛ }] }

/-- The conditions can also be met on that product, by a change that goes beyond `SmoothChange`: a key column is not
declared not null. -/
example : LqTableMoves forgetEnv false forgetTable forgetOld ∧ ¬SmoothChange forgetEnv false forgetTable forgetOld := by
  have hk : SameKey forgetTable forgetOld := (primaryChanged_iff _ _).1 (by decide +kernel)
  refine ⟨⟨?_, ?_, fun h => absurd ((uniqueChanged_iff _ _).1 (by decide +kernel)) h, Or.inl hk⟩, ?_⟩
  · intro c hc b hb e k hk'
    have : k = true := hk'.2 hk
    subst this
    have h : ∀ c ∈ forgetTable.columns, ∀ b ∈ forgetOld.columns, c.name = b.name →
      (b.notNull = true → c.notNull = false → b.primaryKey = false) ∧
      (c.notNull = b.notNull → ((retyped forgetEnv false c b).notNull || (c.primaryKey && !true)) = (c.notNull || c.primaryKey)) ∧
      ((retyped forgetEnv false c b).autoIncrement || (c.autoIncremental && !b.autoIncremental)) = c.autoIncremental ∧
      (c.defaultValue = b.defaultValue → (retyped forgetEnv false c b).default = defaultMeaning c.defaultValue) ∧
      (retyped forgetEnv false c b).remarks = [] := by decide +kernel
    obtain ⟨h1, h2, h3, h4, h5⟩ := h c hc b hb e
    exact ⟨h1, h2, h3, h4, fun _ => h5⟩
  · rintro c b ⟨hc, _, h, _⟩
    have : ∀ c ∈ forgetTable.columns, c.name ∈ forgetOld.columns.map (·.name) := by decide
    exact absurd (this c hc) h
  · intro h
    have := h.keyNew _ (List.mem_cons_self) rfl
    cases this

theorem lqDemo_moving : MovingHistory demoEnv some false "_uq"ₛ lqDemo [⟨lqDemo3, "a"ₛ, idSched⟩] :=
  ⟨idSched_fair, ⟨lqDemo_there.names, lqDemo_there.clean, lqDemo_there.free, lqDemo3_moves,
    fun t ht o ho hn h => absurd (lqDemo_there.unique t ht o ho hn) h⟩, trivial⟩

example (d0 : Db LqAttr) := C141_moves_partial demoEnv rfl some false "_uq"ₛ [⟨lqDemo3, "a"ₛ, idSched⟩] lqDemo
  ⟨by decide, fun t ht => (lqDemo_clean t ht).1⟩ lqDemo_moving d0

example (d0 : Db LqAttr) := C141_moves_ways_partial demoEnv rfl some false "_uq"ₛ [⟨lqDemo3, "a"ₛ, idSched⟩] [⟨lqDemo3, "b"ₛ, idSched⟩] lqDemo
  ⟨by decide, fun t ht => (lqDemo_clean t ht).1⟩ lqDemo_moving lqDemo_moving rfl d0

end Octo
