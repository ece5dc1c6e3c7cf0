import Verif.Spec.LqHistory
import Verif.Props.LiquibaseDb

/-! Chains of changelogs: property C141. -/

namespace Octo
open Spec Lq

theorem holdsDb_same {sys : Str → Prop} {uc : Bool} {suffix : Str} {ts : List Table} {d d' : Db LqAttr}
    (h : HoldsDb sys uc true suffix ts d) (h' : HoldsDb sys uc true suffix ts d') : SameLqDb sys d d' := by
  intro n
  by_cases hn : n ∈ ts.map (·.name)
  · right
    obtain ⟨t, ht, rfl⟩ := List.mem_map.1 hn
    obtain ⟨T, hT, hH⟩ := h.1 t ht
    obtain ⟨T', hT', hH'⟩ := h'.1 t ht
    refine ⟨T, T', hT, hT', ?_, ?_, ?_⟩
    · funext m; rw [hH.cols, hH'.cols]
    · funext m; exact propext ((hH.pk m).trans (hH'.pk m).symm)
    · intro k hk
      by_cases hu : HasUnique t ∧ k = t.name ++ suffix
      · rw [hu.2, hH.named rfl hu.1, hH'.named rfl hu.1]
      · have key : ∀ {T : DbTable LqAttr}, HoldsTable sys uc true suffix t T → T.uniques k = none := by
          intro T hH
          cases e : T.uniques k with
          | none => rfl
          | some s =>
            obtain ⟨a, _, b⟩ := hH.only k s e
            exact absurd ⟨a, b.resolve_right hk⟩ hu
        rw [key hH, key hH']
  · exact .inl ⟨h.2 n hn, h'.2 n hn⟩

/-- C141, for histories without the corner cases of C40: a database of the first version becomes one of the last version when the changelogs are run one after the other. -/
theorem C141_history_partial (env : LqEnv) (henv : ∀ g, env.onRetype g = g) (hlist : env.listed = true) (pf : Str → Option Str) (uc : Bool)
    (suffix : Str) : ∀ (rs : List Release) (s : Schema), DistinctNames s → History env pf uc suffix s rs →
    ∀ d0, HoldsDb env.system uc true suffix s.tables d0 →
    ∃ ls, Logs pf uc suffix s rs ls ∧ ∃ d', Runs (changelogOps env ls.flatten) d0 d' ∧
      HoldsDb env.system uc true suffix (latest s rs).tables d'
  | [], s, _, _, d0, h0 => ⟨[], trivial, d0, rfl, h0⟩
  | r :: rs, s, hs, ⟨hf, hst, hrest⟩, d0, h0 => by
    obtain ⟨l, hl, d1, hr1, hd1⟩ := C40_migrates_partial env henv hlist pf
      { diffFrom := s, diffTo := r.schema, author := r.author, uniqueNameSuffix := suffix, useComments := uc } r.sched hf rfl hs hst.names
      hst.clean hst.free hst.smooth d0 h0 (fun t ht o ho hn hsu => absurd (hst.unique t ht o ho hn) hsu)
    obtain ⟨ls, hls, d', hr2, hd2⟩ := C141_history_partial env henv hlist pf uc suffix rs r.schema
      ⟨hst.names, fun t ht => (hst.clean t ht).1⟩ hrest d1 hd1
    refine ⟨l :: ls, ⟨hl, hls⟩, d', ?_, hd2⟩
    rw [List.flatten_cons]
    unfold changelogOps at hr1 hr2 ⊢
    rw [List.flatMap_append]
    exact runs_append hr1 hr2

/-- C141: the changelog of the first version and the changelogs that follow build the last version on an empty database. -/
theorem C141_from_scratch_partial (env : LqEnv) (henv : ∀ g, env.onRetype g = g) (hlist : env.listed = true) (pf : Str → Option Str) (uc : Bool)
    (suffix : Str) (rs : List Release) (s : Schema) (hs : (s.tables.map (·.name)).Nodup) (hc : ∀ t ∈ s.tables, CleanTable pf t)
    (hno : ∀ t ∈ s.tables, ¬env.system (t.name ++ suffix)) (h : History env pf uc suffix s rs) :
    ∃ gen ls, generateAll pf { uniqueNameSuffix := suffix, useComments := uc } s = some gen ∧ Logs pf uc suffix s rs ls ∧
      ∃ d', Runs (changelogOps env (gen ++ ls.flatten)) (fun _ => none) d' ∧ HoldsDb env.system uc true suffix (latest s rs).tables d' := by
  have hsel : s.tables.filter (passes (none : Option (Table → Bool))) = s.tables := List.filter_eq_self.2 fun _ _ => rfl
  obtain ⟨gen, hg, d1, hr1, hd1, -⟩ := lq_create env env.system pf { uniqueNameSuffix := suffix, useComments := uc } s
    (by dsimp only; rw [hsel]; exact hs) (by dsimp only; rw [hsel]; exact hc)
    (fun t _ c _ => ⟨t.name, c.name, rfl⟩) (by dsimp only; rw [hsel]; exact hno)
  dsimp only at hd1
  rw [hsel, hlist] at hd1
  obtain ⟨ls, hls, d', hr2, hd2⟩ := C141_history_partial env henv hlist pf uc suffix rs s ⟨hs, fun t ht => (hc t ht).1⟩ h d1 hd1
  refine ⟨gen, ls, hg, hls, d', ?_, hd2⟩
  unfold changelogOps at hr1 hr2 ⊢
  rw [List.flatMap_append]
  exact runs_append hr1 hr2

/-- C141: the way does not matter.  Two histories that start and end with the same versions lead to the same database; one of them can
be the single step from the first to the last version, or no step at all when the last version is the first one. -/
theorem C141_ways_partial (env : LqEnv) (henv : ∀ g, env.onRetype g = g) (hlist : env.listed = true) (pf : Str → Option Str) (uc : Bool)
    (suffix : Str) (rs rs' : List Release) (s : Schema) (hs : DistinctNames s) (h : History env pf uc suffix s rs)
    (h' : History env pf uc suffix s rs') (hl : (latest s rs).tables = (latest s rs').tables) (d0 : Db LqAttr)
    (h0 : HoldsDb env.system uc true suffix s.tables d0) :
    ∃ ls ls' d d', Logs pf uc suffix s rs ls ∧ Logs pf uc suffix s rs' ls' ∧ Runs (changelogOps env ls.flatten) d0 d ∧
      Runs (changelogOps env ls'.flatten) d0 d' ∧ SameLqDb env.system d d' := by
  obtain ⟨ls, a, d, b, c⟩ := C141_history_partial env henv hlist pf uc suffix rs s hs h d0 h0
  obtain ⟨ls', a', d', b', c'⟩ := C141_history_partial env henv hlist pf uc suffix rs' s hs h' d0 h0
  rw [← hl] at c'
  exact ⟨ls, ls', d, d', a, a', b, b', holdsDb_same c c'⟩

/-- C141: forth and back. -/
theorem C141_back_partial (env : LqEnv) (henv : ∀ g, env.onRetype g = g) (hlist : env.listed = true) (pf : Str → Option Str) (uc : Bool)
    (suffix : Str) (s : Schema) (r r' : Release) (hr : r'.schema.tables = s.tables) (hs : DistinctNames s)
    (h : History env pf uc suffix s [r, r']) (d0 : Db LqAttr) (h0 : HoldsDb env.system uc true suffix s.tables d0) :
    ∃ l l' d, Logs pf uc suffix s [r, r'] [l, l'] ∧ Runs (changelogOps env (l ++ l')) d0 d ∧ SameLqDb env.system d0 d := by
  obtain ⟨ls, hls, d, hd, hh⟩ := C141_history_partial env henv hlist pf uc suffix [r, r'] s hs h d0 h0
  match ls, hls with
  | [l, l'], hls =>
    refine ⟨l, l', d, hls, ?_, holdsDb_same h0 (by rw [← hr]; exact hh)⟩
    simpa only [List.flatten_cons, List.flatten_nil, List.append_nil] using hd

/-- C141 is violated: auto-increment that is given and taken away again stays. -/
theorem C141_violated (env : LqEnv) : ∃ (s : Schema) (r r' : Release) (l l' : List LqChangeSet), r'.schema = s ∧
    Logs some false "_uq"ₛ s [r, r'] [l, l'] ∧ (∃ d0, HoldsDb env.system false true "_uq"ₛ s.tables d0) ∧
    ∀ d0, HoldsDb env.system false true "_uq"ₛ s.tables d0 → ∀ d, Runs (changelogOps env (l ++ l')) d0 d → ¬SameLqDb env.system d0 d := by
  refine ⟨oneTable "t"ₛ [{ name := "a"ₛ, type := "int32"ₛ }],
    ⟨oneTable "t"ₛ [{ name := "a"ₛ, type := "int32"ₛ, autoIncremental := true }], [], idSched⟩,
    ⟨oneTable "t"ₛ [{ name := "a"ₛ, type := "int32"ₛ }], [], idSched⟩, _, _, rfl, ⟨rfl, rfl, trivial⟩,
    holds_exists _ _ _ _ _ (by unfold HasUnique; decide), ?_⟩
  rintro d0 h0 d ⟨_, ⟨T, T', hT, ⟨g, hg, rfl⟩, rfl⟩, rfl⟩ hs
  obtain ⟨T0, h1, h2⟩ := h0.1 _ (List.mem_singleton.2 rfl)
  have : T = T0 := Option.some.inj (hT.symm.trans h1)
  subst this
  rcases hs "t"ₛ with ⟨h, _⟩ | ⟨A, B, hA, hB, hc, _⟩
  · rw [show d0 "t"ₛ = some T from hT] at h; cases h
  · have e1 : A = T := Option.some.inj (hA.symm.trans hT)
    subst e1
    have e2 := Option.some.inj hB
    rw [← e2] at hc
    have h6 := congrFun hc "a"ₛ
    rw [h2.cols "a"ₛ] at h6
    have h7 := congrArg (fun o : Option LqAttr => (o.map LqAttr.autoIncrement)) h6
    exact absurd (show false = true from Option.some.inj h7) (by decide)

/-! ### Examples -/

/-- A decidable form of the conditions on a step, without the renaming of columns. -/
theorem smoothStep_of {s s' : Schema} (hn : (s'.tables.map (·.name)).Nodup)
    (hc : ∀ t ∈ s'.tables, (t.columns.map (·.name)).Nodup ∧ ∀ c ∈ t.columns, plainColumn c = true)
    (h1 : ∀ t ∈ s'.tables, ∀ o ∈ s.tables, o.name = t.name →
      (∀ c ∈ t.columns, c.primaryKey = true → c.notNull = true) ∧
      (∀ b ∈ o.columns, b.primaryKey = true → b.notNull = true) ∧
      (∀ c ∈ t.columns, ∀ b ∈ o.columns, c.name = b.name → b.primaryKey = true → c.notNull = true) ∧
      (∀ c ∈ t.columns, ∀ b ∈ o.columns, c.name = b.name → b.autoIncremental = true → c.autoIncremental = true) ∧
      uniqueChanged t o = false ∧
      ∃ b ∈ o.columns, b.primaryKey = true ∧ (b.name ∈ t.columns.map (·.name) ∨
        ((o.columns.filter (fun c => decide (c.name ∉ t.columns.map (·.name)))).map (shapeKey false)).count (shapeKey false b) ≤
        ((t.columns.filter (fun c => decide (c.name ∉ o.columns.map (·.name)))).map (shapeKey false)).count (shapeKey false b))) :
    SmoothStep demoEnv some false "_uq"ₛ s s' where
  names := hn
  clean := fun t ht => cleanTable_of (hc t ht).1 (hc t ht).2
  free := fun t _ => demoEnv_system t.name
  smooth := fun t ht o ho hn => by
    obtain ⟨h2, h3, h4, h5, h6, h7⟩ := h1 t ht o ho hn
    exact ⟨h2, h3, h4, h5, fun h => absurd ((uniqueChanged_iff t o).1 h6) h, .inr (.inr h7), fun _ _ _ => .inl rfl⟩
  unique := fun t ht o ho hn => by
    obtain ⟨_, _, _, _, h6, _⟩ := h1 t ht o ho hn
    exact (uniqueChanged_iff t o).1 h6

theorem lqDemo_there : SmoothStep demoEnv some false "_uq"ₛ lqDemo lqDemo3 :=
  smoothStep_of (by decide) (by decide +kernel) (by decide +kernel)

theorem lqDemo_back : SmoothStep demoEnv some false "_uq"ₛ lqDemo3 lqDemo :=
  smoothStep_of (by decide) (by decide +kernel) (by decide +kernel)

/-- C141: forth and back with columns renamed, added and retyped, a table dropped and one created. -/
example : History demoEnv some false "_uq"ₛ lqDemo [⟨lqDemo3, "a"ₛ, idSched⟩, ⟨lqDemo, "b"ₛ, idSched⟩] :=
  ⟨idSched_fair, lqDemo_there, idSched_fair, lqDemo_back, trivial⟩

example := C141_from_scratch_partial demoEnv (fun _ => rfl) rfl some false "_uq"ₛ [⟨lqDemo3, "a"ₛ, idSched⟩, ⟨lqDemo, "b"ₛ, idSched⟩] lqDemo
  (by decide) lqDemo_clean (fun t _ => demoEnv_system t.name) ⟨idSched_fair, lqDemo_there, idSched_fair, lqDemo_back, trivial⟩

/-- C141: once with and once without a detour. -/
example (d0 : Db LqAttr) := C141_ways_partial demoEnv (fun _ => rfl) rfl some false "_uq"ₛ
  [⟨lqDemo3, "a"ₛ, idSched⟩, ⟨lqDemo, "b"ₛ, idSched⟩, ⟨lqDemo3, "c"ₛ, idSched⟩] [⟨lqDemo3, "d"ₛ, idSched⟩] lqDemo
  ⟨by decide, fun t ht => (lqDemo_clean t ht).1⟩
  ⟨idSched_fair, lqDemo_there, idSched_fair, lqDemo_back, idSched_fair, lqDemo_there, trivial⟩ ⟨idSched_fair, lqDemo_there, trivial⟩ rfl d0

example (d0 : Db LqAttr) := C141_back_partial demoEnv (fun _ => rfl) rfl some false "_uq"ₛ lqDemo ⟨lqDemo3, "a"ₛ, idSched⟩ ⟨lqDemo, "b"ₛ, idSched⟩ rfl
  ⟨by decide, fun t ht => (lqDemo_clean t ht).1⟩ ⟨idSched_fair, lqDemo_there, idSched_fair, lqDemo_back, trivial⟩ d0

end Octo
