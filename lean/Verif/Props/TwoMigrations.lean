import Verif.Props.Flyway
import Verif.Props.ExactLqDiff
import Verif.Props.MysqlDb

/-! Property C158: the scripts of `diff flyway` and the changelogs of `diff liquibase`. -/

namespace Octo.Spec

/-- The changelog covers the change from one version of a schema to the other (C71). -/
def ChangelogMoves (env : LqEnv) (uc : Bool) (old new : Schema) : Prop :=
  ∀ t ∈ new.tables, ∀ o ∈ old.tables, o.name = t.name → LqTableMoves env uc t o ∧
    (¬SameUnique t o → (∃ n, ∀ m, uqNames o m ↔ m = n) → UniqueMoves uc t o)

/-- What is required of a version of a schema by script and changelog. -/
structure BothReady (env : LqEnv) (pf : Str → Option Str) (suffix : Str) (s : Schema) : Prop where
  script : Scriptable suffix s
  clean : ∀ t ∈ s.tables, CleanTable pf t
  free : ∀ t ∈ s.tables, ¬env.system (t.name ++ suffix)

end Octo.Spec

namespace Octo
open Spec Lq

/-- A database that was built by the script of a schema and one that holds the schema have the same structure. -/
theorem built_holds_same {suffix : Str} (hsuf : UnescapedName suffix) {s : Schema} (h : Scriptable suffix s) {sys : Str → Prop} {uc : Bool}
    {d : Db DdlColumn} {e : Db LqAttr} (hd : BuiltBy (Mysql.exportSchema none suffix s) d) (he : HoldsDb sys uc true suffix s.tables e) :
    SameDb sys uc d e := by
  obtain ⟨a1, a2⟩ := Flyway.builtBy hsuf h hd
  intro n
  by_cases hn : n ∈ s.tables.map (·.name)
  · obtain ⟨t, ht, rfl⟩ := List.mem_map.1 hn
    obtain ⟨U, hU, hh⟩ := he.1 t ht
    exact Or.inr ⟨_, U, a1 t ht, hU, sameTable sys uc _ _ (h.columns t ht) hh⟩
  · exact Or.inl ⟨a2 n hn, he.2 n hn⟩

/-- **C158**: the script of the old version followed by the flyway script leads to the database of the new version, the changelog of the old
version followed by the changelog of the differences holds the new version, and both databases have the same structure, if and only if both
cover the change. -/
theorem C158_exact (env : LqEnv) (hlist : env.listed = true) (pf : Str → Option Str) (opt : DiffOption) (sched : Sched) (hs : sched.Fair)
    (hf : opt.tableFilter = none) (hsuf : UnescapedName opt.uniqueNameSuffix) (hfrom : BothReady env pf opt.uniqueNameSuffix opt.diffFrom)
    (hto : BothReady env pf opt.uniqueNameSuffix opt.diffTo) :
    (∃ d d' gen sets e', BuiltBy (Mysql.exportSchema none opt.uniqueNameSuffix opt.diffFrom) d ∧
      Migrates (flyway opt.uniqueNameSuffix (getDiff opt sched)) d d' ∧
      BuiltBy (Mysql.exportSchema none opt.uniqueNameSuffix opt.diffTo) d' ∧
      generateAll pf { uniqueNameSuffix := opt.uniqueNameSuffix, useComments := opt.useComments } opt.diffFrom = some gen ∧
      generate pf opt sched = some sets ∧ Runs (changelogOps env (gen ++ sets)) (fun _ => none) e' ∧
      HoldsDb env.system opt.useComments true opt.uniqueNameSuffix opt.diffTo.tables e' ∧
      SameDb env.system opt.useComments d' e') ↔
    SchemaMoves Mysql.toMysqlColumnType opt.diffFrom opt.diffTo ∧ ChangelogMoves env opt.useComments opt.diffFrom opt.diffTo := by
  have h71 := C71_exact env hlist pf opt sched hs hf hfrom.script.tables hto.script.tables hfrom.clean hto.clean hfrom.free hto.free
  constructor
  · rintro ⟨d, d', gen, sets, e', h1, h2, h3, h4, h5, h6, h7, -⟩
    exact ⟨(C143_exact opt hf sched hs hsuf hfrom.script hto.script d d' h1 h3).1 h2, h71.1 ⟨gen, sets, e', h4, h5, h6, h7⟩⟩
  · rintro ⟨hm, hl⟩
    obtain ⟨gen, sets, e', h4, h5, h6, h7⟩ := h71.2 hl
    obtain ⟨d, hd⟩ := C143_built _ hsuf _ hfrom.script
    obtain ⟨d', hd'⟩ := C143_built _ hsuf _ hto.script
    exact ⟨d, d', gen, sets, e', hd, (C143_exact opt hf sched hs hsuf hfrom.script hto.script d d' hd hd').2 hm, hd', h4, h5, h6, h7,
      built_holds_same hsuf hto.script hd' h7⟩

/-- On products that keep what a statement does not mention, the changelog covers what the script covers if and only if every column of the
old key stays not null or in the key. -/
theorem moves_both {env : LqEnv} (hk : env.Keeps) {uc : Bool} {o t : Table} (ht : (t.columns.map (·.name)).Nodup)
    (ho : (o.columns.map (·.name)).Nodup) (h : TableMoves Mysql.toMysqlColumnType o t) :
    LqTableMoves env uc t o ↔ ∀ c ∈ t.columns, ∀ b ∈ o.columns, c.name = b.name → b.primaryKey = true →
      c.notNull = true ∨ (b.notNull = false ∧ c.primaryKey = true) := by
  rw [moves_plain hk ht ho]
  refine ⟨fun h => h.leaveKey, fun hkey => ⟨hkey, ?_, fun hu => absurd (fun n => (h.unique n).symm) hu, ?_⟩⟩
  · intro c hc b hb e ha
    rcases h.columns b hb c hc e.symm with h1 | ⟨h1, h2⟩ | ⟨h1, h2, h3⟩
    · exact (show b.autoIncremental = c.autoIncremental from congrArg DdlColumn.autoIncrement h1) ▸ ha
    · exact h2
    · rw [← h2]; exact ha
  · rcases h.key with h1 | ⟨⟨n, b, hb, h1, h2⟩, -⟩
    · exact Or.inl fun n => (h1 n).symm
    · exact Or.inr (Or.inr ⟨b, hb, h1, Or.inl ((h.names _).1 (List.mem_map_of_mem hb))⟩)

/-- The columns of the old key stay not null or in the key. -/
def KeyStays (old new : Schema) : Prop :=
  ∀ o ∈ old.tables, ∀ t ∈ new.tables, o.name = t.name → ∀ b ∈ o.columns, ∀ c ∈ t.columns, b.name = c.name → b.primaryKey = true →
    c.notNull = true ∨ (b.notNull = false ∧ c.primaryKey = true)

/-- **C158** on products that keep what a statement does not mention: where the flyway script leads to the new version, the changelog does so
as well, and to the same structure, if and only if the columns of the old key stay not null or in the key. -/
theorem C158_exact_plain (env : LqEnv) (hk : env.Keeps) (hlist : env.listed = true) (pf : Str → Option Str) (opt : DiffOption) (sched : Sched)
    (hs : sched.Fair) (hf : opt.tableFilter = none) (hsuf : UnescapedName opt.uniqueNameSuffix)
    (hfrom : BothReady env pf opt.uniqueNameSuffix opt.diffFrom) (hto : BothReady env pf opt.uniqueNameSuffix opt.diffTo)
    (d d' : Db DdlColumn) (h1 : BuiltBy (Mysql.exportSchema none opt.uniqueNameSuffix opt.diffFrom) d)
    (h2 : Migrates (flyway opt.uniqueNameSuffix (getDiff opt sched)) d d')
    (h3 : BuiltBy (Mysql.exportSchema none opt.uniqueNameSuffix opt.diffTo) d') :
    (∃ gen sets e', generateAll pf { uniqueNameSuffix := opt.uniqueNameSuffix, useComments := opt.useComments } opt.diffFrom = some gen ∧
      generate pf opt sched = some sets ∧ Runs (changelogOps env (gen ++ sets)) (fun _ => none) e' ∧
      HoldsDb env.system opt.useComments true opt.uniqueNameSuffix opt.diffTo.tables e' ∧ SameDb env.system opt.useComments d' e') ↔
    KeyStays opt.diffFrom opt.diffTo := by
  have hm := (C143_exact opt hf sched hs hsuf hfrom.script hto.script d d' h1 h3).1 h2
  have h71 := C71_exact env hlist pf opt sched hs hf hfrom.script.tables hto.script.tables hfrom.clean hto.clean hfrom.free hto.free
  constructor
  · rintro ⟨gen, sets, e', h4, h5, h6, h7, -⟩ o ho t ht e b hb c hc e2 hp
    have := (h71.1 ⟨gen, sets, e', h4, h5, h6, h7⟩ t ht o ho e).1
    exact (moves_both hk (hto.script.columns t ht) (hfrom.script.columns o ho) (hm.kept o ho t ht e)).1 this c hc b hb e2.symm hp
  · intro hkey
    obtain ⟨gen, sets, e', h4, h5, h6, h7⟩ := h71.2 fun t ht o ho e =>
      ⟨(moves_both hk (hto.script.columns t ht) (hfrom.script.columns o ho) (hm.kept o ho t ht e)).2
        fun c hc b hb e2 hp => hkey o ho t ht e b hb c hc e2.symm hp,
       fun hu => absurd (fun n => ((hm.kept o ho t ht e).unique n).symm) hu⟩
    exact ⟨gen, sets, e', h4, h5, h6, h7, built_holds_same hsuf hto.script h3 h7⟩

/-- A check of what `BothReady` requires. -/
theorem ready_of_check {s : Schema} (h : scriptCheck s = true)
    (h2 : ∀ t ∈ s.tables, (t.columns.map (·.name)).Nodup ∧ ∀ c ∈ t.columns, plainColumn c = true) : BothReady demoEnv some "_uq"ₛ s :=
  ⟨scriptable_of_check _ h, fun t ht => cleanTable_of (h2 t ht).1 (h2 t ht).2, fun t _ => demoEnv_system t.name⟩

/-- A column of the key, declared not null and no longer so. -/
def keyLoosened : Schema × Schema :=
  (oneUser [{ plainId with primaryKey := true, notNull := true }], oneUser [{ plainId with primaryKey := true, notNull := false }])

/-- A column is added. -/
def columnAdded : Schema × Schema := (oneUser [plainId], oneUser [plainId, plainN])

theorem keyLoosened_moves : SchemaMoves Mysql.toMysqlColumnType keyLoosened.1 keyLoosened.2 := by
  refine ⟨?_, ?_⟩
  · intro o ho t ht _
    cases List.mem_singleton.1 ho; cases List.mem_singleton.1 ht
    refine ⟨fun _ => Iff.rfl, by unfold ColumnMoves OnlyNullability; decide +kernel, fun _ => ⟨by decide +kernel, ?_⟩, ?_, Or.inl ?_⟩
    · have : ∀ a ∈ [{ plainId with primaryKey := true, notNull := false }], a.autoIncremental = false := by decide +kernel
      intro a ha h; rw [this a ha] at h; cases h
    · intro n; unfold uqNames; simp [plainId]
    · intro n; unfold pkNames; simp
  · intro o ho hn
    cases List.mem_singleton.1 ho
    exact absurd (by decide) hn

/-- **C158 is violated**: when a column of the primary key is no longer declared not null, the flyway script leads to the new version and the
changelog does not; when a column is added, the changelog does and the flyway script does not. -/
theorem C158_violated (sched : Sched) (hs : sched.Fair) (author : Str) (uc : Bool) :
    (∃ d d', BuiltBy (Mysql.exportSchema none "_uq"ₛ keyLoosened.1) d ∧
      Migrates (flyway "_uq"ₛ (getDiff { diffFrom := keyLoosened.1, diffTo := keyLoosened.2, author := author, uniqueNameSuffix := "_uq"ₛ, useComments := uc } sched)) d d' ∧
      BuiltBy (Mysql.exportSchema none "_uq"ₛ keyLoosened.2) d' ∧
      ¬∃ gen sets e', generateAll some { uniqueNameSuffix := "_uq"ₛ, useComments := uc } keyLoosened.1 = some gen ∧
        generate some { diffFrom := keyLoosened.1, diffTo := keyLoosened.2, author := author, uniqueNameSuffix := "_uq"ₛ, useComments := uc } sched = some sets ∧
        Runs (changelogOps demoEnv (gen ++ sets)) (fun _ => none) e' ∧ HoldsDb demoEnv.system uc true "_uq"ₛ keyLoosened.2.tables e') ∧
    (∃ gen sets e', generateAll some { uniqueNameSuffix := "_uq"ₛ, useComments := uc } columnAdded.1 = some gen ∧
        generate some { diffFrom := columnAdded.1, diffTo := columnAdded.2, author := author, uniqueNameSuffix := "_uq"ₛ, useComments := uc } sched = some sets ∧
        Runs (changelogOps demoEnv (gen ++ sets)) (fun _ => none) e' ∧ HoldsDb demoEnv.system uc true "_uq"ₛ columnAdded.2.tables e' ∧
      ∃ d d', BuiltBy (Mysql.exportSchema none "_uq"ₛ columnAdded.1) d ∧ BuiltBy (Mysql.exportSchema none "_uq"ₛ columnAdded.2) d' ∧
        ¬Migrates (flyway "_uq"ₛ (getDiff { diffFrom := columnAdded.1, diffTo := columnAdded.2, author := author, uniqueNameSuffix := "_uq"ₛ, useComments := uc } sched)) d d') := by
  have hsuf : UnescapedName "_uq"ₛ := by unfold UnescapedName; decide
  constructor
  · have r1 : BothReady demoEnv some "_uq"ₛ keyLoosened.1 := ready_of_check (by decide +kernel) (by decide +kernel)
    have r2 : BothReady demoEnv some "_uq"ₛ keyLoosened.2 := ready_of_check (by decide +kernel) (by decide +kernel)
    obtain ⟨d, hd⟩ := C143_built _ hsuf _ r1.script
    obtain ⟨d', hd'⟩ := C143_built _ hsuf _ r2.script
    have hmig := (C143_exact { diffFrom := keyLoosened.1, diffTo := keyLoosened.2, author := author, uniqueNameSuffix := "_uq"ₛ, useComments := uc }
      rfl sched hs hsuf r1.script r2.script d d' hd hd').2 keyLoosened_moves
    refine ⟨d, d', hd, hmig, hd', ?_⟩
    rintro ⟨gen, sets, e', h4, h5, h6, h7⟩
    have := (C158_exact_plain demoEnv demoEnv_keeps rfl some
      { diffFrom := keyLoosened.1, diffTo := keyLoosened.2, author := author, uniqueNameSuffix := "_uq"ₛ, useComments := uc } sched hs rfl hsuf r1 r2
      d d' hd hmig hd').1 ⟨gen, sets, e', h4, h5, h6, h7, built_holds_same hsuf r2.script hd' h7⟩
    rcases this _ List.mem_cons_self _ List.mem_cons_self rfl _ List.mem_cons_self _ List.mem_cons_self rfl rfl with h | ⟨h, -⟩ <;> cases h
  · have r1 : BothReady demoEnv some "_uq"ₛ columnAdded.1 := ready_of_check (by decide +kernel) (by decide +kernel)
    have r2 : BothReady demoEnv some "_uq"ₛ columnAdded.2 := ready_of_check (by decide +kernel) (by decide +kernel)
    obtain ⟨d, hd⟩ := C143_built _ hsuf _ r1.script
    obtain ⟨d', hd'⟩ := C143_built _ hsuf _ r2.script
    obtain ⟨gen, sets, e', h4, h5, h6, h7⟩ := (C71_exact demoEnv rfl some
      { diffFrom := columnAdded.1, diffTo := columnAdded.2, author := author, uniqueNameSuffix := "_uq"ₛ, useComments := uc } sched hs rfl
      r1.script.tables r2.script.tables r1.clean r2.clean r1.free r2.free).2 (by
        intro t ht o ho _
        cases List.mem_singleton.1 ho; cases List.mem_singleton.1 ht
        have hu : SameUnique { name := "user"ₛ, columns := [plainId, plainN] } { name := "user"ₛ, columns := [plainId] } := by
          intro n; simp [plainId, plainN]
        refine ⟨(moves_plain demoEnv_keeps (by decide) (by decide)).2 ⟨?_, ?_, fun h => absurd hu h, Or.inl ?_⟩, fun h => absurd hu h⟩
        · decide +kernel
        · decide +kernel
        · intro n; unfold pkNames; simp [plainId, plainN])
    refine ⟨gen, sets, e', h4, h5, h6, h7, d, d', hd, hd', fun h => ?_⟩
    exact flywayMisses_not columnAdded (by simp only [flywayMisses, columnAdded, List.mem_cons, true_or])
      ((C143_exact { diffFrom := columnAdded.1, diffTo := columnAdded.2, author := author, uniqueNameSuffix := "_uq"ₛ, useComments := uc }
        rfl sched hs hsuf r1.script r2.script d d' hd hd').1 h)

/-- The hypotheses of `C158_exact` and `C158_exact_plain` are met by a change of many kinds, and both sides hold. -/
example : ∃ d d' gen sets e', BuiltBy (Mysql.exportSchema none "_uq"ₛ flywayHits.1) d ∧
    Migrates (flyway "_uq"ₛ (getDiff { diffFrom := flywayHits.1, diffTo := flywayHits.2, uniqueNameSuffix := "_uq"ₛ } idSched)) d d' ∧
    generateAll some { uniqueNameSuffix := "_uq"ₛ, useComments := false } flywayHits.1 = some gen ∧
    generate some { diffFrom := flywayHits.1, diffTo := flywayHits.2, uniqueNameSuffix := "_uq"ₛ } idSched = some sets ∧
    Runs (changelogOps demoEnv (gen ++ sets)) (fun _ => none) e' ∧ SameDb demoEnv.system false d' e' ∧
    BuiltBy (Mysql.exportSchema none "_uq"ₛ flywayHits.2) d' := by
  have hsuf : UnescapedName "_uq"ₛ := by unfold UnescapedName; decide
  have r1 : BothReady demoEnv some "_uq"ₛ flywayHits.1 := ready_of_check (by decide +kernel) (by decide +kernel)
  have r2 : BothReady demoEnv some "_uq"ₛ flywayHits.2 := ready_of_check (by decide +kernel) (by decide +kernel)
  obtain ⟨d, hd⟩ := C143_built _ hsuf _ r1.script
  obtain ⟨d', hd'⟩ := C143_built _ hsuf _ r2.script
  have hmig := (C143_exact { diffFrom := flywayHits.1, diffTo := flywayHits.2, uniqueNameSuffix := "_uq"ₛ } rfl idSched idSched_fair hsuf
    r1.script r2.script d d' hd hd').2 flywayHits_moves
  obtain ⟨gen, sets, e', h4, h5, h6, h7, h8⟩ := (C158_exact_plain demoEnv demoEnv_keeps rfl some
    { diffFrom := flywayHits.1, diffTo := flywayHits.2, uniqueNameSuffix := "_uq"ₛ } idSched idSched_fair rfl hsuf r1 r2 d d' hd hmig hd').2
    (by unfold KeyStays; decide +kernel)
  exact ⟨d, d', gen, sets, e', hd, hmig, h4, h5, h6, h8, hd'⟩

end Octo
