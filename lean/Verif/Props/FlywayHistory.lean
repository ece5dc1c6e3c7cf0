import Verif.Props.Flyway

/-! Property C156: the scripts of `diff flyway` along the versions of a schema. -/

namespace Octo.Spec

/-- A version of a schema, with the options of the run of `diff flyway` that leads to it and the order in which maps were visited. -/
structure Edition where
  schema : Schema
  author : Str := []
  useComments : Bool := false
  sched : Sched

/-- The script that leads from a schema to the next version. -/
def migration (suffix : Str) (s : Schema) (e : Edition) : Str :=
  flyway suffix (getDiff { diffFrom := s, diffTo := e.schema, author := e.author, uniqueNameSuffix := suffix, useComments := e.useComments } e.sched)

/-- The scripts of a history, in order. -/
def migrations (suffix : Str) : Schema → List Edition → List Str
  | _, [] => []
  | s, e :: es => migration suffix s e :: migrations suffix e.schema es

/-- The last version. -/
def lastEdition : Schema → List Edition → Schema
  | s, [] => s
  | _, e :: es => lastEdition e.schema es

/-- All scripts can be executed one after the other and lead from the first database to the second. -/
def MigratesAll : List Str → Db DdlColumn → Db DdlColumn → Prop
  | [], d, d' => d' = d
  | x :: xs, d, d'' => ∃ d', Migrates x d d' ∧ MigratesAll xs d' d''

/-- The same, and after each script the database is the one that `export mysql` builds from the version. -/
def KeepsUp (suffix : Str) : Schema → List Edition → Db DdlColumn → Db DdlColumn → Prop
  | _, [], d, d' => d' = d
  | s, e :: es, d, d'' => ∃ d', Migrates (migration suffix s e) d d' ∧ BuiltBy (Mysql.exportSchema none suffix e.schema) d' ∧
      KeepsUp suffix e.schema es d' d''

/-- Every step is one that scripts cover. -/
def AllMoves (mysqlType : Column → Str) : Schema → List Edition → Prop
  | _, [] => True
  | s, e :: es => SchemaMoves mysqlType s e.schema ∧ AllMoves mysqlType e.schema es

end Octo.Spec

namespace Octo
open Spec

theorem built_unique {suffix : Str} (hsuf : UnescapedName suffix) {s : Schema} (h : Scriptable suffix s) {d d' : Db DdlColumn}
    (hd : BuiltBy (Mysql.exportSchema none suffix s) d) (hd' : BuiltBy (Mysql.exportSchema none suffix s) d') : d = d' := by
  obtain ⟨a1, a2⟩ := Flyway.builtBy hsuf h hd
  obtain ⟨b1, b2⟩ := Flyway.builtBy hsuf h hd'
  funext n
  by_cases hn : n ∈ s.tables.map (·.name)
  · obtain ⟨t, ht, rfl⟩ := List.mem_map.1 hn
    rw [a1 t ht, b1 t ht]
  · rw [a2 n hn, b2 n hn]

/-- **C156**: on a database of the first version, all scripts of a history run and after each of them the database is that of the version,
exactly when every step of the history changes only what scripts cover. -/
theorem C156_exact (suffix : Str) (hsuf : UnescapedName suffix) : ∀ (es : List Edition) (s : Schema), Scriptable suffix s →
    (∀ e ∈ es, Scriptable suffix e.schema ∧ e.sched.Fair) → ∀ d, BuiltBy (Mysql.exportSchema none suffix s) d →
    ((∃ d', KeepsUp suffix s es d d') ↔ AllMoves Mysql.toMysqlColumnType s es)
  | [], _, _, _, d, _ => iff_of_true ⟨d, rfl⟩ trivial
  | e :: es, s, hs, he, d, hd => by
    obtain ⟨h1, h2⟩ := he e List.mem_cons_self
    obtain ⟨d1, hd1⟩ := C143_built suffix hsuf e.schema h1
    have step := C143_exact { diffFrom := s, diffTo := e.schema, author := e.author, uniqueNameSuffix := suffix, useComments := e.useComments }
      rfl e.sched h2 hsuf hs h1 d d1 hd hd1
    have rest := C156_exact suffix hsuf es e.schema h1 (fun x hx => he x (List.mem_cons_of_mem _ hx)) d1 hd1
    constructor
    · rintro ⟨d', dm, m1, m2, m3⟩
      obtain rfl := built_unique hsuf h1 m2 hd1
      exact ⟨step.1 m1, rest.1 ⟨d', m3⟩⟩
    · rintro ⟨m1, m2⟩
      obtain ⟨d', hk⟩ := rest.2 m2
      exact ⟨d', d1, step.2 m1, hd1, hk⟩

theorem keepsUp_last {suffix : Str} : ∀ {es : List Edition} {s : Schema} {d d' : Db DdlColumn}, BuiltBy (Mysql.exportSchema none suffix s) d →
    KeepsUp suffix s es d d' → MigratesAll (migrations suffix s es) d d' ∧ BuiltBy (Mysql.exportSchema none suffix (lastEdition s es)) d'
  | [], _, _, _, hd, h => ⟨h, by rw [show _ = _ from h]; exact hd⟩
  | _ :: _, _, _, _, _, ⟨dm, h1, h2, h3⟩ => ⟨⟨dm, h1, (keepsUp_last h2 h3).1⟩, (keepsUp_last h2 h3).2⟩

theorem scriptable_last {suffix : Str} : ∀ {es : List Edition} {s : Schema}, Scriptable suffix s → (∀ e ∈ es, Scriptable suffix e.schema) →
    Scriptable suffix (lastEdition s es)
  | [], _, hs, _ => hs
  | e :: es, _, _, he => scriptable_last (es := es) (he e List.mem_cons_self) fun x hx => he x (List.mem_cons_of_mem _ hx)

/-- C156: the script of `export mysql` for the first version and then all scripts of the history, on an empty server, lead to the database
of the last version. -/
theorem C156_from_scratch_partial (suffix : Str) (hsuf : UnescapedName suffix) (es : List Edition) (s : Schema) (hs : Scriptable suffix s)
    (he : ∀ e ∈ es, Scriptable suffix e.schema ∧ e.sched.Fair) (h : AllMoves Mysql.toMysqlColumnType s es) :
    ∃ d d', BuiltBy (Mysql.exportSchema none suffix s) d ∧ MigratesAll (migrations suffix s es) d d' ∧
      BuiltBy (Mysql.exportSchema none suffix (lastEdition s es)) d' := by
  obtain ⟨d, hd⟩ := C143_built suffix hsuf s hs
  obtain ⟨d', hk⟩ := (C156_exact suffix hsuf es s hs he d hd).2 h
  exact ⟨d, d', hd, keepsUp_last hd hk⟩

theorem migratesAll_unique : ∀ {xs : List Str} {d d₁ d₂ : Db DdlColumn}, MigratesAll xs d d₁ → MigratesAll xs d d₂ → d₁ = d₂
  | [], _, _, _, h1, h2 => (show _ = _ from h1).trans (show _ = _ from h2).symm
  | _ :: _, _, _, _, ⟨a, ⟨l, ha, hr⟩, h1⟩, ⟨b, ⟨l', hb, hr'⟩, h2⟩ => by
    obtain rfl := Option.some.inj (ha.symm.trans hb)
    obtain rfl := Flyway.actRuns_unique hr hr'
    exact migratesAll_unique h1 h2

/-- C156: the way does not matter.  Two histories with the same first and the same last tables lead to the same database; one of them can
be a single step, or none when the last version is the first one. -/
theorem C156_ways_partial (suffix : Str) (hsuf : UnescapedName suffix) (es es' : List Edition) (s : Schema) (hs : Scriptable suffix s)
    (he : ∀ e ∈ es, Scriptable suffix e.schema ∧ e.sched.Fair) (he' : ∀ e ∈ es', Scriptable suffix e.schema ∧ e.sched.Fair)
    (h : AllMoves Mysql.toMysqlColumnType s es) (h' : AllMoves Mysql.toMysqlColumnType s es')
    (hl : (lastEdition s es).tables = (lastEdition s es').tables) (d : Db DdlColumn) (hd : BuiltBy (Mysql.exportSchema none suffix s) d) :
    ∃ d', ∀ x, (MigratesAll (migrations suffix s es) d x ↔ x = d') ∧ (MigratesAll (migrations suffix s es') d x ↔ x = d') := by
  obtain ⟨d₁, k₁⟩ := (C156_exact suffix hsuf es s hs he d hd).2 h
  obtain ⟨d₂, k₂⟩ := (C156_exact suffix hsuf es' s hs he' d hd).2 h'
  obtain ⟨m₁, b₁⟩ := keepsUp_last hd k₁
  obtain ⟨m₂, b₂⟩ := keepsUp_last hd k₂
  have e : d₁ = d₂ := by
    obtain ⟨a1, a2⟩ := Flyway.builtBy hsuf (scriptable_last hs fun e h => (he e h).1) b₁
    obtain ⟨c1, c2⟩ := Flyway.builtBy hsuf (scriptable_last hs fun e h => (he' e h).1) b₂
    rw [← hl] at c1 c2
    funext n
    by_cases hn : n ∈ (lastEdition s es).tables.map (·.name)
    · obtain ⟨t, ht, rfl⟩ := List.mem_map.1 hn
      rw [a1 t ht, c1 t ht]
    · rw [a2 n hn, c2 n hn]
  subst e
  exact ⟨d₁, fun x => ⟨⟨fun hx => migratesAll_unique hx m₁, fun hx => by rw [hx]; exact m₁⟩,
    ⟨fun hx => migratesAll_unique hx m₂, fun hx => by rw [hx]; exact m₂⟩⟩⟩

/-- C156: forth and back. -/
theorem C156_back_partial (suffix : Str) (hsuf : UnescapedName suffix) (e e' : Edition) (s : Schema) (hs : Scriptable suffix s)
    (he : Scriptable suffix e.schema) (hfair : e.sched.Fair ∧ e'.sched.Fair) (hb : e'.schema = s)
    (h : SchemaMoves Mysql.toMysqlColumnType s e.schema) (h' : SchemaMoves Mysql.toMysqlColumnType e.schema s) (d : Db DdlColumn)
    (hd : BuiltBy (Mysql.exportSchema none suffix s) d) : MigratesAll [migration suffix s e, migration suffix e.schema e'] d d := by
  obtain ⟨d', hx⟩ := C156_ways_partial suffix hsuf [e, e'] [] s hs
    (fun x hx => by
      rcases List.mem_cons.1 hx with rfl | hx
      · exact ⟨he, hfair.1⟩
      · rw [List.mem_singleton.1 hx, hb]
        exact ⟨hs, hfair.2⟩)
    (fun x hx => by cases hx) ⟨h, by rw [hb]; exact h', trivial⟩ trivial (by rw [show lastEdition s [e, e'] = e'.schema from rfl, hb]; rfl) d hd
  obtain rfl := (hx d).2.1 rfl
  exact (hx d).1.2 rfl

/-- Three versions: a column changes its type by way of a version without the table. -/
def detour : Schema × Schema × Schema := (oneUser [plainN], {}, oneUser [{ plainN with type := "int32"ₛ }])

theorem no_common {a b : Schema} (h : ∀ o ∈ a.tables, ∀ t ∈ b.tables, o.name ≠ t.name) (hu : ∀ t ∈ b.tables, ¬HasUnique t) :
    SchemaMoves Mysql.toMysqlColumnType a b :=
  ⟨fun o ho t ht e => absurd e (h o ho t ht), fun _ _ _ t ht _ _ => hu t ht⟩

/-- The hypotheses of `C156_exact` and `C156_from_scratch_partial` are met by a history of two steps. -/
example : ∃ d d', BuiltBy (Mysql.exportSchema none "_UQ"ₛ detour.1) d ∧
    MigratesAll (migrations "_UQ"ₛ detour.1 [⟨detour.2.1, [], false, idSched⟩, ⟨detour.2.2, "me"ₛ, true, idSched⟩]) d d' ∧
      BuiltBy (Mysql.exportSchema none "_UQ"ₛ detour.2.2) d' := by
  have hc : ∀ s ∈ [detour.1, detour.2.1, detour.2.2], scriptCheck s = true := by decide +kernel
  have hs : ∀ s ∈ [detour.1, detour.2.1, detour.2.2], Scriptable "_UQ"ₛ s := fun s h => scriptable_of_check _ (hc s h)
  refine C156_from_scratch_partial "_UQ"ₛ (by unfold UnescapedName; decide) _ _ (hs _ List.mem_cons_self) (fun e he => ?_)
    ⟨no_common (fun _ _ t ht => by cases ht) (fun t ht => by cases ht), no_common (fun o ho => by cases ho) ?_, trivial⟩
  · simp only [List.mem_cons, List.not_mem_nil, or_false] at he
    rcases he with rfl | rfl
    · exact ⟨hs _ (List.mem_cons_of_mem _ List.mem_cons_self), idSched_fair⟩
    · exact ⟨hs _ (List.mem_cons_of_mem _ (List.mem_cons_of_mem _ List.mem_cons_self)), idSched_fair⟩
  · unfold HasUnique; decide +kernel

/-- The hypotheses of `C156_ways_partial` and `C156_back_partial` are met: a column becomes mandatory and optional again. -/
example : ∃ (e e' : Edition) (s : Schema) (d : Db DdlColumn), e'.schema = s ∧ e.schema ≠ s ∧ BuiltBy (Mysql.exportSchema none "_UQ"ₛ s) d ∧
    MigratesAll [migration "_UQ"ₛ s e, migration "_UQ"ₛ e.schema e'] d d := by
  have hsuf : UnescapedName "_UQ"ₛ := by unfold UnescapedName; decide
  have move : ∀ a b : Column, a.name = b.name → ColumnMoves Mysql.toMysqlColumnType a b → a.autoIncremental = false → b.autoIncremental = false →
      a.uniqueKey = b.uniqueKey → a.primaryKey = b.primaryKey → SchemaMoves Mysql.toMysqlColumnType (oneUser [a]) (oneUser [b]) := by
    intro a b hn hm ha hb hu hk
    refine ⟨fun o ho t ht _ => ?_, fun o ho hnot => ?_⟩
    · obtain rfl := List.mem_singleton.1 ho
      obtain rfl := List.mem_singleton.1 ht
      refine ⟨fun n => by simp [hn], fun o ho c hc _ => ?_, fun _ => ⟨fun x hx y hy hxa => ?_, fun x hx hxa => ?_⟩, fun n => ?_, Or.inl fun n => ?_⟩
      · rw [List.mem_singleton.1 ho, List.mem_singleton.1 hc]
        exact hm
      · rw [List.mem_singleton.1 hx, hb] at hxa
        cases hxa
      · rw [List.mem_singleton.1 hx, hb] at hxa
        cases hxa
      · unfold uqNames
        simp [hu, hn]
      · unfold pkNames
        simp [hk, hn]
    · obtain rfl := List.mem_singleton.1 ho
      exact absurd (List.mem_cons_self : _ ∈ [_]) hnot
  have hc : ∀ s ∈ [oneUser [plainN], oneUser [{ plainN with notNull := true }]], scriptCheck s = true := by decide +kernel
  have hs : ∀ s ∈ [oneUser [plainN], oneUser [{ plainN with notNull := true }]], Scriptable "_UQ"ₛ s := fun s h => scriptable_of_check _ (hc s h)
  obtain ⟨d, hd⟩ := C143_built "_UQ"ₛ hsuf _ (hs _ List.mem_cons_self)
  exact ⟨⟨oneUser [{ plainN with notNull := true }], [], false, idSched⟩, ⟨oneUser [plainN], [], false, idSched⟩, oneUser [plainN], d, rfl, (by decide +kernel), hd,
    C156_back_partial "_UQ"ₛ hsuf _ _ _ (hs _ List.mem_cons_self) (hs _ (List.mem_cons_of_mem _ List.mem_cons_self)) ⟨idSched_fair, idSched_fair⟩ rfl
      (move plainN { plainN with notNull := true } rfl (by unfold ColumnMoves OnlyNullability; decide +kernel) rfl rfl rfl rfl)
      (move { plainN with notNull := true } plainN rfl (by unfold ColumnMoves OnlyNullability; decide +kernel) rfl rfl rfl rfl) d hd⟩

/-- C156 is violated: two steps can each be migrated, and lead to the last version, while the script from the first version to the last
one does not; and auto-increment that is given is not taken away again. -/
theorem C156_violated (sched : Sched) (hs : sched.Fair) (author : Str) (uc : Bool) :
    (∃ a b c : Schema, AllMoves Mysql.toMysqlColumnType a [⟨b, author, uc, sched⟩, ⟨c, author, uc, sched⟩] ∧
      ∃ d d', BuiltBy (Mysql.exportSchema none "_UQ"ₛ a) d ∧ BuiltBy (Mysql.exportSchema none "_UQ"ₛ c) d' ∧
        MigratesAll (migrations "_UQ"ₛ a [⟨b, author, uc, sched⟩, ⟨c, author, uc, sched⟩]) d d' ∧
        ¬MigratesAll (migrations "_UQ"ₛ a [⟨c, author, uc, sched⟩]) d d') ∧
    ∃ a b : Schema, AllMoves Mysql.toMysqlColumnType a [⟨b, author, uc, sched⟩] ∧
      ∃ d, BuiltBy (Mysql.exportSchema none "_UQ"ₛ a) d ∧
        ¬MigratesAll (migrations "_UQ"ₛ a [⟨b, author, uc, sched⟩, ⟨a, author, uc, sched⟩]) d d := by
  have hsuf : UnescapedName "_UQ"ₛ := by unfold UnescapedName; decide
  constructor
  · have hc : ∀ s ∈ [detour.1, detour.2.1, detour.2.2], scriptCheck s = true := by decide +kernel
    have hss : ∀ s ∈ [detour.1, detour.2.1, detour.2.2], Scriptable "_UQ"ₛ s := fun s h => scriptable_of_check _ (hc s h)
    have ha := hss _ List.mem_cons_self
    have hb := hss _ (List.mem_cons_of_mem _ List.mem_cons_self)
    have hcc := hss _ (List.mem_cons_of_mem _ (List.mem_cons_of_mem _ List.mem_cons_self))
    have hno : ∀ t ∈ detour.2.2.tables, ¬HasUnique t := by unfold HasUnique; decide +kernel
    have hm : AllMoves Mysql.toMysqlColumnType detour.1 [⟨detour.2.1, author, uc, sched⟩, ⟨detour.2.2, author, uc, sched⟩] :=
      ⟨no_common (fun _ _ t ht => by cases ht) (fun t ht => by cases ht), no_common (fun o ho => by cases ho) hno, trivial⟩
    obtain ⟨d, d', h1, h2, h3⟩ := C156_from_scratch_partial "_UQ"ₛ hsuf
      [⟨detour.2.1, author, uc, sched⟩, ⟨detour.2.2, author, uc, sched⟩] detour.1 ha (fun e he => by
        simp only [List.mem_cons, List.not_mem_nil, or_false] at he
        rcases he with rfl | rfl
        · exact ⟨hb, hs⟩
        · exact ⟨hcc, hs⟩) hm
    refine ⟨detour.1, detour.2.1, detour.2.2, hm, d, d', h1, h3, h2, ?_⟩
    rintro ⟨x, hx, hx'⟩
    obtain rfl : d' = x := hx'
    refine flywayMisses_not (oneUser [plainN], oneUser [{ plainN with type := "int32"ₛ }]) (by decide +kernel) ?_
    exact (C143_exact { diffFrom := detour.1, diffTo := detour.2.2, author := author, uniqueNameSuffix := "_UQ"ₛ, useComments := uc } rfl
      sched hs hsuf ha hcc d d' h1 h3).1 hx
  · let a := oneUser [{ plainId with primaryKey := true }]
    let b := oneUser [{ plainId with primaryKey := true, autoIncremental := true }]
    have hc : ∀ s ∈ [oneUser [{ plainId with primaryKey := true }], oneUser [{ plainId with primaryKey := true, autoIncremental := true }]],
        scriptCheck s = true := by decide +kernel
    have ha : Scriptable "_UQ"ₛ a := scriptable_of_check _ (hc _ List.mem_cons_self)
    have hb : Scriptable "_UQ"ₛ b := scriptable_of_check _ (hc _ (List.mem_cons_of_mem _ List.mem_cons_self))
    have hm : SchemaMoves Mysql.toMysqlColumnType a b := by
      refine ⟨fun o ho t ht _ => ?_, fun o ho hn => ?_⟩
      · obtain rfl := List.mem_singleton.1 ho
        obtain rfl := List.mem_singleton.1 ht
        refine ⟨fun n => Iff.rfl, by unfold ColumnMoves OnlyNullability; decide +kernel, fun _ => ⟨by decide +kernel, fun x hx _ => ?_⟩, ?_, Or.inl ?_⟩
        · obtain rfl := List.mem_singleton.1 hx
          exact Or.inl ⟨_, List.mem_cons_self, rfl, rfl⟩
        · intro n
          unfold uqNames
          simp [plainId]
        · intro n
          unfold pkNames
          simp [plainId]
      · obtain rfl := List.mem_singleton.1 ho
        exact absurd (List.mem_cons_self : _ ∈ [_]) hn
    obtain ⟨d, hd⟩ := C143_built "_UQ"ₛ hsuf a ha
    obtain ⟨d1, hd1⟩ := C143_built "_UQ"ₛ hsuf b hb
    have h1 := (C143_exact { diffFrom := a, diffTo := b, author := author, uniqueNameSuffix := "_UQ"ₛ, useComments := uc } rfl
      sched hs hsuf ha hb d d1 hd hd1).2 hm
    refine ⟨a, b, ⟨hm, trivial⟩, d, hd, ?_⟩
    rintro ⟨x, hx, y, hy, hy'⟩
    obtain rfl : d = y := hy'
    obtain rfl : d1 = x := migratesAll_unique (xs := [_]) ⟨_, h1, rfl⟩ ⟨_, hx, rfl⟩
    refine flywayMisses_not (b, a) (by decide +kernel) ?_
    exact (C143_exact { diffFrom := b, diffTo := a, author := author, uniqueNameSuffix := "_UQ"ₛ, useComments := uc } rfl
      sched hs hsuf hb ha d1 d hd1 hd).1 hy

end Octo
