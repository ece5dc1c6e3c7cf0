import Verif.Lemmas.FlywayDb
import Verif.Lemmas.CliOutput
import Verif.Props.Outputs

/-! Property C143: the script of `diff flyway` on a MySQL database. -/

namespace Octo
open Spec

/-- **C143**: on a database built by `export mysql` from the old version of a schema, the script of `diff flyway` runs and
leaves the database that `export mysql` builds from the new version, exactly when every table that is in both versions
changes only in ways the script covers (`TableMoves`), and no table with unique columns is renamed. -/
theorem C143_exact (opt : DiffOption) (hf : opt.tableFilter = none) (sched : Sched) (hs : sched.Fair)
    (hsuf : UnescapedName opt.uniqueNameSuffix) (hfrom : Scriptable opt.uniqueNameSuffix opt.diffFrom)
    (hto : Scriptable opt.uniqueNameSuffix opt.diffTo) (d d' : Db DdlColumn)
    (hd : BuiltBy (Mysql.exportSchema none opt.uniqueNameSuffix opt.diffFrom) d)
    (hd' : BuiltBy (Mysql.exportSchema none opt.uniqueNameSuffix opt.diffTo) d') :
    Migrates (flyway opt.uniqueNameSuffix (getDiff opt sched)) d d' ↔
      SchemaMoves Mysql.toMysqlColumnType opt.diffFrom opt.diffTo := by
  obtain ⟨a1, a2⟩ := Flyway.builtBy hsuf hfrom hd
  obtain ⟨b1, b2⟩ := Flyway.builtBy hsuf hto hd'
  exact Flyway.migrates_iff hsuf hf hfrom hto hs a1 a2 b1 b2

/-- C143: there are such databases. -/
theorem C143_built (suffix : Str) (hsuf : UnescapedName suffix) (s : Schema) (h : Scriptable suffix s) :
    ∃ d, BuiltBy (Mysql.exportSchema none suffix s) d := Flyway.builtBy_exists hsuf h

/-- C143: the same for a run of `diff flyway` without groups. -/
theorem C143_command (w : Cli.World) (hw : Spec.Faithful w) (v : Cli.Values) (hv : v "groups"ₛ = []) (fs : Cli.Files)
    (h : (Cli.action w .diffFlyway v fs).status = .ok) (hsuf : UnescapedName (v "uniqueNameSuffix"ₛ)) :
    ∃ a b text, Cli.load w fs (v "from"ₛ) = some a ∧ Cli.load w fs (v "to"ₛ) = some b ∧
      (Cli.action w .diffFlyway v fs).files.at (v "output"ₛ) = some (.text text) ∧
      (Scriptable (v "uniqueNameSuffix"ₛ) a → Scriptable (v "uniqueNameSuffix"ₛ) b →
        ∀ d d', BuiltBy (Mysql.exportSchema none (v "uniqueNameSuffix"ₛ) a) d →
          BuiltBy (Mysql.exportSchema none (v "uniqueNameSuffix"ₛ) b) d' →
          (Migrates text d d' ↔ SchemaMoves Mysql.toMysqlColumnType a b)) := by
  obtain ⟨a, b, ha, hb, hf⟩ := Cli.flyway_done h
  refine ⟨a, b, _, ha, hb, Cli.at_one hf rfl, fun h1 h2 d d' h3 h4 => ?_⟩
  exact C143_exact (Cli.diffOption v a b) (by unfold Cli.diffOption; rw [hv]; rfl) w.sched hw.sched hsuf h1 h2 d d' h3 h4

/-! ## Versions that are not migrated -/

/-- The column `n`. -/
def plainN : Column := { name := "n"ₛ, type := "int64"ₛ }

/-- The column `id`. -/
def plainId : Column := { name := "id"ₛ, type := "int64"ₛ, notNull := true }

/-- A schema with the table `user`. -/
def oneUser (cs : List Column) : Schema := { tables := [{ name := "user"ₛ, columns := cs }] }

/-- Old and new versions: a column is added; a column is dropped; the type changes; the default value changes; the
nullability of a column with a default changes; auto-increment is switched off; a column becomes unique; a table gets a
primary key; a column that may be null leaves the primary key. -/
def flywayMisses : List (Schema × Schema) :=
  [(oneUser [plainId], oneUser [plainId, plainN]),
   (oneUser [plainId, plainN], oneUser [plainId]),
   (oneUser [plainN], oneUser [{ plainN with type := "int32"ₛ }]),
   (oneUser [plainN], oneUser [{ plainN with defaultValue := "1"ₛ }]),
   (oneUser [{ plainN with defaultValue := "1"ₛ }], oneUser [{ plainN with defaultValue := "1"ₛ, notNull := true }]),
   (oneUser [{ plainId with primaryKey := true, autoIncremental := true }], oneUser [{ plainId with primaryKey := true }]),
   (oneUser [plainN], oneUser [{ plainN with uniqueKey := true }]),
   (oneUser [plainId], oneUser [{ plainId with primaryKey := true }]),
   (oneUser [{ plainId with primaryKey := true }, { plainN with primaryKey := true }], oneUser [{ plainId with primaryKey := true }, plainN])]

/-- A table with a unique column is renamed. -/
def flywayRename : Schema × Schema :=
  ({ tables := [{ name := "a"ₛ, columns := [{ plainN with uniqueKey := true }] }] },
   { tables := [{ name := "b"ₛ, columns := [{ plainN with uniqueKey := true }] }] })

/-- A check of what `Scriptable` requires, for schemas without indices. -/
def scriptCheck (s : Schema) : Bool :=
  let word (s : Str) := !s.isEmpty && s.all fun c => !isBlank c && !isQuote c && c != '(' && c != ')' && c != ',' && c != ';'
  decide (s.tables.map (·.name)).Nodup &&
  s.tables.all fun t => word t.name && t.indices.isEmpty && !t.columns.isEmpty && decide (t.columns.map (·.name)).Nodup &&
    t.columns.all fun c => word c.name && c.name != "COLUMN"ₛ && decide (c.type ∈ colTypes) && c.values.isEmpty && c.description.isEmpty &&
      (c.defaultValue.isEmpty || (!hasPrefix c.defaultValue "fn::"ₛ && c.type != "char"ₛ && c.type != "varchar"ₛ && word c.defaultValue)) &&
      (c.onUpdate.isEmpty || (!hasPrefix c.onUpdate "fn::"ₛ && c.type != "char"ₛ && c.type != "varchar"ₛ && word c.onUpdate))

theorem scriptable_of_check (suffix : Str) {s : Schema} (h : scriptCheck s = true) : Scriptable suffix s := by
  unfold scriptCheck at h
  simp only [Bool.and_eq_true, List.all_eq_true, decide_eq_true_eq, List.isEmpty_iff, Bool.not_eq_true', bne_iff_ne, Bool.or_eq_true] at h
  obtain ⟨h1, h2⟩ := h
  have hw : ∀ s : Str, s.isEmpty = false ∧ (∀ c ∈ s, ((((isBlank c = false ∧ isQuote c = false) ∧ c ≠ '(') ∧ c ≠ ')') ∧ c ≠ ',') ∧ c ≠ ';') → Word s := by
    rintro s ⟨h1, h2⟩
    refine ⟨fun e => (by rw [e] at h1; cases h1), fun c hc => ?_⟩
    obtain ⟨⟨⟨⟨⟨a, b⟩, c'⟩, d⟩, e⟩, f⟩ := h2 c hc
    exact ⟨a, b, c', d, e, f⟩
  refine ⟨h1, fun t ht => (h2 t ht).1.2, fun t ht => ?_, fun t ht => ?_⟩
  · obtain ⟨⟨⟨⟨a, b⟩, c⟩, d⟩, e⟩ := h2 t ht
    refine ⟨⟨hw _ a, fun x hx => ?_, fun i hi => (by rw [b] at hi; cases hi)⟩, fun x hx => ?_⟩
    · obtain ⟨⟨⟨⟨⟨⟨g1, g2⟩, g3⟩, g4⟩, g5⟩, g6⟩, g7⟩ := e x hx
      refine ⟨hw _ g1, g3, fun v hv => (by rw [g4] at hv; cases hv), (by rw [g5]; exact ⟨List.not_mem_nil, List.not_mem_nil⟩), ?_, ?_⟩
      · rcases g6 with g6 | ⟨⟨⟨k1, k2⟩, k3⟩, k4⟩
        · exact Or.inl g6
        · refine Or.inr (Or.inr ⟨(by rw [k1]; decide), ?_⟩)
          rw [if_neg fun h => h.elim k2 k3]
          exact hw _ k4
      · rcases g7 with g7 | ⟨⟨⟨k1, k2⟩, k3⟩, k4⟩
        · exact Or.inl g7
        · refine Or.inr (Or.inr ⟨(by rw [k1]; decide), ?_⟩)
          rw [if_neg fun h => h.elim k2 k3]
          exact hw _ k4
    · exact (e x hx).1.1.1.1.1.2
  · obtain ⟨⟨⟨⟨a, b⟩, c⟩, d⟩, e⟩ := h2 t ht
    refine ⟨fun e => (by rw [e] at c; cases c), fun i hi => (by rw [b] at hi; cases hi), (by rw [b]; exact List.nodup_nil), fun _ => (by rw [b]; exact List.not_mem_nil)⟩

theorem flywayMisses_not : ∀ p ∈ flywayMisses, ¬SchemaMoves Mysql.toMysqlColumnType p.1 p.2 := by
  have one : ∀ a b : List Column, ¬TableMoves Mysql.toMysqlColumnType { name := "user"ₛ, columns := a } { name := "user"ₛ, columns := b } →
      ¬SchemaMoves Mysql.toMysqlColumnType (oneUser a) (oneUser b) :=
    fun a b h hm => h (hm.kept _ List.mem_cons_self _ List.mem_cons_self rfl)
  have col : ∀ a b : Column, a.name = b.name → ¬ColumnMoves Mysql.toMysqlColumnType a b →
      ¬TableMoves Mysql.toMysqlColumnType { name := "user"ₛ, columns := [a] } { name := "user"ₛ, columns := [b] } :=
    fun a b hn h hm => h (hm.columns _ List.mem_cons_self _ List.mem_cons_self hn)
  intro p hp
  simp only [flywayMisses, List.mem_cons, List.not_mem_nil, or_false] at hp
  rcases hp with rfl | rfl | rfl | rfl | rfl | rfl | rfl | rfl | rfl
  · exact one _ _ fun h => absurd ((h.names "n"ₛ).2 (by decide)) (by decide)
  · exact one _ _ fun h => absurd ((h.names "n"ₛ).1 (by decide)) (by decide)
  · exact one _ _ (col _ _ rfl (by unfold ColumnMoves OnlyNullability; decide +kernel))
  · exact one _ _ (col _ _ rfl (by unfold ColumnMoves OnlyNullability; decide +kernel))
  · exact one _ _ (col _ _ rfl (by unfold ColumnMoves OnlyNullability; decide +kernel))
  · exact one _ _ (col _ _ rfl (by unfold ColumnMoves OnlyNullability; decide +kernel))
  · refine one _ _ fun h => ?_
    have := (h.unique "n"ₛ).2 ⟨_, List.mem_cons_self, rfl, rfl⟩
    obtain ⟨c, hc, h1, _⟩ := this
    rw [List.mem_singleton.1 hc] at h1; cases h1
  · refine one _ _ fun h => ?_
    have hno : ¬∃ n, pkNames { name := "user"ₛ, columns := [plainId] } n := by
      rintro ⟨n, c, hc, h1, _⟩
      rw [List.mem_singleton.1 hc] at h1; cases h1
    rcases h.key with h | h
    · exact hno ⟨"id"ₛ, (h "id"ₛ).2 ⟨_, List.mem_cons_self, rfl, rfl⟩⟩
    · exact hno h.1
  · refine one _ _ fun h => ?_
    rcases h.key with h | h
    · obtain ⟨c, hc, h1, h2⟩ := (h "n"ₛ).1 ⟨_, List.mem_cons_of_mem _ List.mem_cons_self, rfl, rfl⟩
      rcases List.mem_cons.1 hc with rfl | hc
      · exact absurd h2 (by decide)
      · rw [List.mem_singleton.1 hc] at h1; cases h1
    · have := h.2.1 plainN (List.mem_cons_of_mem _ List.mem_cons_self) ⟨_, List.mem_cons_of_mem _ List.mem_cons_self, rfl, rfl⟩ rfl
      cases this

theorem flywayRename_not : ¬SchemaMoves Mysql.toMysqlColumnType flywayRename.1 flywayRename.2 := by
  intro h
  exact h.renamed _ List.mem_cons_self (by decide) _ List.mem_cons_self (by decide) rfl ⟨_, List.mem_cons_self, rfl⟩

/-- C143 is violated by all changes of `flywayMisses` and by `flywayRename`: whatever the order of the maps and the other
options, the script either cannot be executed or does not lead to the database of the new version. -/
theorem C143_violated : ∀ p ∈ flywayRename :: flywayMisses, ∀ (sched : Sched), sched.Fair → ∀ (author : Str) (uc : Bool),
    ∃ d d', BuiltBy (Mysql.exportSchema none "_UQ"ₛ p.1) d ∧ BuiltBy (Mysql.exportSchema none "_UQ"ₛ p.2) d' ∧
      ¬Migrates (flyway "_UQ"ₛ (getDiff
        { diffFrom := p.1, diffTo := p.2, author := author, uniqueNameSuffix := "_UQ"ₛ, useComments := uc } sched)) d d' := by
  intro p hp sched hs author uc
  have hc : ∀ p ∈ flywayRename :: flywayMisses, scriptCheck p.1 = true ∧ scriptCheck p.2 = true := by decide +kernel
  have h1 := scriptable_of_check "_UQ"ₛ (hc p hp).1
  have h2 := scriptable_of_check "_UQ"ₛ (hc p hp).2
  have hsuf : UnescapedName "_UQ"ₛ := by unfold UnescapedName; decide
  obtain ⟨d, hd⟩ := C143_built "_UQ"ₛ hsuf p.1 h1
  obtain ⟨d', hd'⟩ := C143_built "_UQ"ₛ hsuf p.2 h2
  refine ⟨d, d', hd, hd', fun h => ?_⟩
  have := (C143_exact { diffFrom := p.1, diffTo := p.2, author := author, uniqueNameSuffix := "_UQ"ₛ, useComments := uc } rfl sched hs hsuf
    h1 h2 d d' hd hd').1 h
  rcases List.mem_cons.1 hp with rfl | hp
  · exact flywayRename_not this
  · exact flywayMisses_not p hp this

/-- Versions that are migrated: a table is dropped, one is created, one is renamed, and in the table `user` the key changes,
auto-increment is switched on, and the nullability of a column changes. -/
def flywayHits : Schema × Schema :=
  ({ tables := [{ name := "user"ₛ, columns := [{ plainId with primaryKey := true, uniqueKey := true }, { plainN with primaryKey := true, notNull := true },
       { name := "m"ₛ, type := "int64"ₛ }] },
     { name := "gone"ₛ, columns := [plainId] }, { name := "a"ₛ, columns := [plainN] }] },
   { tables := [{ name := "user"ₛ, columns := [{ plainId with primaryKey := true, uniqueKey := true, autoIncremental := true },
       { plainN with notNull := true }, { name := "m"ₛ, type := "int64"ₛ, notNull := true }] },
     { name := "new"ₛ, columns := [plainId, plainN] }, { name := "b"ₛ, columns := [plainN] }] })

theorem flywayHits_moves : SchemaMoves Mysql.toMysqlColumnType flywayHits.1 flywayHits.2 := by
  refine ⟨?_, ?_⟩
  · have hn : ∀ o ∈ flywayHits.1.tables, ∀ t ∈ flywayHits.2.tables, o.name = t.name →
        some o = flywayHits.1.tables[0]? ∧ some t = flywayHits.2.tables[0]? := by decide +kernel
    intro o ho t ht e
    obtain ⟨e1, e2⟩ := hn o ho t ht e
    cases e1; cases e2
    have hA : ∀ keys : Str → Prop, keys "id"ₛ → AutoWithin { name := "user"ₛ, columns :=
        [{ plainId with primaryKey := true, uniqueKey := true, autoIncremental := true },
         { plainN with notNull := true }, { name := "m"ₛ, type := "int64"ₛ, notNull := true }] } keys := by
      intro keys hk
      constructor
      · decide +kernel
      · intro a ha h
        simp only [List.mem_cons, List.not_mem_nil, or_false] at ha
        rcases ha with rfl | rfl | rfl
        · exact hk
        · cases h
        · cases h
    have hq : uqNames { name := "user"ₛ, columns :=
        [{ plainId with primaryKey := true, uniqueKey := true, autoIncremental := true },
         { plainN with notNull := true }, { name := "m"ₛ, type := "int64"ₛ, notNull := true }] } "id"ₛ := ⟨_, List.mem_cons_self, rfl, rfl⟩
    refine ⟨?_, ?_, fun _ => hA _ (Or.inr hq), ?_, Or.inr ⟨⟨"id"ₛ, _, List.mem_cons_self, rfl, rfl⟩, ?_, hA _ hq⟩⟩
    · intro n; exact Iff.rfl
    · unfold ColumnMoves OnlyNullability; decide +kernel
    · intro n
      unfold uqNames
      simp [plainId, plainN]
    · have : ∀ c ∈ [{ plainId with primaryKey := true, uniqueKey := true, autoIncremental := true },
         { plainN with notNull := true }, { name := "m"ₛ, type := "int64"ₛ, notNull := true }], c.primaryKey = false → c.notNull = true := by
        decide +kernel
      exact fun c hc _ h => this c hc h
  · unfold HasUnique; decide +kernel

/-- The hypotheses of `C143_exact` are met by a change of many kinds, and the script migrates the database. -/
example : ∃ d d', BuiltBy (Mysql.exportSchema none "_UQ"ₛ flywayHits.1) d ∧ BuiltBy (Mysql.exportSchema none "_UQ"ₛ flywayHits.2) d' ∧
    Migrates (flyway "_UQ"ₛ (getDiff { diffFrom := flywayHits.1, diffTo := flywayHits.2, uniqueNameSuffix := "_UQ"ₛ } idSched)) d d' := by
  have h1 := scriptable_of_check (s := flywayHits.1) "_UQ"ₛ (by decide +kernel)
  have h2 := scriptable_of_check (s := flywayHits.2) "_UQ"ₛ (by decide +kernel)
  have hsuf : UnescapedName "_UQ"ₛ := by unfold UnescapedName; decide
  obtain ⟨d, hd⟩ := C143_built "_UQ"ₛ hsuf flywayHits.1 h1
  obtain ⟨d', hd'⟩ := C143_built "_UQ"ₛ hsuf flywayHits.2 h2
  refine ⟨d, d', hd, hd', ?_⟩
  exact (C143_exact { diffFrom := flywayHits.1, diffTo := flywayHits.2, uniqueNameSuffix := "_UQ"ₛ } rfl idSched idSched_fair hsuf
    h1 h2 d d' hd hd').2 flywayHits_moves

end Octo
