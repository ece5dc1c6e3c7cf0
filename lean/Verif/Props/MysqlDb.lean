import Verif.Lemmas.MysqlDb
import Verif.Props.Mysql
import Verif.Props.LiquibaseDb

/-! Properties C125 and C126: the database built by the exported script, and its agreement with the one
built by the changelog. -/

namespace Octo
open Lq Spec

/-! ## C125 – the exported script on a database -/

/-- C125: running the exported script on a database without tables of these names succeeds and adds exactly
the selected tables: their columns with nullability (also of key columns), auto-increment, default and
comment, the primary key, and the unique constraint over all unique columns. -/
theorem C125_builds (filter : Option (Table → Bool)) (suffix : Str) (hsuf : UnescapedName suffix) (s : Schema)
    (hplain : ∀ t ∈ s.tables.filter (passes filter), PlainTable t)
    (hnd : ((s.tables.filter (passes filter)).map (·.name)).Nodup)
    (hcols : ∀ t ∈ s.tables.filter (passes filter), (t.columns.map (·.name)).Nodup ∧ GoodKeys suffix t)
    (d : Db DdlColumn) (hfree : ∀ t ∈ s.tables.filter (passes filter), d t.name = none) :
    ∃ script d', readDdl (Mysql.exportSchema filter suffix s) = some script ∧ DdlRuns script d d' ∧
      (∀ n, n ∉ (s.tables.filter (passes filter)).map (·.name) → d' n = d n) ∧
      ∀ t ∈ s.tables.filter (passes filter), ∃ T, d' t.name = some T ∧
        (∀ n, (T.cols n).isSome ↔ n ∈ t.columns.map (·.name)) ∧
        (∀ c ∈ t.columns, ∃ a, T.cols c.name = some a ∧ a.notNull = (c.notNull || c.primaryKey) ∧
          a.autoIncrement = c.autoIncremental ∧ (a.default.map SqlValue.text).getD [] = c.defaultValue ∧
          (a.onUpdate.map SqlValue.text).getD [] = c.onUpdate ∧ a.comment.getD [] = c.description) ∧
        (∀ n, T.pk n ↔ pkNames t n) ∧
        (∀ k u, T.uniques k = some u ↔ HasUnique t ∧ k = t.name ++ suffix ∧ u = uqNames t) := by
  classical
  obtain ⟨d', h1, h2, h3⟩ := ddlRuns Mysql.toMysqlColumnType suffix (s.tables.filter (passes filter)) d hnd
    (fun t ht => ddlTable_creatable _ _ (hcols t ht).1 (hcols t ht).2) hfree
  refine ⟨_, d', C17_read_back filter suffix hsuf s (fun t ht hp => hplain t (List.mem_filter.2 ⟨ht, hp⟩)), h1, h3, ?_⟩
  intro t ht
  obtain ⟨hn, hg⟩ := hcols t ht
  refine ⟨_, h2 t ht, ?_, ?_, ?_, ?_⟩
  · intro n
    obtain ⟨f, hf, _⟩ := create_cols Mysql.toMysqlColumnType suffix (t := t) n
    rw [hf, Option.isSome_map, ← Option.ne_none_iff_isSome, ne_eq, columnNamed_eq_none, not_not]
  · intro c hc
    have hcn := (columnNamed_eq_some hn).2 ⟨hc, rfl⟩
    obtain ⟨f, hf, hf'⟩ := create_cols Mysql.toMysqlColumnType suffix (t := t) c.name
    obtain ⟨h4, h5⟩ := hf' c hcn
    have hp : decide (pkNames t c.name) = c.primaryKey := by
      cases hk : c.primaryKey with
      | true => exact decide_eq_true ⟨c, hc, hk, rfl⟩
      | false =>
        refine decide_eq_false ?_
        rintro ⟨c', hm', hk', he⟩
        rw [List.inj_on_of_nodup_map hn hm' hc he, hk] at hk'
        cases hk'
    refine ⟨f c, by rw [hf, hcn]; rfl, by rw [h4, hp], by rw [h5]; rfl, ?_, ?_, ?_⟩
    · rw [h5]
      show (Option.map SqlValue.text (if c.defaultValue = [] then none else some (valueMeaning c.type c.defaultValue))).getD [] = c.defaultValue
      split
      · rename_i e; exact e.symm
      · exact valueMeaning_text _ _
    · rw [h5]
      show (Option.map SqlValue.text (if c.onUpdate = [] then none else some (valueMeaning c.type c.onUpdate))).getD [] = c.onUpdate
      split
      · rename_i e; exact e.symm
      · exact valueMeaning_text _ _
    · rw [h5]
      show (if c.description = [] then none else some c.description : Option Str).getD [] = c.description
      split
      · rename_i e; exact e.symm
      · rfl
  · exact fun n => ddlTable_inKey _ _ n
  · intro k u
    rw [create_uniques, hasUnique_iff_filter]
    split
    · rename_i e; simp [e]
    · rename_i e
      split
      · rename_i e'
        subst e'
        rw [Option.some.injEq]
        exact ⟨fun h => ⟨e, rfl, h.symm⟩, fun h => h.2.2.symm⟩
      · rename_i e'
        exact ⟨fun h => (by cases h), fun h => absurd h.2.1.symm e'⟩

/-- C125: running the script again changes nothing. -/
theorem C125_idempotent (filter : Option (Table → Bool)) (suffix : Str) (s : Schema) (script : List DdlTable)
    (_ : readDdl (Mysql.exportSchema filter suffix s) = some script) (d d' : Db DdlColumn) (h : DdlRuns script d d') :
    DdlRuns script d' d' ∧ ∀ d'', DdlRuns script d' d'' → d'' = d' := by
  have hmono : ∀ (ts : List DdlTable) (a b : Db DdlColumn), DdlRuns ts a b → ∀ n, (a n).isSome → (b n).isSome := by
    intro ts
    induction ts with
    | nil => intro a b hab n hn; rw [show b = a from hab]; exact hn
    | cons t ts ih =>
      rintro a b ⟨c, hs, hr⟩ n hn
      refine ih c b hr n ?_
      rcases hs with ⟨_, rfl⟩ | ⟨_, _, rfl⟩
      · exact hn
      · unfold upd; split
        · rfl
        · exact hn
  have hall : ∀ (ts : List DdlTable) (a b : Db DdlColumn), DdlRuns ts a b → ∀ t ∈ ts, (b t.name).isSome := by
    intro ts
    induction ts with
    | nil => intro a b _ t ht; cases ht
    | cons t ts ih =>
      rintro a b ⟨c, hs, hr⟩ u hu
      rcases List.mem_cons.1 hu with rfl | hu
      · refine hmono ts c b hr _ ?_
        rcases hs with ⟨h, rfl⟩ | ⟨_, _, rfl⟩
        · exact h
        · unfold upd; rw [if_pos rfl]; rfl
      · exact ih c b hr u hu
  have h1 := ddlRuns_known (hall script d d' h)
  exact ⟨h1, fun d'' h2 => ddlRuns_unique h2 h1⟩

/-- C125 has this weakness: a table that is there already, whatever its structure, is left alone. -/
theorem C125_keeps_existing (filter : Option (Table → Bool)) (suffix : Str) (s : Schema) (script : List DdlTable)
    (_ : readDdl (Mysql.exportSchema filter suffix s) = some script) (d d' : Db DdlColumn) (h : DdlRuns script d d')
    (n : Str) (T : DbTable DdlColumn) (hT : d n = some T) : d' n = some T := by
  have key : ∀ (ts : List DdlTable) (a b : Db DdlColumn), DdlRuns ts a b → a n = some T → b n = some T := by
    intro ts
    induction ts with
    | nil => intro a b hab hn; rw [show b = a from hab]; exact hn
    | cons t ts ih =>
      rintro a b ⟨c, hs, hr⟩ hn
      refine ih c b hr ?_
      rcases hs with ⟨_, rfl⟩ | ⟨hf, _, rfl⟩
      · exact hn
      · unfold upd; split
        · rename_i e; rw [← e, hn] at hf; cases hf
        · exact hn
  exact key script d d' h hT

/-- Two tables: keys, a unique constraint, an index, literal defaults. -/
def exScript : Schema :=
  { tables :=
    [{ name := "user"ₛ
       columns := [{ name := "id"ₛ, type := "int64"ₛ, primaryKey := true, autoIncremental := true },
         { name := "name"ₛ, type := "varchar"ₛ, size := 20, notNull := true, uniqueKey := true, defaultValue := "x"ₛ,
           description := "the name"ₛ }]
       indices := [⟨"idx"ₛ, ["name"ₛ, "id"ₛ]⟩] },
     { name := "log"ₛ, columns := [{ name := "text"ₛ, type := "text16"ₛ }] }] }

theorem exScript_plain : ∀ t ∈ exScript.tables, PlainTable t := by
  have hw : ∀ s : Str, (s ≠ [] ∧ s.all (fun c => !isBlank c && !isQuote c && c != '(' && c != ')' && c != ',' && c != ';') = true) → Word s := by
    intro s h
    refine ⟨h.1, fun c hc => ?_⟩
    have := List.all_eq_true.1 h.2 c hc
    simpa [and_assoc] using this
  have hv : ∀ t, PlainValue t [] := fun t => Or.inl rfl
  have hu : Unescaped [] := by unfold Unescaped; simp
  intro t ht
  simp only [exScript, List.mem_cons, List.not_mem_nil, or_false] at ht
  rcases ht with rfl | rfl
  · refine ⟨hw _ (by decide), ?_, ?_⟩
    · intro c hc
      simp only [List.mem_cons, List.not_mem_nil, or_false] at hc
      rcases hc with rfl | rfl
      · exact ⟨hw _ (by decide), by decide +kernel, by simp, hu, hv _, hv _⟩
      · exact ⟨hw _ (by decide), by decide +kernel, by simp, by unfold Unescaped; decide +kernel,
          Or.inr (Or.inr ⟨by decide, by rw [if_pos (by decide)]; unfold Unescaped; decide⟩), hv _⟩
    · intro i hi
      rw [List.mem_singleton] at hi
      subst hi
      unfold UnescapedName; decide
  · refine ⟨hw _ (by decide), ?_, by simp⟩
    intro c hc
    rw [List.mem_singleton] at hc
    subst hc
    exact ⟨hw _ (by decide), by decide +kernel, by simp, hu, hv _, hv _⟩

theorem exScript_keys : ∀ t ∈ exScript.tables, (t.columns.map (·.name)).Nodup ∧ GoodKeys "_UQ"ₛ t := by
  intro t ht
  simp only [exScript, List.mem_cons, List.not_mem_nil, or_false] at ht
  rcases ht with rfl | rfl
  · exact ⟨by decide, by decide, by decide, by decide, fun _ => by decide⟩
  · exact ⟨by decide, by decide, by decide, by decide, fun _ => by decide⟩

example : ∃ script d', readDdl (Mysql.exportSchema none "_UQ"ₛ exScript) = some script ∧
    DdlRuns script (fun _ => none) d' ∧ (d' "user"ₛ).isSome ∧ d' "other"ₛ = none := by
  obtain ⟨script, d', h1, h2, h3, h4⟩ := C125_builds none "_UQ"ₛ (by unfold UnescapedName; decide) exScript
    (by intro t ht; exact exScript_plain t (List.mem_filter.1 ht).1) (by decide)
    (by intro t ht; exact exScript_keys t (List.mem_filter.1 ht).1) (fun _ => none) (fun _ _ => rfl)
  refine ⟨script, d', h1, h2, ?_, h3 _ (by decide)⟩
  obtain ⟨T, hT, _⟩ := h4 _ (List.mem_of_getElem? (i := 0) rfl)
  rw [show d' "user"ₛ = some T from hT]; rfl

/-! ## C126 – script and changelog -/

/-- C126, restricted: the script of `export mysql` and the changelog of `generate liquibase`, each run on an
empty database, build the same structure.  Types are not compared (the changelog names types of Liquibase,
see C18 and C72 for each); the conditions are those of C125 and C39, and indices and on-update values are
not part of what is compared. -/
theorem C126_agree_partial (env : LqEnv) (hlist : env.listed = true) (pf : Str → Option Str) (opt : GenOption) (s : Schema)
    (hsuf : UnescapedName opt.uniqueNameSuffix)
    (hplain : ∀ t ∈ s.tables.filter (passes opt.tableFilter), PlainTable t)
    (hnd : ((s.tables.filter (passes opt.tableFilter)).map (·.name)).Nodup)
    (hkeys : ∀ t ∈ s.tables.filter (passes opt.tableFilter), GoodKeys opt.uniqueNameSuffix t)
    (hclean : ∀ t ∈ s.tables.filter (passes opt.tableFilter), CleanTable pf t)
    (hno : ∀ t ∈ s.tables, ¬env.system (t.name ++ opt.uniqueNameSuffix)) :
    ∃ script sets d e, readDdl (Mysql.exportSchema opt.tableFilter opt.uniqueNameSuffix s) = some script ∧
      generateAll pf opt s = some sets ∧ DdlRuns script (fun _ => none) d ∧
      Runs (changelogOps env sets) (fun _ => none) e ∧ SameDb env.system opt.useComments d e := by
  obtain ⟨sets, h1, e, h2, h3, h4⟩ := C39_builds_partial env pf opt s hnd hclean hno
  rw [hlist] at h3
  obtain ⟨d, h5, h6, h7⟩ := ddlRuns Mysql.toMysqlColumnType opt.uniqueNameSuffix (s.tables.filter (passes opt.tableFilter))
    (fun _ => none) hnd (fun t ht => ddlTable_creatable _ _ (hclean t ht).1 (hkeys t ht)) (fun _ _ => rfl)
  refine ⟨_, sets, d, e, C17_read_back opt.tableFilter opt.uniqueNameSuffix hsuf s
    (fun t ht hp => hplain t (List.mem_filter.2 ⟨ht, hp⟩)), h1, h5, h2, ?_⟩
  intro n
  by_cases hn : n ∈ (s.tables.filter (passes opt.tableFilter)).map (·.name)
  · obtain ⟨t, ht, rfl⟩ := List.mem_map.1 hn
    obtain ⟨U, hU, hh⟩ := h3 t ht
    exact Or.inr ⟨_, U, h6 t ht, hU, sameTable env.system opt.useComments _ _ (hclean t ht).1 hh⟩
  · exact Or.inl ⟨h7 n hn, h4 n hn⟩

theorem exScript_clean : ∀ t ∈ exScript.tables, CleanTable some t := by
  intro t ht
  refine ⟨(exScript_keys t ht).1, ?_⟩
  simp only [exScript, List.mem_cons, List.not_mem_nil, or_false] at ht
  rcases ht with rfl | rfl
  · intro c hc
    simp only [List.mem_cons, List.not_mem_nil, or_false] at hc
    rcases hc with rfl | rfl
    · exact ⟨by unfold CleanName; decide, fun h => absurd rfl h⟩
    · exact ⟨by unfold CleanName; decide, fun _ => ⟨by decide, fun h => absurd h (by decide), fun h => absurd h (by decide),
        fun h => absurd h (by decide)⟩⟩
  · intro c hc
    rw [List.mem_singleton] at hc
    subst hc
    exact ⟨by unfold CleanName; decide, fun h => absurd rfl h⟩

theorem exScript_names : ∀ t ∈ exScript.tables, ∀ onRename onRetype : LqAttr → LqAttr,
    ¬LqEnv.system ⟨true, fun _ c => '?' :: c, onRename, onRetype⟩ (t.name ++ "_UQ"ₛ) := by
  rintro t ht onRename onRetype ⟨a, b, h⟩
  simp only [exScript, List.mem_cons, List.not_mem_nil, or_false] at ht
  rcases ht with rfl | rfl
  · have h2 : (some 'u' : Option Char) = some '?' := congrArg List.head? h
    exact absurd h2 (by decide)
  · have h2 : (some 'l' : Option Char) = some '?' := congrArg List.head? h
    exact absurd h2 (by decide)

example (onRename onRetype : LqAttr → LqAttr) : ∃ script sets d e,
    readDdl (Mysql.exportSchema none "_UQ"ₛ exScript) = some script ∧
    generateAll some { uniqueNameSuffix := "_UQ"ₛ } exScript = some sets ∧ DdlRuns script (fun _ => none) d ∧
    Runs (changelogOps ⟨true, fun _ c => '?' :: c, onRename, onRetype⟩ sets) (fun _ => none) e ∧
    SameDb (LqEnv.system ⟨true, fun _ c => '?' :: c, onRename, onRetype⟩) false d e :=
  C126_agree_partial ⟨true, fun _ c => '?' :: c, onRename, onRetype⟩ rfl some { uniqueNameSuffix := "_UQ"ₛ } exScript
    (by unfold UnescapedName; decide) (fun t ht => exScript_plain t (List.mem_filter.1 ht).1) (by decide)
    (fun t ht => (exScript_keys t (List.mem_filter.1 ht).1).2) (fun t ht => exScript_clean t (List.mem_filter.1 ht).1)
    (fun t ht => exScript_names t ht _ _)

/-- The table without its indices and values on update. -/
def bare (t : Table) : Table :=
  { t with columns := t.columns.map (fun c => { c with onUpdate := [] }), indices := [] }

/-- C126 is violated: the changelog of a schema is the changelog of the schema without indices and values on
update, so what the script does with them the changelog does not do. -/
theorem C126_violated_lost (pf : Str → Option Str) (suffix : Str) (uc : Bool) (s : Schema) :
    generateAll pf { uniqueNameSuffix := suffix, useComments := uc } { s with tables := s.tables.map bare } =
      generateAll pf { uniqueNameSuffix := suffix, useComments := uc } s := by
  have hk : ∀ (p q : Column → Bool) (_ : ∀ c, p { c with onUpdate := [] } = q c) (cs : List Column) (z : StringSet),
      (cs.map (fun c : Column => { c with onUpdate := [] })).foldl (fun s c => if p c then s.add c.name else s) z =
        cs.foldl (fun s c => if q c then s.add c.name else s) z := by
    intro p q hpq cs
    induction cs with
    | nil => intro z; rfl
    | cons c cs ih =>
      intro z
      rw [List.map_cons, List.foldl_cons, List.foldl_cons, ih, hpq]
  have hstep : ∀ (st : LqState) (t : Table),
      genStep pf { uniqueNameSuffix := suffix, useComments := uc } s.author st (bare t) =
        genStep pf { uniqueNameSuffix := suffix, useComments := uc } s.author st t := by
    intro st t
    have h1 : (bare t).uniqueKeyNameSet = t.uniqueKeyNameSet := hk _ _ (fun _ => rfl) t.columns _
    have h2 : (bare t).primaryKeyNameSet = t.primaryKeyNameSet := hk _ _ (fun _ => rfl) t.columns _
    unfold genStep createTableSets
    rw [h1, h2]
    show (if !true then some st else _) = if !true then some st else _
    simp only [Bool.not_true, Bool.false_eq_true, if_false]
    have h3 : ∀ (a b : Bool) (cs : List Column),
        (cs.map (fun c : Column => { c with onUpdate := [] })).mapM (fun c => (newLqColumn pf c a b).map (stripRemarks uc)) =
          cs.mapM (fun c => (newLqColumn pf c a b).map (stripRemarks uc)) := by
      intro a b cs
      induction cs with
      | nil => rfl
      | cons c cs ih =>
        rw [List.map_cons, List.mapM_cons, List.mapM_cons, ih]
        rfl
    rw [show (bare t).columns = t.columns.map (fun c => { c with onUpdate := [] }) from rfl, h3]
    rfl
  unfold generateAll
  dsimp only
  congr 1
  generalize (⟨{}, []⟩ : LqState) = z
  induction s.tables generalizing z with
  | nil => rfl
  | cons t ts ih =>
    rw [List.map_cons, List.foldlM_cons, List.foldlM_cons, hstep]
    cases genStep pf { uniqueNameSuffix := suffix, useComments := uc } s.author z t with
    | none => rfl
    | some z' => exact ih z'

/-- The script does something with an index that the changelog does not do. -/
example : (readDdl (Mysql.exportSchema none "_UQ"ₛ exScript)).map (·.map DdlTable.indexKeys) ≠
    (readDdl (Mysql.exportSchema none "_UQ"ₛ { exScript with tables := exScript.tables.map bare })).map
      (·.map DdlTable.indexKeys) := by
  decide +kernel

end Octo
