import Verif.Spec.Outputs
import Verif.Props.Targets
import Verif.Props.Dbml
import Verif.Props.Quickdbd
import Verif.Props.Plantuml
import Verif.Props.Protobuf
import Verif.Props.Gorm
import Verif.Props.Graphql
import Verif.Props.Jpa
import Verif.Props.Sqlalchemy
import Verif.Props.Liquibase
import Verif.Props.LiquibaseDb
import Verif.Props.DiffOut

/-! Property C132: what the files say that a successful command has written. -/

namespace Octo.Cli
open Spec

theorem selects_groups (groups : Str) : Selects (getTableFilterFn groups) groups := by
  intro t
  rw [← passes_groups]
  unfold passes
  cases getTableFilterFn groups <;> rfl

theorem set_at (fs : Files) (p : Path) (x : Content) : fs.set p x p = some x := if_pos rfl

/-- The one file of a command. -/
theorem at_one {w : World} {c : Cmd} {v : Values} {fs : Files} {p : Path} {x : Content} (h : (action w c v fs).files = fs.set p x) {f : Str}
    (hf : pathOf f = p) : (action w c v fs).files.at f = some x := by
  unfold Files.at
  rw [h, hf]
  exact set_at _ _ _

/-- C132: `export dbml` writes a file in which every table has its columns, and every reference is stated once. -/
theorem C132_dbml (w : World) (v : Values) (fs : Files) (h : (action w .exportDbml v fs).status = .ok) :
    ∃ s text, load w fs (v "input"ₛ) = some s ∧ (action w .exportDbml v fs).files.at (v "output"ₛ) = some (.text text) ∧
      ((∀ t ∈ s.tables, PlainDbmlTable t) → ∃ d, readDbml text = some d ∧
        List.Forall₂ (fun t u => u.name = t.name ∧ List.Forall₂ DbmlDescribes t.columns u.columns) s.tables d.tables ∧
        (d.inlineRefs ++ d.refs).Perm (schemaRefs s)) := by
  obtain ⟨s, hs, hf⟩ := dbml_done h
  refine ⟨s, _, hs, at_one hf rfl, fun hp => ?_⟩
  obtain ⟨d, h1, h2, h3, -⟩ := C51_relations_partial (getTableFilterFn (v "groups"ₛ)) s hp
  exact ⟨d, h1, h2, h3⟩

/-- C132: `export quickdbd` writes a file in which every table has its columns. -/
theorem C132_quickdbd (w : World) (v : Values) (fs : Files) (h : (action w .exportQuickdbd v fs).status = .ok) :
    ∃ s text, load w fs (v "input"ₛ) = some s ∧ (action w .exportQuickdbd v fs).files.at (v "output"ₛ) = some (.text text) ∧
      ((∀ t ∈ s.tables, PlainQdTable t) → ∃ d, readQd text = some d ∧ List.Forall₂ (fun (t : Table) (b : QdTable) => b.name = t.name ∧
        b.comment = (optText t.description).map trimSpace ∧ List.Forall₂ QdDescribes t.columns b.columns) s.tables d) := by
  obtain ⟨s, hs, hf⟩ := quickdbd_done h
  exact ⟨s, _, hs, at_one hf rfl, C54_blocks_partial s⟩

/-- C132: `generate plantuml` writes a diagram in which every table is an entity with its columns, and every reference is an edge. -/
theorem C132_plantuml (w : World) (v : Values) (fs : Files) (h : (action w .plantuml v fs).status = .ok) :
    ∃ s f text, load w fs (v "input"ₛ) = some s ∧ Writes w v fs f .plantuml ∧ (action w .plantuml v fs).files.at f = some (.text text) ∧
      ((∀ t ∈ s.tables, PlainPuTable t) → ∃ d, readPu text = some d ∧ d.edges = schemaEdges s ∧
        List.Forall₂ (fun (t : Table) (e : PuEntity) => e.name = t.name ∧ List.Forall₂ PuDescribes t.columns (e.above ++ e.below))
          s.tables d.entities) := by
  obtain ⟨s, p, hs, hp, hf⟩ := plantuml_done h
  have hpu := endsIn_iff (exts := plantumlExts) (fun e he => by
    have : ∀ e ∈ plantumlExts, e = '.' :: e.tail ∧ '/' ∉ e.tail ∧ '.' ∉ e.tail := by decide
    exact ⟨_, this e he⟩) (v "output"ₛ)
  have hd : (∀ t ∈ s.tables, PlainPuTable t) → ∃ d, readPu (Plantuml.generate s) = some d ∧ d.edges = schemaEdges s ∧
        List.Forall₂ (fun (t : Table) (e : PuEntity) => e.name = t.name ∧ List.Forall₂ PuDescribes t.columns (e.above ++ e.below))
          s.tables d.entities := by
    intro hp
    obtain ⟨d, h1, h2, h3⟩ := C53_diagram_partial s hp
    exact ⟨d, h1, h2, h3.imp fun _ _ h => ⟨h.1, h.2.1⟩⟩
  rcases hp with ⟨e, rfl⟩ | ⟨e, ho, rfl⟩
  · exact ⟨s, _, _, hs, .inl ⟨hpu.1 e, rfl⟩, at_one hf rfl, hd⟩
  · refine ⟨s, _, _, hs, .inr ⟨fun h => e (hpu.2 h), rfl⟩, at_one hf ?_, hd⟩
    rw [joined_dir ho, List.append_assoc]
    rfl

/-- C132: `generate pb` writes a file with the packages of the options, and with a message for every table of the groups. -/
theorem C132_pb (w : World) (hsc : CleanCase w.sc) (v : Values) (fs : Files) (h : (action w .pb v fs).status = .ok) :
    ∃ s o text, load w fs (v "input"ₛ) = some s ∧ PbMeans v o ∧ (action w .pb v fs).files.at (v "output"ₛ) = some (.text text) ∧
      (PlainProto o s → ∃ f, readProto text = some f ∧ List.Forall₂ (ProtoDescribes w.sc o s) (Selected o s) f.messages ∧
        List.Forall₂ GoodNumbers (Selected o s) f.messages ∧
        f.packages = (if v "package"ₛ = [] then [] else [v "package"ₛ]) ∧
        f.options = (if v "goPackage"ₛ = [] then [] else [("go_package"ₛ, v "goPackage"ₛ)])) := by
  obtain ⟨s, o, text, hs, ho, hg, hf⟩ := pb_done h
  have hm : PbMeans v o := by
    unfold Protobuf.cliOption at ho
    obtain ⟨m, hm, rfl⟩ := Option.map_eq_some_iff.1 ho
    exact ⟨selects_groups _, hm, rfl, rfl, rfl⟩
  refine ⟨s, o, text, hs, hm, at_one hf rfl, fun hp => ?_⟩
  obtain ⟨f, h1, h2, h3, h4, -⟩ := C57_types hsc hp hg
  obtain ⟨f', h1', h5⟩ := C55_numbers hsc hp hg
  cases Option.some.inj (h1.symm.trans h1')
  rw [hm.package] at h3
  rw [hm.goPackage] at h4
  exact ⟨f, h1, h2, h5, h3, h4⟩

/-- C132: `generate gorm` writes a file of the package of the options, with a struct for every table of the groups. -/
theorem C132_gorm (w : World) (hw : Faithful w) (hsc : CleanCase w.sc) (v : Values) (fs : Files) (h : (action w .gorm v fs).status = .ok) :
    ∃ s o f text, load w fs (v "input"ₛ) = some s ∧ GormMeans v o ∧ Writes w v fs f .gorm ∧
      (action w .gorm v fs).files.at f = some (.text text) ∧
      (PlainGorm o s → ∃ g, readGo text = some g ∧
        List.Forall₂ (GormDescribes w.sc o s (Gorm.register Gorm.defaultModels (v "embed"ₛ))) (GormSelected o s) g.structs ∧
        g.tableNames = (GormSelected o s).map (fun t => (goStructName w.sc o t, t.name)) ∧
        g.package = some (if v "package"ₛ = [] then "main"ₛ else v "package"ₛ)) := by
  obtain ⟨s, m, p, hs, hm, hp, hf⟩ := gorm_done h
  have hgo := endsIn_iff (exts := [".go"ₛ]) (fun e he => by rw [List.mem_singleton] at he; exact ⟨"go"ₛ, he, by decide, by decide⟩) (v "output"ₛ)
  have hmeans : GormMeans v (gormOption v m) := ⟨selects_groups _, hm, rfl, rfl, rfl, rfl, Iff.rfl⟩
  have hd := fun hp => C59_columns (sc := w.sc) (o := gormOption v m) (s := s) hsc hp (ords := w.models) hw.models defaultModels_registered
  rcases hp with ⟨e, rfl⟩ | ⟨e, ho, rfl⟩
  · exact ⟨s, _, _, _, hs, hmeans, .inl ⟨hgo.1 e, rfl⟩, at_one hf rfl, hd⟩
  · refine ⟨s, _, _, _, hs, hmeans, .inr ⟨fun h => e (hgo.2 h), rfl⟩, at_one hf ?_, hd⟩
    rw [joined_dir ho, List.append_assoc]
    rfl

/-- C132: `generate graphql` writes a file with a type for every table of the groups, if it can be read at all (C104). -/
theorem C132_graphql (w : World) (hsc : CleanCase w.sc) (hpl : CleanPlural w.plural) (v : Values) (fs : Files)
    (h : (action w .graphql v fs).status = .ok) :
    ∃ s o f text, load w fs (v "input"ₛ) = some s ∧ GraphqlMeans v o ∧ Writes w v fs f .graphql ∧
      (action w .graphql v fs).files.at f = some (.text text) ∧
      (PlainGql o s → ((readGql text).isSome = true ↔ GqlSelected o s ≠ [] ∧ ∀ t ∈ GqlSelected o s, GqlTable w.sc w.plural o t) ∧
        ∀ ds, readGql text = some ds → ∃ schema query types, ds = schema :: query :: types ∧ schema.name = none ∧
          schema.fields = [("query"ₛ, .named "Query"ₛ)] ∧ query.name = some "Query"ₛ ∧
          query.fields = (GqlSelected o s).map (fun t => (gqlQuery w.sc w.plural o t, .list (.named (gqlTypeName w.sc o t)))) ∧
          List.Forall₂ (GqlDescribes w.sc o) (GqlSelected o s) types) := by
  obtain ⟨ho, s, m, hs, hm, hf⟩ := graphql_done h
  refine ⟨s, graphqlOption v m, _, _, hs, ⟨selects_groups _, hm, rfl⟩, ⟨s, hs, rfl⟩, at_one hf ?_, fun hp => ⟨C104_readable_partial hsc hpl hp _, ?_⟩⟩
  · rw [C65_file _ _ _ _ ho]
    show _ = pathOf (v "output"ₛ ++ "/"ₛ ++ (s.name ++ "-"ₛ ++ s.version ++ ".graphqls"ₛ))
    rfl
  · intro ds hd
    obtain ⟨schema, query, types, rfl, h1, h2, h3⟩ := C65_types hsc hpl hp _ hd
    obtain ⟨schema', query', types', e, h4, h5, h6⟩ := C106_queries hsc hpl hp _ hd
    cases e
    refine ⟨schema, query, types, rfl, h1, h4, h2, ?_, h3⟩
    have : List.Forall₂ (fun t f => f = (gqlQuery w.sc w.plural (graphqlOption v m) t, GqlType.list (.named (gqlTypeName w.sc (graphqlOption v m) t))))
        (GqlSelected (graphqlOption v m) s) query.fields := h6.imp fun _ _ h => h.1
    clear h6 h3 hd
    generalize GqlSelected (graphqlOption v m) s = l at this
    generalize query.fields = fields at this
    induction this with
    | nil => rfl
    | cons h _ ih => rw [List.map_cons, h, ih]

/-- C132: `generate liquibase` writes a changelog that declares every table of the groups. -/
theorem C132_liquibase (w : World) (v : Values) (fs : Files) (h : (action w .liquibase v fs).status = .ok) :
    ∃ s sets groups, load w fs (v "input"ₛ) = some s ∧ (action w .liquibase v fs).files.at (v "output"ₛ) = some (.changelog sets) ∧
      changesIn sets = groups.flatten ∧
      List.Forall₂ (DeclaresTable (v.bool "comments"ₛ) (v "uniqueNameSuffix"ₛ)) (s.tables.filter (passes (getTableFilterFn (v "groups"ₛ)))) groups := by
  obtain ⟨s, sets, hs, hg, hf⟩ := liquibase_done h
  obtain ⟨groups, h1, h2⟩ := C37_complete _ _ _ _ hg
  exact ⟨s, sets, groups, hs, at_one hf rfl, h1, h2⟩

/-- C132: `diff md` writes a report between the versions of the two schemas, with an item for every change between them. -/
theorem C132_md (w : World) (hw : Faithful w) (v : Values) (fs : Files) (h : (action w .diffMd v fs).status = .ok) :
    ∃ a b text, load w fs (v "from"ₛ) = some a ∧ load w fs (v "to"ₛ) = some b ∧ (action w .diffMd v fs).files.at (v "output"ₛ) = some (.text text) ∧
      ('\n' ∉ a.version → '\n' ∉ b.version → (∀ s ∈ getDiff (diffOption v a b) w.sched, ∀ c ∈ s.changes, OneLine c) →
        ∃ r, readReport text = some r ∧ r.fromVersion = a.version ∧ r.toVersion = b.version ∧
          (∀ n, n ∈ r.sections.map Prod.fst ↔ ∃ s ∈ getDiff (diffOption v a b) w.sched, ∃ c ∈ s.changes, c.depTable.name = n) ∧
          ∀ s ∈ r.sections, List.Forall₂ Describes s.2
            (((getDiff (diffOption v a b) w.sched).flatMap (·.changes)).filter fun c => decide (c.depTable.name = s.1))) := by
  obtain ⟨a, b, ha, hb, hf⟩ := md_done h
  refine ⟨a, b, _, ha, hb, at_one hf rfl, fun h1 h2 h3 => ?_⟩
  obtain ⟨r, e1, e2, e3, -, e4, e5⟩ := C34_report hw.keys _ _ _ h1 h2 h3
  exact ⟨r, e1, e2, e3, e4, e5⟩

/-- C132: `diff flyway` writes the statements of the changes between the two schemas, in order. -/
theorem C132_flyway (w : World) (v : Values) (fs : Files) (h : (action w .diffFlyway v fs).status = .ok) :
    ∃ a b text, load w fs (v "from"ₛ) = some a ∧ load w fs (v "to"ₛ) = some b ∧ (action w .diffFlyway v fs).files.at (v "output"ₛ) = some (.text text) ∧
      (UnescapedName (v "uniqueNameSuffix"ₛ) → (∀ s ∈ getDiff (diffOption v a b) w.sched, ∀ c ∈ s.changes, PlainChange c ∧ SqlOk c) →
        readScript text = some ((getDiff (diffOption v a b) w.sched).flatMap fun s =>
          s.changes.flatMap (meant Mysql.toMysqlColumnType (v "uniqueNameSuffix"ₛ)))) := by
  obtain ⟨a, b, ha, hb, hf⟩ := flyway_done h
  exact ⟨a, b, _, ha, hb, at_one hf rfl, fun h1 h2 => C35_script_partial _ h1 _ h2⟩

/-- C132: run on an empty database, the changelog of `generate liquibase` makes the tables of the groups. -/
theorem C132_liquibase_db (w : World) (v : Values) (fs : Files) (h : (action w .liquibase v fs).status = .ok) (env : LqEnv) :
    ∃ s sets, load w fs (v "input"ₛ) = some s ∧ (action w .liquibase v fs).files.at (v "output"ₛ) = some (.changelog sets) ∧
      (((s.tables.filter (passes (getTableFilterFn (v "groups"ₛ)))).map (·.name)).Nodup →
        (∀ t ∈ s.tables, InGroups (v "groups"ₛ) t → CleanTable w.float t) →
        (∀ t ∈ s.tables, ¬env.system (t.name ++ v "uniqueNameSuffix"ₛ)) →
        ∃ d, Runs (changelogOps env sets) (fun _ => none) d ∧ HoldsDb env.system (v.bool "comments"ₛ) env.listed (v "uniqueNameSuffix"ₛ)
          (s.tables.filter (passes (getTableFilterFn (v "groups"ₛ)))) d) := by
  obtain ⟨s, sets, hs, hg, hf⟩ := liquibase_done h
  refine ⟨s, sets, hs, at_one hf rfl, fun h1 h2 h3 => ?_⟩
  obtain ⟨sets', hg', d, hr, hd⟩ := C39_builds_partial env w.float
    { tableFilter := getTableFilterFn (v "groups"ₛ), uniqueNameSuffix := v "uniqueNameSuffix"ₛ, useComments := v.bool "comments"ₛ } s h1
    (fun t ht => h2 t (List.mem_filter.1 ht).1 ((passes_groups _ _).1 (List.mem_filter.1 ht).2)) h3
  cases Option.some.inj (hg.symm.trans hg')
  exact ⟨d, hr, hd⟩

/-- C132: run on a database of the old schema, the changelog of `diff liquibase` leaves a database of the new schema, under the
conditions of C40 and without groups. -/
theorem C132_diff_liquibase (w : World) (hw : Faithful w) (v : Values) (hv : v "groups"ₛ = []) (fs : Files)
    (h : (action w .diffLiquibase v fs).status = .ok) (env : LqEnv) (henv : ∀ g, env.onRetype g = g) (hlist : env.listed = true) :
    ∃ a b sets, load w fs (v "from"ₛ) = some a ∧ load w fs (v "to"ₛ) = some b ∧
      (action w .diffLiquibase v fs).files.at (v "output"ₛ) = some (.changelog sets) ∧
      (DistinctNames a → (b.tables.map (·.name)).Nodup → (∀ t ∈ b.tables, CleanTable w.float t ∧ ¬env.system t.name) →
        (∀ t ∈ b.tables, ∀ o ∈ a.tables, o.name = t.name → SmoothChange env (v.bool "comments"ₛ) t o) →
        ∀ d0, HoldsDb env.system (v.bool "comments"ₛ) true [] a.tables d0 →
        (∀ t ∈ b.tables, ∀ o ∈ a.tables, o.name = t.name → ¬SameUnique t o →
          ∀ T, d0 o.name = some T → ∀ k, k ≠ t.name → T.uniques k = none) →
        ∃ d, Runs (changelogOps env sets) d0 d ∧ HoldsDb env.system (v.bool "comments"ₛ) true [] b.tables d) := by
  obtain ⟨a, b, sets, ha, hb, hg, hf⟩ := diffLiquibase_done h
  refine ⟨a, b, sets, ha, hb, at_one hf rfl, fun h1 h2 h3 h4 d0 h5 h6 => ?_⟩
  obtain ⟨sets', hg', d, hr, hd⟩ := C40_migrates_partial env henv hlist w.float
    { tableFilter := getTableFilterFn (v "groups"ₛ), diffFrom := a, diffTo := b, author := v "author"ₛ, useComments := v.bool "comments"ₛ } w.sched
    hw.sched (by rw [hv]; rfl) h1 h2 (fun t ht => (h3 t ht).1) (fun t ht => by rw [List.append_nil]; exact (h3 t ht).2) h4 d0 h5
    (fun t ht o ho e hn T hT k hk => h6 t ht o ho e hn T hT k (by rw [List.append_nil] at hk; exact hk))
  cases Option.some.inj (hg.symm.trans hg')
  exact ⟨d, hr, hd⟩

/-! ### Several files -/

theorem applyWrites_last {ws : List (Path × Content)} {p : Path} (h : ∃ q ∈ ws, q.1 = p) (fs : Files) :
    ∃ x, (p, x) ∈ ws ∧ applyWrites fs ws p = some x := by
  induction ws generalizing fs with
  | nil => obtain ⟨q, hq, _⟩ := h; cases hq
  | cons q ws ih =>
    by_cases hm : ∃ r ∈ ws, r.1 = p
    · obtain ⟨x, h1, h2⟩ := ih hm (fs.set q.1 q.2)
      exact ⟨x, List.mem_cons_of_mem _ h1, h2⟩
    · obtain ⟨r, hr, e⟩ := h
      rcases List.mem_cons.1 hr with rfl | hr
      · refine ⟨r.2, List.mem_cons.2 (.inl (by rw [← e])), ?_⟩
        show applyWrites (fs.set r.1 r.2) ws p = _
        rw [applyWrites_of_not_mem fun r hr e => hm ⟨r, hr, e⟩, ← e]
        exact set_at _ _ _
      · exact absurd ⟨r, hr, e⟩ hm

/-- A name that is an element of a path. -/
def PathName (n : Str) : Prop := '/' ∉ n ∧ n ≠ [] ∧ n ≠ "."ₛ ∧ n ≠ ".."ₛ

theorem joined_last (l : List Str) {n : Str} (h : PathName n) : (joined (l ++ [n])).elems.getLast? = some n := by
  have e : ∀ r acc, enter r acc n = n :: acc := by
    intro r acc
    unfold enter
    rw [split_no_sep h.1, List.foldl_cons, List.foldl_nil, cleanStep.eq_def, if_neg (fun e => e.elim h.2.1 h.2.2.1), if_neg h.2.2.2]
  have : ∀ r, ((split '/' (join "/"ₛ (l ++ [n]))).foldl (cleanStep r) []).reverse.getLast? = some n := by
    intro r
    show (enter r [] (join "/"ₛ (l ++ [n]))).reverse.getLast? = some n
    rw [enter_join, List.foldl_append, List.foldl_cons, List.foldl_nil, e, List.reverse_cons, List.getLast?_concat]
  exact this _

theorem joined_name {l l' : List Str} {n n' : Str} (h : PathName n) (h' : PathName n') (e : joined (l ++ [n]) = joined (l' ++ [n'])) : n = n' := by
  have h1 := joined_last l h
  rw [e, joined_last l' h'] at h1
  exact (Option.some.inj h1).symm

theorem pathName_ext {n e : Str} (h : '/' ∉ n) (he : '/' ∉ e) (hl : 2 < e.length) : PathName (n ++ e) := by
  refine ⟨fun hm => (List.mem_append.1 hm).elim h he, ?_, ?_, ?_⟩ <;>
  · intro e'
    have := congrArg List.length e'
    rw [List.length_append] at this
    first
    | (rw [show ([] : Str).length = 0 from rfl] at this; omega)
    | (rw [show "."ₛ.length = 1 from rfl] at this; omega)
    | (rw [show ".."ₛ.length = 2 from rfl] at this; omega)

theorem filter_one {a : Str} (h : a ≠ []) : Jpa.pathJoin [a] = [a] := List.filter_cons_of_pos (p := (· ≠ [])) (decide_eq_true h)

theorem filter_two {a b : Str} (h : a ≠ []) (hb : b ≠ []) : Jpa.pathJoin [a, b] = [a] ++ [b] := by
  unfold Jpa.pathJoin
  rw [List.filter_cons_of_pos (p := (· ≠ [])) (decide_eq_true h), List.filter_cons_of_pos (p := (· ≠ [])) (decide_eq_true hb)]
  rfl

/-- C132: `generate sqlalchemy` to a file writes a class for every table of the groups, if it can be read at all (C97). -/
theorem C132_sqlalchemy_single (w : World) (hsc : CleanCase w.sc) (v : Values) (hv : EndsIn [".py"ₛ] (v "output"ₛ)) (fs : Files)
    (h : (action w .sqlalchemy v fs).status = .ok) :
    ∃ s o text, load w fs (v "input"ₛ) = some s ∧ SaMeans v o ∧ (action w .sqlalchemy v fs).files.at (v "output"ₛ) = some (.text text) ∧
      (PlainSa w.sc o s → ((readPy text).isSome = true ↔ ∀ t ∈ SaSelected o s, PyTable w.sc o t) ∧
        ∀ f, readPy text = some f → (∀ t ∈ SaSelected o s, ∀ c ∈ t.columns, saType c ≠ none) →
          ∃ pre ks, pyClasses f = pre ++ ks ∧ (∀ k ∈ pre, k.name = "TZDateTime"ₛ) ∧ List.Forall₂ (SaDescribes w.sc o) (SaSelected o s) ks) := by
  obtain ⟨ho, s, m, hs, hm, hf⟩ := sa_done h
  have hsingle : SingleFile (v "output"ₛ) := by
    obtain ⟨x, y, e, hy⟩ := hv
    rw [List.mem_singleton] at hy
    cases y with
    | nil => cases hy
    | cons c y =>
      have hc : c.toLower = '.' := (List.cons.inj hy).1
      refine ⟨x, y, ?_, (List.cons.inj hy).2⟩
      rw [e]
      congr 2
      have := toNat_toLower c
      rw [hc] at this
      have e : ('.' : Char).toNat = 46 := rfl
      rw [e] at this
      split at this
      · omega
      · exact (Char.toNat_inj.1 (e.trans this)).symm
  obtain ⟨text, hg⟩ : ∃ text, Sqlalchemy.generate w.sc (saOption v m) s (v "output"ₛ) = [(Jpa.pathJoin [v "output"ₛ], text)] :=
    ⟨_, Sqlalchemy.generate_single hsingle⟩
  refine ⟨s, saOption v m, text, hs, ⟨selects_groups _, hm, rfl, rfl, Iff.rfl⟩, ?_, fun hp => ?_⟩
  · rw [hg] at hf
    refine at_one (p := pathOf (v "output"ₛ)) (hf.trans ?_) rfl
    rw [filter_one ho]
    rfl
  · obtain ⟨text', hg', h1, h2⟩ := C97_single_partial hsc hp hsingle
    rw [hg] at hg'
    cases hg'
    exact ⟨h1, h2⟩

theorem sa_written_at {sc : Strcase} {o : Sqlalchemy.SaOption} {s : Schema} (hc : CleanCase sc) (hp : PlainSa sc o s)
    (hk : ∀ t ∈ SaSelected o s, PyTable sc o t ∧ t.columns ≠ [] ∧ ∀ c ∈ t.columns, saType c ≠ none) {out : Str} (h : ¬SingleFile out)
    {w : List Str × Str} (hw : w ∈ Sqlalchemy.generate sc o s out) :
    ∃ t ∈ SaSelected o s, w.1 = Jpa.pathJoin [out, t.name ++ ".py"ₛ] ∧ ∃ f, readPy w.2 = some f ∧ ∃ k, pyClasses f = [k] ∧ SaDescribes sc o t k := by
  obtain ⟨i, hi⟩ := List.mem_iff_getElem?.1 hw
  obtain ⟨h1, h2⟩ := Sqlalchemy.generate_files (sc := sc) (o := o) (s := s) h
  obtain ⟨hlt, -⟩ := List.getElem?_eq_some_iff.1 hi
  rw [h1] at hlt
  obtain ⟨t, ht⟩ : ∃ t, (SaSelected o s)[i]? = some t := ⟨_, List.getElem?_eq_getElem hlt⟩
  have hm := List.mem_of_getElem? ht
  obtain ⟨imports, sa, h3, h4, rfl⟩ := h2 i t w ht hi
  refine ⟨t, hm, rfl, _, (Sqlalchemy.read_classText hc hp (Sqlalchemy.mem_selected hm) h3 h4).trans (if_pos ⟨?_, (hk t hm).1⟩),
    Sqlalchemy.pyClassOf sc o t, ?_, Sqlalchemy.table_described hp (Sqlalchemy.mem_selected hm) (hk t hm).2.2⟩
  · rw [Sqlalchemy.pyClasses_fileOf]
    rfl
  · intro e
    obtain ⟨c, hc⟩ := List.exists_mem_of_ne_nil _ (hk t hm).2.1
    obtain ⟨n, hn⟩ := Option.ne_none_iff_exists'.1 ((hk t hm).2.2 c hc)
    have := (h4 n).2 (Or.inr (Or.inr ⟨c, hc, Or.inl hn⟩))
    rw [e] at this
    cases this

/-- C132: `generate sqlalchemy` to a directory writes the class of every table of the groups to a file of its own, when the names
of the tables are different. -/
theorem C132_sqlalchemy_files (w : World) (hsc : CleanCase w.sc) (v : Values) (hv : ¬EndsIn [".py"ₛ] (v "output"ₛ)) (fs : Files)
    (h : (action w .sqlalchemy v fs).status = .ok) :
    ∃ s o, load w fs (v "input"ₛ) = some s ∧ SaMeans v o ∧
      (PlainSa w.sc o s → (∀ t ∈ SaSelected o s, PyTable w.sc o t ∧ t.columns ≠ [] ∧ ∀ c ∈ t.columns, saType c ≠ none) →
        (∀ t ∈ SaSelected o s, '/' ∉ t.name ∧ ∀ u ∈ SaSelected o s, u.name = t.name → u = t) →
        ∀ t ∈ SaSelected o s, ∃ text f k, (action w .sqlalchemy v fs).files.at (v "output"ₛ ++ "/"ₛ ++ (t.name ++ ".py"ₛ)) = some (.text text) ∧
          readPy text = some f ∧ pyClasses f = [k] ∧ SaDescribes w.sc o t k) := by
  obtain ⟨ho, s, m, hs, hm, hf⟩ := sa_done h
  refine ⟨s, saOption v m, hs, ⟨selects_groups _, hm, rfl, rfl, Iff.rfl⟩, fun hp hk hn t ht => ?_⟩
  have hnot : ¬SingleFile (v "output"ₛ) := by
    rintro ⟨a, e, h1, h2⟩
    exact hv ⟨a, '.' :: e, h1, List.mem_singleton.2 (congrArg ('.' :: ·) h2)⟩
  have hname : ∀ u ∈ SaSelected (saOption v m) s, PathName (u.name ++ ".py"ₛ) := fun u hu => pathName_ext (hn u hu).1 (by decide) (by decide)
  obtain ⟨x, hx, hx'⟩ := applyWrites_last (p := joined (Jpa.pathJoin [v "output"ₛ, t.name ++ ".py"ₛ]))
      (ws := (Sqlalchemy.generate w.sc (saOption v m) s (v "output"ₛ)).map fun p => (joined p.1, Content.text p.2)) (by
    have := C99_files (sc := w.sc) (o := saOption v m) (s := s) (v "output"ₛ)
    rw [if_neg hnot] at this
    have hm := List.mem_map_of_mem (f := fun t => Jpa.pathJoin [v "output"ₛ, t.name ++ ".py"ₛ]) ht
    rw [← this] at hm
    obtain ⟨wr, h1, h2⟩ := List.mem_map.1 hm
    exact ⟨_, List.mem_map_of_mem h1, congrArg joined h2⟩) fs
  obtain ⟨wr, hwr, e⟩ := List.mem_map.1 hx
  obtain ⟨u, hu, h1, f, h2, k, h3, h4⟩ := sa_written_at hsc hp hk hnot hwr
  have hj : ∀ u : Table, Jpa.pathJoin [v "output"ₛ, u.name ++ ".py"ₛ] = [v "output"ₛ] ++ [u.name ++ ".py"ₛ] :=
    fun u => filter_two ho (Jpa.append_ne_nil (by decide))
  have hut : u.name = t.name := by
    have e := congrArg Prod.fst e
    dsimp only at e
    rw [h1, hj, hj] at e
    exact List.append_cancel_right (joined_name (hname u hu) (hname t ht) e)
  rw [(hn t ht).2 u hu hut] at h4
  refine ⟨wr.2, f, k, ?_, h2, h3, h4⟩
  unfold Files.at
  rw [hf, ← joined_dir ho, hx', show x = .text wr.2 from (congrArg Prod.snd e).symm]

/-- C132: `generate kt` writes the class of every table of the groups to a file of its own, and its repository when there is a
package for repositories, when the names of the classes are different and none is the name of the repository of another one. -/
theorem C132_kt (w : World) (hsc : CleanCase w.sc) (v : Values) (hv : v "output"ₛ ≠ []) (fs : Files) (h : (action w .kt v fs).status = .ok) :
    ∃ s o, load w fs (v "input"ₛ) = some s ∧ KtMeans v o ∧
      (PlainJpa o s → (∀ t ∈ JpaSelected o s, ∀ u ∈ JpaSelected o s, (ktClassName w.sc o u = ktClassName w.sc o t → u = t) ∧
          ktClassName w.sc o u ≠ ktClassName w.sc o t ++ "Repository"ₛ) →
        ∀ t ∈ JpaSelected o s,
          (KtTable w.sc o t → ∃ text f,
            (action w .kt v fs).files.at (inPackage (v "output"ₛ) (v "package"ₛ) (ktClassName w.sc o t ++ ".kt"ₛ)) = some (.text text) ∧
            readKt text = some f ∧ JpaDescribes w.sc o s t f) ∧
          (Word (v "reposPackage"ₛ) → ∃ text,
            (action w .kt v fs).files.at (inPackage (v "output"ₛ) (v "reposPackage"ₛ) (ktClassName w.sc o t ++ "Repository.kt"ₛ)) = some (.text text) ∧
            readKt text = some (ktRepositoryFile w.sc o t))) := by
  obtain ⟨s, a, m, hs, ha, hm, hend, hf⟩ := kt_done h
  refine ⟨s, ktOption v a m, hs, ⟨selects_groups _, hm, ha, rfl, rfl, rfl, rfl, rfl, rfl⟩, fun hp hd => ?_⟩
  obtain ⟨o, ho⟩ : ∃ o, ktOption v a m = o := ⟨_, rfl⟩
  have hpk : o.package = v "package"ₛ := by rw [← ho]; rfl
  have hrp : o.reposPackage = v "reposPackage"ₛ := by rw [← ho]; rfl
  rw [ho] at hp hd hend hf ⊢
  have hR : Jpa.AllRelated w.sc o s := by
    by_contra hn
    rw [(Jpa.generate_ending hsc hp _).1.2 hn] at hend
    cases hend
  have hK : o.reposPackage ≠ [] → Jpa.AllKeyed o s := by
    intro hr
    by_contra hn
    rw [(Jpa.generate_ending hsc hp _).2.2 ⟨hR, hr, hn⟩] at hend
    cases hend
  have hcls : ∀ t ∈ JpaSelected o s, '/' ∉ ktClassName w.sc o t := by
    intro t ht hm
    exact absurd (List.all_eq_true.1 (Jpa.ident_ktClassName hsc hp (List.mem_filter.1 ht).1).2 _ hm) (by decide)
  have hwr : ∀ wr, wr ∈ (Jpa.generate w.sc o s (v "output"ₛ)).writes ↔
      (∃ u ∈ JpaSelected o s, wr = (entityPath w.sc o (v "output"ₛ) u, Jpa.entityStr w.sc o s u)) ∨
      (o.reposPackage ≠ [] ∧ ∃ u ∈ JpaSelected o s, wr = (repositoryPath w.sc o (v "output"ₛ) u, Jpa.repositoryStr w.sc o u)) := by
    intro wr
    by_cases hr : o.reposPackage = []
    · rw [Jpa.generate_entities hsc hp hR hr, List.mem_map]
      exact ⟨fun ⟨u, hu, e⟩ => .inl ⟨u, hu, e.symm⟩, fun h => h.elim (fun ⟨u, hu, e⟩ => ⟨u, hu, e.symm⟩) fun h => absurd hr h.1⟩
    · rw [Jpa.generate_repositories hsc hp hR hr, Jpa.repositories_done hr (hK hr), List.mem_append, List.mem_map, List.mem_map]
      exact or_congr ⟨fun ⟨u, hu, e⟩ => ⟨u, hu, e.symm⟩, fun ⟨u, hu, e⟩ => ⟨u, hu, e.symm⟩⟩
        ⟨fun ⟨u, hu, e⟩ => ⟨hr, u, hu, e.symm⟩, fun ⟨_, u, hu, e⟩ => ⟨u, hu, e.symm⟩⟩
  have hfile : ∀ (dir : List Str) (n : Str), PathName n → (∃ text, (dir ++ [n], text) ∈ (Jpa.generate w.sc o s (v "output"ₛ)).writes) →
      ∃ wr ∈ (Jpa.generate w.sc o s (v "output"ₛ)).writes, wr.1.getLast? = some n ∧
        (action w .kt v fs).files (joined (dir ++ [n])) = some (.text wr.2) := by
    intro dir n hn ⟨text, htext⟩
    obtain ⟨x, hx, hx'⟩ := applyWrites_last (p := joined (dir ++ [n])) (ws := ktFiles (Jpa.generate w.sc o s (v "output"ₛ)))
      ⟨_, List.mem_map_of_mem htext, rfl⟩ fs
    obtain ⟨wr, h1, h2⟩ := List.mem_map.1 hx
    refine ⟨wr, h1, ?_, by rw [hf, hx', show x = .text wr.2 from (congrArg Prod.snd h2).symm]⟩
    have hl : ∃ d' n', wr.1 = d' ++ [n'] ∧ PathName n' := by
      rcases (hwr wr).1 h1 with ⟨u, hu, rfl⟩ | ⟨_, u, hu, rfl⟩
      · exact ⟨_, _, rfl, pathName_ext (hcls u hu) (by decide) (by decide)⟩
      · exact ⟨_, _, rfl, pathName_ext (hcls u hu) (by decide) (by decide)⟩
    obtain ⟨d', n', e, hn'⟩ := hl
    have h2 := congrArg Prod.fst h2
    dsimp only at h2
    rw [e] at h2 ⊢
    rw [List.getLast?_concat, joined_name hn' hn h2]
  intro t ht
  have hsep : ∀ a b : Str, a ++ ".kt"ₛ ≠ b ++ "Repository.kt"ₛ ∨ a = b ++ "Repository"ₛ := by
    intro a b
    by_cases e : a ++ ".kt"ₛ = b ++ "Repository.kt"ₛ
    · refine .inr ?_
      rw [show "Repository.kt"ₛ = "Repository"ₛ ++ ".kt"ₛ from rfl, ← List.append_assoc] at e
      exact List.append_cancel_right e
    · exact .inl e
  refine ⟨fun hk => ?_, fun hr => ?_⟩
  · obtain ⟨wr, h1, h2, h3⟩ := hfile _ _ (pathName_ext (hcls t ht) (by decide) (by decide)) ⟨_, (hwr _).2 (.inl ⟨t, ht, rfl⟩)⟩
    have hwt : wr = (entityPath w.sc o (v "output"ₛ) t, Jpa.entityStr w.sc o s t) := by
      rcases (hwr wr).1 h1 with ⟨u, hu, rfl⟩ | ⟨_, u, hu, rfl⟩
      · unfold entityPath at h2
        dsimp only at h2
        rw [List.getLast?_concat] at h2
        rw [(hd t ht u hu).1 (List.append_cancel_right (Option.some.inj h2))]
      · unfold repositoryPath at h2
        dsimp only at h2
        rw [List.getLast?_concat] at h2
        rcases hsep (ktClassName w.sc o t) (ktClassName w.sc o u) with e | e
        · exact absurd (Option.some.inj h2).symm e
        · exact absurd e (hd u hu t ht).2
    rw [hwt] at h3
    refine ⟨_, _, ?_, (Jpa.read_entity (Jpa.plain_entity hsc hp (List.mem_filter.1 ht).1 (hR t ht))).1 ((Jpa.valid_iff w.sc o s t).2 hk),
      Jpa.describes (hR t ht) hk⟩
    unfold Files.at
    rw [← hpk, ← joined_package hv _ _ (Jpa.append_ne_nil (by decide)), Jpa.path_eq hp.package.1 (Jpa.append_ne_nil (by decide))]
    exact h3
  · rw [← hrp] at hr ⊢
    obtain ⟨wr, h1, h2, h3⟩ := hfile _ _ (pathName_ext (hcls t ht) (by decide) (by decide)) ⟨_, (hwr _).2 (.inr ⟨hr.1, t, ht, rfl⟩)⟩
    have hwt : wr = (repositoryPath w.sc o (v "output"ₛ) t, Jpa.repositoryStr w.sc o t) := by
      rcases (hwr wr).1 h1 with ⟨u, hu, rfl⟩ | ⟨_, u, hu, rfl⟩
      · unfold entityPath at h2
        dsimp only at h2
        rw [List.getLast?_concat] at h2
        rcases hsep (ktClassName w.sc o u) (ktClassName w.sc o t) with e | e
        · exact absurd (Option.some.inj h2) e
        · exact absurd e (hd t ht u hu).2
      · unfold repositoryPath at h2
        dsimp only at h2
        rw [List.getLast?_concat] at h2
        rw [(hd t ht u hu).1 (List.append_cancel_right (Option.some.inj h2))]
    rw [hwt] at h3
    refine ⟨_, ?_, Jpa.read_repository hsc hp hr (List.mem_filter.1 ht).1⟩
    unfold Files.at
    rw [← joined_package hv _ _ (Jpa.append_ne_nil (by decide)), Jpa.path_eq hr.1 (Jpa.append_ne_nil (by decide))]
    exact h3

/-- C132: the commands succeed for the demonstration, and the texts can be read. -/
example :
    let v := given [("input"ₛ, "a.json"ₛ), ("output"ₛ, "o"ₛ), ("from"ₛ, "a.json"ₛ), ("to"ₛ, "a.json"ₛ), ("package"ₛ, "p"ₛ), ("goPackage"ₛ, "q"ₛ),
      ("reposPackage"ₛ, "r"ₛ), ("groups"ₛ, "g"ₛ)]
    let text := fun c f => (action demoWorld c v demoFiles).files.text f
    (∀ c ∈ [Cmd.exportDbml, .exportQuickdbd, .plantuml, .pb, .gorm, .graphql, .liquibase, .diffMd, .diffFlyway, .diffLiquibase, .sqlalchemy, .kt],
      (action demoWorld c v demoFiles).status = .ok) ∧
    ((text .pb "o"ₛ).bind readProto).map (fun f => (f.packages, f.options, f.messages.map (·.name))) =
      some (["p"ₛ], [("go_package"ₛ, "q"ₛ)], ["AT"ₛ]) ∧
    ((text .gorm "o/output.go"ₛ).bind readGo).map (fun f => (f.package, f.structs.map (·.name))) = some (some "p"ₛ, ["AT"ₛ]) ∧
    ((text .kt "o/p/AT.kt"ₛ).bind readKt).map (fun f => (f.package, f.classes.map (·.name))) = some (some "p"ₛ, ["AT"ₛ]) ∧
    ((text .kt "o/r/ATRepository.kt"ₛ).bind readKt).map (fun f => (f.package, f.repositories.length)) = some (some "r"ₛ, 1) := by
  refine ⟨by decide +kernel, by decide +kernel, by decide +kernel, by decide +kernel, by decide +kernel⟩

end Octo.Cli
