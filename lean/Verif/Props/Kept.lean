import Verif.Lemmas.Kept
import Verif.Lemmas.CliAction
import Verif.Lemmas.CliDemo
import Verif.Props.Octopus
import Verif.Props.Cli

/-! Property C142: what a command does not show does not matter, and what it shows does. -/

namespace Octo
open Spec

theorem validate_without {i : Info} {c : Column} (h : i = .values → c.type ≠ "set"ₛ ∧ c.type ≠ "enum"ₛ) :
    Column.validate true (i.column c) = (i.column (Column.validate true c).1, (Column.validate true c).2) := by
  have key : ∀ (a b : Column), a.name = b.name → a.type = b.type → (a.values = b.values ∨ (b.type ≠ "set"ₛ ∧ b.type ≠ "enum"ₛ)) →
      (Column.validate true a).2 = (Column.validate true b).2 := by
    intro a b e1 e2 e3
    have two : ∀ d : Column, (Column.validate true d).2 = if d.name = [] then some .emptyName
        else if d.type = "set"ₛ ∧ (d.values.length ≤ 0 ∨ d.values.length > 64) then some .invalidValues
        else if d.type = "enum"ₛ ∧ d.values.length ≤ 0 then some .invalidValues
        else if (!isValidColType d.type) = true then some .invalidType else none := by
      intro d
      have e4 : ∀ (x : Prop) [Decidable x], (if x then { d with autoIncremental := false } else d).type = d.type ∧
          (if x then { d with autoIncremental := false } else d).values = d.values := by
        intro x _
        split <;> exact ⟨rfl, rfl⟩
      unfold Column.validate
      simp only [Bool.not_true, Bool.and_false, Bool.false_eq_true, if_false, (e4 _).1, (e4 _).2, apply_ite Prod.snd]
    rw [two, two, e1, e2]
    rcases e3 with e3 | ⟨n1, n2⟩
    · rw [e3]
    · have m1 : ∀ (p : Prop), ¬(b.type = "set"ₛ ∧ p) := fun p x => n1 x.1
      have m2 : ∀ (p : Prop), ¬(b.type = "enum"ₛ ∧ p) := fun p x => n2 x.1
      simp only [m1, m2, if_false]
  refine Prod.ext ?_ (key _ _ (Spec.Info.column_name i c) (Spec.Info.column_type i c) ?_)
  · have one : ∀ d : Column, (Column.validate true d).1 =
        if d.name ≠ [] ∧ (d.autoIncremental && !isColTypeAutoIncremental d.type) = true then { d with autoIncremental := false } else d := by
      intro d
      unfold Column.validate
      dsimp only
      by_cases hn : d.name = []
      · rw [if_pos hn, if_neg (c := d.name ≠ [] ∧ _) fun x => x.1 hn]
      · rw [if_neg hn]
        simp only [Bool.not_true, Bool.and_false, Bool.false_eq_true, if_false]
        by_cases hb : (d.autoIncremental && !isColTypeAutoIncremental d.type) = true
        · rw [if_pos hb, if_pos (c := d.name ≠ [] ∧ _) ⟨hn, hb⟩]
          split
          · rfl
          · split
            · rfl
            · split <;> rfl
        · rw [if_neg hb, if_neg (c := d.name ≠ [] ∧ _) fun x => hb x.2]
          split
          · rfl
          · split
            · rfl
            · split <;> rfl
    show (Column.validate true (i.column c)).1 = i.column (Column.validate true c).1
    rw [one, one, Spec.Info.column_name, Spec.Info.column_type]
    by_cases hi : i = .autoIncrement
    · subst hi
      rw [if_neg fun x => by cases x.2]
      split <;> rfl
    · have e : (i.column c).autoIncremental = c.autoIncremental := by cases i <;> first | rfl | exact absurd rfl hi
      rw [e]
      split
      · cases i <;> rfl
      · rfl
  · by_cases hi : i = .values
    · exact .inr (h hi)
    · refine .inl ?_
      cases i <;> first | rfl | exact absurd rfl hi

theorem toNormalizedType_members {t : Str} (h : t ≠ "set"ₛ ∧ t ≠ "enum"ₛ) : toNormalizedType t ≠ "set"ₛ ∧ toNormalizedType t ≠ "enum"ₛ := by
  by_cases hk : t ∈ ["string"ₛ, "tinyint"ₛ, "smallint"ₛ, "mediumint"ₛ, "int"ₛ, "integer"ₛ, "bigint"ₛ, "long"ₛ, "numeric"ₛ, "real"ₛ,
      "timestamp"ₛ, "tinyblob"ₛ, "blob"ₛ, "mediumblob"ₛ, "longblob"ₛ, "tinytext"ₛ, "text"ₛ, "mediumtext"ₛ, "longtext"ₛ]
  · clear h
    revert t
    decide
  · simp only [List.mem_cons, List.not_mem_nil, or_false, not_or] at hk
    unfold toNormalizedType
    simp only [hk, if_false]
    exact h

theorem normCols_without {i : Info} {cs : List Column} (h : i = .values → ∀ c ∈ cs, lower c.type ≠ "set"ₛ ∧ lower c.type ≠ "enum"ₛ) :
    normCols (cs.map i.column) = ((normCols cs).1.map i.column, (normCols cs).2) := by
  induction cs with
  | nil => rfl
  | cons c cs ih =>
    have ih := ih fun e d hd => h e d (List.mem_cons_of_mem _ hd)
    have e1 : (i.column c).normalizeType = i.column c.normalizeType := by
      unfold Column.normalizeType
      rw [Spec.Info.column_type]
      cases i <;> rfl
    have e2 := validate_without (i := i) (c := c.normalizeType) fun e => toNormalizedType_members (h e c List.mem_cons_self)
    rw [List.map_cons]
    unfold normCols
    rw [e1, e2]
    cases hv : Column.validate true c.normalizeType with
    | mk c' o =>
      cases o with
      | none =>
        dsimp only
        rw [ih, List.map_cons]
      | some e => rfl

theorem normTables_without {i : Info} {ts : List Table}
    (h : i = .values → ∀ t ∈ ts, ∀ c ∈ t.columns, lower c.type ≠ "set"ₛ ∧ lower c.type ≠ "enum"ₛ) :
    normTables (ts.map i.table) = ((normTables ts).1.map i.table, (normTables ts).2) := by
  induction ts with
  | nil => rfl
  | cons t ts ih =>
    have ih := ih fun e u hu => h e u (List.mem_cons_of_mem _ hu)
    have e1 := normCols_without (i := i) (cs := t.columns) fun e => h e t List.mem_cons_self
    have e2 : ∀ cs, (⟨t.name, cs.map i.column, (i.table t).description, (i.table t).group, (i.table t).className, (i.table t).indices⟩ : Table) =
        i.table { t with columns := cs } := by
      intro cs
      cases i <;> rfl
    rw [List.map_cons]
    unfold normTables
    rw [Spec.Info.table_columns, e1, Spec.Info.table_name]
    cases hv : normCols t.columns with
    | mk cs o =>
      cases o with
      | none =>
        dsimp only
        rw [e2, ih, List.map_cons]
      | some e =>
        dsimp only
        rw [e2, List.map_cons]

theorem normalize_without {sorter : List Table → List Table} (hs : SortSpec sorter) {i : Info} {s : Schema} (hd : DistinctTables s)
    (h : i = .values → NoMembers s) : ((without i s).normalize sorter).1 = without i (s.normalize sorter).1 := by
  have hp := (hs s.tables).1
  have e : sorter (s.tables.map i.table) = (sorter s.tables).map i.table := by
    have hp' : (sorter (s.tables.map i.table)).Perm ((sorter s.tables).map i.table) :=
      (hs _).1.trans (hp.map _).symm
    refine sorted_tables_unique ?_ (hs _).2 ?_ hp'
    · refine List.Pairwise.perm (l := s.tables.map i.table) (List.pairwise_map.2 (hd.imp fun {a b} hab => ?_)) (hs _).1.symm
        (fun h h' => h ⟨h'.1.symm, h'.2.symm⟩)
      rw [Spec.Info.table_group, Spec.Info.table_group, Spec.Info.table_name, Spec.Info.table_name]
      exact hab
    · refine List.pairwise_map.2 ((hs s.tables).2.imp fun {a b} hab => ?_)
      unfold tableLess at hab ⊢
      rw [Spec.Info.table_group, Spec.Info.table_group, Spec.Info.table_name, Spec.Info.table_name]
      exact hab
  have e2 := normTables_without (i := i) (ts := sorter s.tables) fun hi t ht => h hi t (hp.subset ht)
  unfold Schema.normalize
  dsimp only
  rw [without_tables, e, e2]
  cases i <;> rfl

end Octo

namespace Octo.Cli
open Spec

theorem load_without {w : World} (hw : Faithful w) {fs fs' : Files} {f : Str} {i : Info} {s : Schema} (h1 : Holds fs f s)
    (h2 : Holds fs' f (without i s)) (hd : DistinctTables s) (hv : i = .values → NoMembers s) :
    load w fs' f = (load w fs f).map (without i) := by
  obtain ⟨t, j, a1, a2, a3⟩ := h1
  obtain ⟨t', j', b1, b2, b3⟩ := h2
  unfold load Files.text
  simp only [a1, b1, Option.bind_some, hw.json _ _ a2, hw.json _ _ b2, a3, b3]
  unfold loadSchema
  split
  · simp only [Option.map_some, normalize_without hw.sorter hd hv]
  · rfl

theorem SameRun.of_effect {k k' : Files → Result} {P : Path → Prop} {a : Prop} (h : Effect (fun _ => True) k P a) (he : ∀ fs, k' fs = k fs)
    (fs fs' : Files) : SameRun fs fs' (k fs) (k' fs') := by
  obtain ⟨ws, st, h1, -, -⟩ := h
  rw [he, h1 fs trivial, h1 fs' trivial]
  refine ⟨rfl, fun p => ?_⟩
  by_cases hp : ∃ q ∈ ws, q.1 = p
  · exact .inl (applyWrites_of_mem hp _ _)
  · have hp' : ∀ q ∈ ws, q.1 ≠ p := fun q hq e => hp ⟨q, hq, e⟩
    exact .inr ⟨applyWrites_of_not_mem hp' _, applyWrites_of_not_mem hp' _⟩

theorem sameRun_withSchema {w : World} {fs fs' : Files} {f : Str} {i : Info} (h : load w fs' f = (load w fs f).map (without i))
    {k : Files → Schema → Result} {P : Path → Prop} {a : Prop} (he : ∀ s, Effect (fun _ => True) (fun fs => k fs s) P a)
    (hk : ∀ fs s, k fs (without i s) = k fs s) :
    SameRun fs fs' (withSchema w fs f (k fs)) (withSchema w fs' f (k fs')) := by
  unfold withSchema
  rw [h]
  cases load w fs f with
  | none => exact ⟨rfl, fun p => .inr ⟨rfl, rfl⟩⟩
  | some s => exact SameRun.of_effect (he s) (fun fs => hk fs s) fs fs'

/-- What a command does with the schema that it has read. -/
def cont (w : World) (c : Cmd) (v : Values) (fs : Files) (s : Schema) : Result :=
  match c with
  | .exportDbml =>
    write w fs (pathOf (v "output"ₛ)) (.text (Dbml.exportText (getTableFilterFn (v "groups"ₛ)) s))
  | .exportQuickdbd =>
    write w fs (pathOf (v "output"ₛ)) (.text (Quickdbd.exportText s))
  | .exportMysql =>
    write w fs (pathOf (v "output"ₛ)) (.text (Mysql.exportSchema (getTableFilterFn (v "groups"ₛ)) (v "uniqueNameSuffix"ₛ) s))
  | .exportXlsx =>
    match Xlsx.exportSchema w.accepts (v.bool "useNullColumn"ₛ) s with
    | none => ⟨fs, .error⟩
    | some sheets => write w fs (pathOf (v "output"ₛ)) (.book sheets)
  | .gorm =>
    match newPrefixMapper (v "prefix"ₛ) with
    | none => ⟨fs, .panic⟩
    | some m =>
      let o : Gorm.GormOption :=
        { prefixMapper := m, tableFilter := getTableFilterFn (v "groups"ₛ), embed := v "embed"ₛ, package := v "package"ₛ
          pointerAssociation := v.bool "pointerAssociation"ₛ, removePrefixes := split ',' (v "removePrefix"ₛ)
          uniqueNameSuffix := v "uniqueNameSuffix"ₛ }
      writeIn w fs [".go"ₛ] (v "output"ₛ) "output.go"ₛ (Gorm.generate w.sc w.models Gorm.defaultModels o s).1
  | .graphql =>
    match newPrefixMapper (v "prefix"ₛ) with
    | none => ⟨fs, .panic⟩
    | some m =>
      let o : Graphql.GqlOption :=
        { prefixMapper := m, tableFilter := getTableFilterFn (v "groups"ₛ), removePrefixes := split ',' (v "removePrefix"ₛ) }
      let file := Graphql.generate w.sc w.plural o s (v "output"ₛ)
      if mkdir w (v "output"ₛ) then write w fs (joined file.1) (.text file.2) else ⟨fs, .error⟩
  | .kt =>
    match newAnnotationMapper (v "annotation"ₛ), newPrefixMapper (v "prefix"ₛ) with
    | some a, some m =>
      let o : Jpa.KtOption :=
        { annoMapper := a, prefixMapper := m, tableFilter := getTableFilterFn (v "groups"ₛ), idEntity := v "idEntity"ₛ
          package := v "package"ₛ, relation := v "relation"ₛ, removePrefixes := split ',' (v "removePrefix"ₛ)
          reposPackage := v "reposPackage"ₛ, uniqueNameSuffix := v "uniqueNameSuffix"ₛ }
      let classes := Jpa.newClasses w.sc o s
      if mkdirPackage w (v "output"ₛ) o.package then
        let entities := Jpa.generateEntities w.sc o classes (v "output"ₛ)
        let r := writeAll w (ktStatus entities.ending) fs (ktFiles entities)
        if r.status = .ok ∧ o.reposPackage ≠ [] then
          if mkdirPackage w (v "output"ₛ) o.reposPackage then
            let repositories := Jpa.generateRepositories o classes (v "output"ₛ)
            writeAll w (ktStatus repositories.ending) r.files (ktFiles repositories)
          else ⟨r.files, .error⟩
        else r
      else ⟨fs, .error⟩
    | _, _ => ⟨fs, .panic⟩
  | .liquibase =>
    match Lq.generateAll w.float
      { tableFilter := getTableFilterFn (v "groups"ₛ), uniqueNameSuffix := v "uniqueNameSuffix"ₛ, useComments := v.bool "comments"ₛ } s with
    | none => ⟨fs, .error⟩
    | some sets => write w fs (pathOf (v "output"ₛ)) (.changelog sets)
  | .plantuml =>
    writeIn w fs [".wsd"ₛ, ".pu"ₛ, ".puml"ₛ, ".plantuml"ₛ, ".iuml"ₛ] (v "output"ₛ) "output.plantuml"ₛ (Plantuml.generate s)
  | .pb =>
    match Protobuf.cliOption (v "prefix"ₛ) (v "groups"ₛ) (v "removePrefix"ₛ) (v "package"ₛ) (v "goPackage"ₛ)
        (v "relationTagStart"ₛ) (v.bool "relationTagDecr"ₛ) with
    | none => ⟨fs, .panic⟩
    | some o => match Protobuf.generate w.sc o s with
      | none => ⟨fs, .panic⟩
      | some text => write w fs (pathOf (v "output"ₛ)) (.text text)
  | .sqlalchemy =>
    match newPrefixMapper (v "prefix"ₛ) with
    | none => ⟨fs, .panic⟩
    | some m =>
      let o : Sqlalchemy.SaOption :=
        { prefixMapper := m, tableFilter := getTableFilterFn (v "groups"ₛ), removePrefixes := split ',' (v "removePrefix"ₛ)
          uniqueNameSuffix := v "uniqueNameSuffix"ₛ, useUTC := v.bool "useUTC"ₛ }
      if mkdir w (if Sqlalchemy.single (v "output"ₛ) then dirOf (v "output"ₛ) else v "output"ₛ) then
        writeAll w .ok fs ((Sqlalchemy.generate w.sc o s (v "output"ₛ)).map fun p => (joined p.1, .text p.2))
      else ⟨fs, .error⟩
  | _ => ⟨fs, .ok⟩

theorem action_cont (w : World) {c : Cmd} (hc : c ∈ oneSchema) (v : Values) (fs : Files) :
    action w c v fs = withSchema w fs (v "input"ₛ) (cont w c v fs) := by
  unfold oneSchema at hc
  simp only [List.mem_cons, List.not_mem_nil, or_false] at hc
  rcases hc with rfl | rfl | rfl | rfl | rfl | rfl | rfl | rfl | rfl | rfl | rfl <;> rfl

theorem cont_effect (w : World) {c : Cmd} (hc : c ∈ oneSchema) (v : Values) (s : Schema) :
    Effect (fun _ => True) (fun fs => cont w c v fs s) (fun _ => True) False := by
  have hn : ¬False := id
  unfold oneSchema at hc
  simp only [List.mem_cons, List.not_mem_nil, or_false] at hc
  rcases hc with rfl | rfl | rfl | rfl | rfl | rfl | rfl | rfl | rfl | rfl | rfl <;> simp only [cont]
  · exact .write w trivial _
  · exact .write w trivial _
  · exact .write w trivial _
  · split
    · exact .stop .error
    · exact .write w trivial _
  · split
    · exact .stop .panic
    · exact .mono (fun _ _ => trivial) (.writeIn w _ _ _ _)
  · split
    · exact .stop .panic
    · split
      · exact .write w trivial _
      · exact .stop .error
  · split
    · split
      · exact .two w (fun _ _ => trivial) (fun _ _ _ => trivial) hn
      · exact .stop .error
    · exact .stop .panic
  · split
    · exact .stop .error
    · exact .write w trivial _
  · exact .mono (fun _ _ => trivial) (.writeIn w _ _ _ _)
  · split
    · exact .stop .panic
    · split
      · exact .stop .panic
      · exact .write w trivial _
  · split
    · exact .stop .panic
    · split
      · split
        · exact .writeAll w _ (fun _ _ => trivial) hn
        · exact .stop .error
      · split
        · exact .writeAll w _ (fun _ _ => trivial) hn
        · exact .stop .error

theorem cont_without (w : World) {c : Cmd} (hc : c ∈ oneSchema) {i : Info} (hi : i ∉ shownBy c) (v : Values) (fs : Files) (s : Schema) :
    cont w c v fs (without i s) = cont w c v fs s := by
  unfold oneSchema at hc
  simp only [List.mem_cons, List.not_mem_nil, or_false] at hc
  rcases hc with rfl | rfl | rfl | rfl | rfl | rfl | rfl | rfl | rfl | rfl | rfl <;> unfold cont <;> dsimp only
  · rw [dbml_without hi]
  · rw [quickdbd_without hi]
  · rw [mysql_without hi]
  · rw [xlsx_without hi]
  · split
    · rfl
    · rw [gorm_without hi]
  · split
    · rfl
    · rw [graphql_without hi]
  · split
    · rw [(kt_without hi w.sc _ _ _ _ _ _ _ _ _ s (v "output"ₛ)).1, (kt_without hi w.sc _ _ _ _ _ _ _ _ _ s (v "output"ₛ)).2]
    · rfl
  · rw [liquibase_without hi]
  · rw [plantuml_without hi]
  · unfold Protobuf.cliOption
    cases newPrefixMapper (v "prefix"ₛ) with
    | none => rfl
    | some m =>
      dsimp only [Option.map]
      rw [pb_without hi]
  · split
    · rfl
    · rw [sqlalchemy_without hi]

/-- C142: removing data that a command does not show from the schema that it loads makes no difference. -/
theorem C142_ignored (w : World) (c : Cmd) (hc : c ∈ oneSchema) (i : Info) (hi : i ∉ shownBy c) (v : Values) (fs fs' : Files)
    (h : load w fs' (v "input"ₛ) = (load w fs (v "input"ₛ)).map (without i)) :
    SameRun fs fs' (action w c v fs) (action w c v fs') := by
  rw [action_cont w hc, action_cont w hc]
  exact sameRun_withSchema h (cont_effect w hc v) (cont_without w hc hi v)

/-- C142 (partial): two files with the same schema, where one lacks data that the command does not show. Missing: the values of a column
of type `set` or `enum`, see `C142_violated`. -/
theorem C142_files_partial (w : World) (hw : Faithful w) (c : Cmd) (hc : c ∈ oneSchema) (i : Info) (hi : i ∉ shownBy c) (v : Values)
    (fs fs' : Files) (s : Schema) (h1 : Holds fs (v "input"ₛ) s) (h2 : Holds fs' (v "input"ₛ) (without i s)) (hd : DistinctTables s)
    (hv : i = .values → NoMembers s) : SameRun fs fs' (action w c v fs) (action w c v fs') :=
  C142_ignored w c hc i hi v fs fs' (load_without hw h1 h2 hd hv)

/-- The file `a.json` with the document of a schema. -/
def docFile (s : Schema) : Files := fun p => if p = pathOf "a.json"ₛ then some (.text (Json.print 0 (Json.ofSchema s))) else none

theorem docFile_holds (s : Schema) : Holds (docFile s) "a.json"ₛ s :=
  ⟨Json.print 0 (Json.ofSchema s), Json.ofSchema s, (by unfold Files.at docFile; rw [if_pos rfl]), Json.readJson_print _,
    Json.toSchema_of _⟩

theorem load_docFile (s : Schema) : load demoWorld (docFile s) "a.json"ₛ = some (s.normalize demoWorld.sorter).1 := by
  obtain ⟨t, j, a1, a2, a3⟩ := docFile_holds s
  unfold load Files.text
  simp only [a1, Option.bind_some, demo_faithful.json _ _ a2, a3]
  unfold loadSchema
  rw [if_pos (by decide), Option.map_some]

theorem run_docFile {c : Cmd} (hc : c ∈ oneSchema) {v : Values} (hv : v "input"ₛ = "a.json"ₛ) (s : Schema) :
    action demoWorld c v (docFile s) = cont demoWorld c v (docFile s) (s.normalize demoWorld.sorter).1 := by
  rw [action_cont demoWorld hc, hv]
  unfold withSchema
  rw [load_docFile]

theorem not_sameRun {r r' : Result} {s s' : Schema} {p : Path} (hp : p ≠ pathOf "a.json"ₛ)
    (h : (r.files p).map see ≠ (r'.files p).map see) : ¬SameRun (docFile s) (docFile s') r r' := by
  rintro ⟨-, h'⟩
  rcases h' p with e | ⟨e1, e2⟩
  · exact h (congrArg _ e)
  · refine h (congrArg _ ?_)
    rw [e1, e2]
    unfold docFile
    rw [if_neg hp, if_neg hp]

/-- A schema with all data. -/
def keptDemo : Schema :=
  { author := "me"ₛ, name := "s"ₛ, version := "1"ₛ
    tables := [
      { name := "t"ₛ, description := "d"ₛ, className := "K"ₛ, indices := [⟨"ix"ₛ, ["b"ₛ]⟩]
        columns := [
          { name := "id"ₛ, type := "int64"ₛ, primaryKey := true, autoIncremental := true },
          { name := "b"ₛ, type := "varchar"ₛ, size := 10, uniqueKey := true, notNull := true, description := "x"ₛ, defaultValue := "v"ₛ },
          { name := "n"ₛ, type := "decimal"ₛ, size := 10, scale := 2 },
          { name := "e"ₛ, type := "enum"ₛ, values := ["A"ₛ] },
          { name := "m"ₛ, type := "datetime"ₛ, onUpdate := "fn::now"ₛ }] },
      { name := "u"ₛ
        columns := [
          { name := "id"ₛ, type := "int64"ₛ, primaryKey := true },
          { name := "r"ₛ, type := "int64"ₛ, ref := some ⟨"t"ₛ, "id"ₛ, "1:n"ₛ⟩ }] }] }

/-- The values for the demonstration. -/
def keptValues (c : Cmd) : Values :=
  given [("input"ₛ, "a.json"ₛ), ("relation"ₛ, "VRelation"ₛ), ("comments"ₛ, "true"ₛ), ("package"ₛ, "p"ₛ),
    ("output"ₛ, match c with
      | .gorm => "o.go"ₛ
      | .plantuml => "o.wsd"ₛ
      | .sqlalchemy => "o.py"ₛ
      | _ => "o"ₛ)]

/-- Where the result is looked at. -/
def keptPaths : Cmd → List Path
  | .gorm => [pathOf "o.go"ₛ]
  | .plantuml => [pathOf "o.wsd"ₛ]
  | .sqlalchemy => [pathOf "o.py"ₛ]
  | .graphql => [pathOf "o/s-1.graphqls"ₛ]
  | .kt => [pathOf "o/p/K.kt"ₛ, pathOf "o/p/U.kt"ₛ]
  | _ => [pathOf "o"ₛ]

/-- The demonstration for some data. -/
def keptShows (c : Cmd) (i : Info) : Bool :=
  (keptPaths c).any fun p =>
    decide (((cont demoWorld c (keptValues c) (docFile keptDemo) keptDemo).files p).map see ≠
        ((cont demoWorld c (keptValues c) (docFile (without i keptDemo)) (without i keptDemo)).files p).map see) &&
      decide (p ≠ pathOf "a.json"ₛ)

theorem keptShows_all : ∀ c ∈ oneSchema, ∀ i ∈ shownBy c, keptShows c i = true := by decide +kernel

theorem keptDemo_normal : ∀ i ∈ Info.all, ((without i keptDemo).normalize demoWorld.sorter).1 = without i keptDemo := by decide +kernel

theorem keptDemo_normal' : (keptDemo.normalize demoWorld.sorter).1 = keptDemo := by decide +kernel

theorem keptValues_input (c : Cmd) : keptValues c "input"ₛ = "a.json"ₛ := by cases c <;> rfl

theorem info_mem_all (i : Info) : i ∈ Info.all := by cases i <;> decide

/-- C142: the files of a schema with and without data that the command shows, for which the command writes different files. -/
theorem C142_shown (c : Cmd) (hc : c ∈ oneSchema) (i : Info) (hi : i ∈ shownBy c) :
    ∃ (w : World) (v : Values) (fs fs' : Files) (s : Schema), Faithful w ∧ Holds fs (v "input"ₛ) s ∧
      Holds fs' (v "input"ₛ) (without i s) ∧ DistinctTables s ∧
      load w fs' (v "input"ₛ) = (load w fs (v "input"ₛ)).map (without i) ∧
      ¬SameRun fs fs' (action w c v fs) (action w c v fs') := by
  refine ⟨demoWorld, keptValues c, docFile keptDemo, docFile (without i keptDemo), keptDemo, demo_faithful, ?_, ?_,
    by unfold DistinctTables; decide, ?_, ?_⟩
  · rw [keptValues_input]
    exact docFile_holds _
  · rw [keptValues_input]
    exact docFile_holds _
  · rw [keptValues_input, load_docFile, load_docFile, keptDemo_normal', keptDemo_normal i (info_mem_all i), Option.map_some]
  · rw [run_docFile hc (keptValues_input c), run_docFile hc (keptValues_input c), keptDemo_normal', keptDemo_normal i (info_mem_all i)]
    have h := keptShows_all c hc i hi
    unfold keptShows at h
    obtain ⟨p, -, hp⟩ := List.any_eq_true.1 h
    rw [Bool.and_eq_true, decide_eq_true_iff, decide_eq_true_iff] at hp
    exact not_sameRun hp.2 hp.1

/-- C142: the data that a command shows are exactly those whose removal from the schema that it loads can change what it writes. -/
theorem C142_exact (c : Cmd) (hc : c ∈ oneSchema) (i : Info) :
    i ∉ shownBy c ↔ ∀ (w : World) (v : Values) (fs fs' : Files), Faithful w →
      load w fs' (v "input"ₛ) = (load w fs (v "input"ₛ)).map (without i) →
      SameRun fs fs' (action w c v fs) (action w c v fs') := by
  constructor
  · intro hi w v fs fs' _ h
    exact C142_ignored w c hc i hi v fs fs' h
  · intro h hi
    obtain ⟨w, v, fs, fs', s, hw, -, -, -, hl, hn⟩ := C142_shown c hc i hi
    exact hn (h w v fs fs' hw hl)

/-- A table with an enumeration before a column whose type has another name in the model. -/
def enumDemo : Schema :=
  { tables := [{ name := "t"ₛ, columns := [
      { name := "e"ₛ, type := "enum"ₛ, values := ["A"ₛ] }, { name := "n"ₛ, type := "bigint"ₛ }] }] }

/-- C142 (violated): QuickDBD shows no values of columns, but without those of an enumeration the later columns keep the types that they
have in the file, because the error of `Normalize` is dropped after it has stopped. -/
theorem C142_violated : ∃ (w : World) (v : Values) (fs fs' : Files) (s : Schema), Faithful w ∧ .values ∉ shownBy .exportQuickdbd ∧
    Holds fs (v "input"ₛ) s ∧ Holds fs' (v "input"ₛ) (without .values s) ∧ DistinctTables s ∧
    ¬SameRun fs fs' (action w .exportQuickdbd v fs) (action w .exportQuickdbd v fs') := by
  have hc : Cmd.exportQuickdbd ∈ oneSchema := by decide
  refine ⟨demoWorld, keptValues .exportQuickdbd, docFile enumDemo, docFile (without .values enumDemo), enumDemo, demo_faithful,
    by decide, ?_, ?_, by unfold DistinctTables; decide, ?_⟩
  · rw [keptValues_input]
    exact docFile_holds _
  · rw [keptValues_input]
    exact docFile_holds _
  · rw [run_docFile hc (keptValues_input _), run_docFile hc (keptValues_input _)]
    exact not_sameRun (p := pathOf "o"ₛ) (by decide) (by decide +kernel)

/-- C142: the hypotheses hold for the files of the demonstration, for each command and each sort of data that it does not show. -/
example (c : Cmd) (hc : c ∈ oneSchema) (i : Info) (hi : i ∉ shownBy c) :
    SameRun (docFile keptDemo) (docFile (without i keptDemo)) (action demoWorld c (keptValues c) (docFile keptDemo))
      (action demoWorld c (keptValues c) (docFile (without i keptDemo))) := by
  refine C142_ignored demoWorld c hc i hi _ _ _ ?_
  rw [keptValues_input, load_docFile, load_docFile, keptDemo_normal', keptDemo_normal i (info_mem_all i), Option.map_some]

example : SameRun (docFile keptDemo) (docFile (without .author keptDemo))
    (action demoWorld .exportMysql (keptValues .exportMysql) (docFile keptDemo))
    (action demoWorld .exportMysql (keptValues .exportMysql) (docFile (without .author keptDemo))) :=
  C142_files_partial demoWorld demo_faithful .exportMysql (by decide) .author (by decide) _ _ _ keptDemo
    (by rw [keptValues_input]; exact docFile_holds _) (by rw [keptValues_input]; exact docFile_holds _) (by unfold DistinctTables; decide)
    (fun e => by cases e)

example : Cmd.plantuml ∈ oneSchema ∧ Info.size ∉ shownBy .plantuml ∧ Info.notNull ∈ shownBy .plantuml := by decide

end Octo.Cli
