import Verif.Lemmas.JpaRepository
import Verif.Lemmas.Strcase

/-! Properties C61, C62 and C89-C96: the JPA generator for Kotlin. -/

namespace Octo
open Spec Jpa

/-- The schema of the examples. -/
def jpaSchema : Schema :=
  { tables := [
      { name := "t_user"ₛ, columns := [
          { name := "id"ₛ, type := "int64"ₛ, primaryKey := true, notNull := true, autoIncremental := true },
          { name := "userName"ₛ, type := "varchar"ₛ, size := 20, uniqueKey := true, notNull := true },
          { name := "balance"ₛ, type := "decimal"ₛ, size := 10, scale := 2 },
          { name := "created_at"ₛ, type := "datetime"ₛ, notNull := true }] },
      { name := "order_item"ₛ, columns := [
          { name := "order_id"ₛ, type := "int64"ₛ, primaryKey := true, notNull := true },
          { name := "item_no"ₛ, type := "int32"ₛ, primaryKey := true, notNull := true },
          { name := "buyer"ₛ, type := "int64"ₛ, ref := some ⟨"t_user"ₛ, "id"ₛ, "n:1"ₛ⟩ }] }] }

/-- The options of the examples. -/
def jpaOption : KtOption := ⟨⟨[], [], false⟩, ⟨[], [], false⟩, none, "IdEntity"ₛ, "com.x"ₛ, "VRelation"ₛ, ["t_"ₛ], "com.r"ₛ, "_uq"ₛ⟩

/-- The option fits the examples. -/
def JpaExampleOption (o : KtOption) : Prop :=
  o.prefixMapper = ⟨[], [], false⟩ ∧ o.annoMapper = ⟨[], [], false⟩ ∧ o.package = "com.x"ₛ ∧ o.idEntity = "IdEntity"ₛ ∧
    o.uniqueNameSuffix = "_uq"ₛ ∧ o.removePrefixes = ["t_"ₛ]

theorem jpaOption_plain {o : KtOption} {s : Schema} (h : JpaExampleOption o)
    (ht : ∀ t ∈ s.tables, PlainQuoted '"' t.name ∧ HasAlnum (["t_"ₛ].foldl trimPrefix t.name) ∧ (t.className = [] ∨ Ident t.className))
    (hc : ∀ t ∈ s.tables, ∀ c ∈ t.columns, PlainQuoted '"' c.name ∧ HasAlnum c.name ∧ ∀ r ∈ c.ref, HasAlnum r.column) : PlainJpa o s where
  tables := by rw [h.2.2.2.2.2]; exact ht
  prefixes g := by rw [h.1]; rfl
  columns := hc
  package := by rw [h.2.2.1]; exact ⟨by decide, by decide⟩
  idEntity := by rw [h.2.2.2.1]; right; decide
  suffix := by rw [h.2.2.2.2.1]; decide
  annotations g a ha := by rw [h.2.1] at ha; exact .inl (List.mem_singleton.1 ha)

theorem jpaSchema_plain {o : KtOption} (h : JpaExampleOption o) : PlainJpa o jpaSchema :=
  jpaOption_plain h (by decide +kernel) (by decide +kernel)

theorem jpaOption_example : JpaExampleOption jpaOption := ⟨rfl, rfl, rfl, rfl, rfl, rfl⟩

theorem jpaSchema_related : AllRelated strcase jpaOption jpaSchema := by
  show ∀ t ∈ JpaSelected jpaOption jpaSchema, ∀ c ∈ t.columns, Related strcase jpaOption jpaSchema c
  decide +kernel

/-! ### C61: columns -/

/-- C61: when the references lead to selected tables, the file of each selected table is written. When its names and default values
are fit for Kotlin it can be read, and says of each column once and in order what the schema says: the type, whether it is nullable,
and the annotations; and a key of several columns has its class. -/
theorem C61_columns {sc : Strcase} {o : KtOption} {s : Schema} (hc : CleanCase sc) (hp : PlainJpa o s) (hR : AllRelated sc o s) (out : Str)
    {t : Table} (ht : t ∈ JpaSelected o s) (hk : KtTable sc o t) :
    ∃ text f, (entityPath sc o out t, text) ∈ (generate sc o s out).writes ∧ readKt text = some f ∧ JpaDescribes sc o s t f :=
  ⟨_, _, entity_written hc hp hR out ht,
    (read_entity (plain_entity hc hp (List.mem_filter.1 ht).1 (hR t ht))).1 ((valid_iff sc o s t).2 hk), describes (hR t ht) hk⟩

/-- The hypotheses of C61 hold of the example. -/
example : CleanCase strcase ∧ PlainJpa jpaOption jpaSchema ∧ AllRelated strcase jpaOption jpaSchema ∧
    ∀ t ∈ JpaSelected jpaOption jpaSchema, KtTable strcase jpaOption t :=
  ⟨strcase_clean, jpaSchema_plain jpaOption_example, jpaSchema_related, by decide +kernel⟩

/-- C61: what is read is a property per column. -/
theorem C61_once {sc : Strcase} {o : KtOption} {s : Schema} {t : Table} {f : KtFile} (h : JpaDescribes sc o s t f) :
    ∃ e rest, f.classes = e :: rest ∧ e.properties.map (fun p => (p.name, p.type)) =
      t.columns.map fun c => (sc.toLowerCamel c.name, ktTypeOf c) := by
  obtain ⟨e, rest, h1, _, _, _, h2, _⟩ := h.entity
  refine ⟨e, rest, h1, ?_⟩
  generalize e.properties = ps at h2
  generalize t.columns = cs at h2
  induction h2 with
  | nil => rfl
  | cons h _ ih => rw [List.map_cons, List.map_cons, ih, h.name, h.type]

/-- C61: the unique constraint lists the unique columns exactly when their property names are their column names. -/
theorem C61_unique_partial {sc : Strcase} {o : KtOption} {s : Schema} (hc : CleanCase sc) (hp : PlainJpa o s) (hR : AllRelated sc o s)
    (out : Str) {t : Table} (ht : t ∈ JpaSelected o s) (hk : KtTable sc o t) :
    ∃ text f, (entityPath sc o out t, text) ∈ (generate sc o s out).writes ∧ readKt text = some f ∧
      (UniqueListed o t f ↔ ∀ c ∈ uniqueColumns t, sc.toLowerCamel c.name = c.name) := by
  refine ⟨_, _, entity_written hc hp hR out ht,
    (read_entity (plain_entity hc hp (List.mem_filter.1 ht).1 (hR t ht))).1 ((valid_iff sc o s t).2 hk), ?_⟩
  show some (if uniqueColumns t = [] then none else some (t.name ++ o.uniqueNameSuffix, (uniqueColumns t).map fun c => sc.toLowerCamel c.name)) =
    some (if uniqueColumns t = [] then none else some (t.name ++ o.uniqueNameSuffix, (uniqueColumns t).map (·.name))) ↔ _
  rw [Option.some.injEq]
  by_cases h : uniqueColumns t = []
  · rw [if_pos h, if_pos h, h]
    exact ⟨fun _ c hc => (by cases hc), fun _ => rfl⟩
  · rw [if_neg h, if_neg h, Option.some.injEq, Prod.mk.injEq, List.map_inj_left]
    exact ⟨fun e => e.2, fun e => ⟨rfl, e⟩⟩

/-- C61 is violated: there are a schema and a table whose unique constraint does not list the unique column, but its property. -/
theorem C61_unique_violated : ∃ (s : Schema) (o : KtOption) (t : Table) (f : KtFile), PlainJpa o s ∧ t ∈ JpaSelected o s ∧
    KtTable strcase o t ∧ readKt (entityStr strcase o s t) = some f ∧
    (entityPath strcase o "out"ₛ t, entityStr strcase o s t) ∈ (generate strcase o s "out"ₛ).writes ∧ ¬UniqueListed o t f := by
  let t : Table := { name := "user"ₛ, columns := [{ name := "id"ₛ, type := "int64"ₛ, primaryKey := true, notNull := true },
    { name := "user_name"ₛ, type := "varchar"ₛ, uniqueKey := true }] }
  have hp : PlainJpa jpaOption { tables := [t] } := jpaOption_plain jpaOption_example (by decide +kernel) (by decide +kernel)
  have ht : t ∈ JpaSelected jpaOption { tables := [t] } := List.mem_singleton.2 rfl
  have hR : AllRelated strcase jpaOption { tables := [t] } := by
    show ∀ x ∈ JpaSelected jpaOption { tables := [t] }, ∀ c ∈ x.columns, Related strcase jpaOption { tables := [t] } c
    decide +kernel
  have hk : KtTable strcase jpaOption t := by decide +kernel
  refine ⟨{ tables := [t] }, jpaOption, t, _, hp, ht, hk,
    (read_entity (plain_entity strcase_clean hp (List.mem_filter.1 ht).1 (hR t ht))).1 ((valid_iff _ _ _ t).2 hk),
    entity_written strcase_clean hp hR _ ht, ?_⟩
  unfold UniqueListed
  decide +kernel

/-! ### C62: repositories -/

/-- C62: when each selected table has a primary key, a repository is written for each one, with its entity and the type of its key. -/
theorem C62_repositories_partial {sc : Strcase} {o : KtOption} {s : Schema} (hc : CleanCase sc) (hp : PlainJpa o s) (hR : AllRelated sc o s)
    (hr : Word o.reposPackage) (hK : AllKeyed o s) (out : Str) : (generate sc o s out).ending = .done ∧
    ∀ t ∈ JpaSelected o s, ∃ text, (repositoryPath sc o out t, text) ∈ (generate sc o s out).writes ∧
      readKt text = some (ktRepositoryFile sc o t) := by
  rw [generate_repositories hc hp hR hr.1, repositories_done hr.1 hK]
  refine ⟨rfl, fun t ht => ⟨repositoryStr sc o t, ?_, read_repository hc hp hr (List.mem_filter.1 ht).1⟩⟩
  exact List.mem_append_right _ (List.mem_map_of_mem (f := fun t => (repositoryPath sc o out t, repositoryStr sc o t)) ht)

/-- The hypotheses of C62 hold of the example. -/
example : Word jpaOption.reposPackage ∧ AllKeyed jpaOption jpaSchema :=
  ⟨⟨by decide, by decide⟩, show ∀ t ∈ JpaSelected jpaOption jpaSchema, keyColumns t ≠ [] by decide +kernel⟩

/-- C62 is violated: the process panics exactly when repositories are written and a selected table has no primary key. -/
theorem C62_panic_violated {sc : Strcase} {o : KtOption} {s : Schema} (hc : CleanCase sc) (hp : PlainJpa o s) (hR : AllRelated sc o s)
    (out : Str) : (generate sc o s out).ending = .panic ↔ o.reposPackage ≠ [] ∧ ∃ t ∈ JpaSelected o s, keyColumns t = [] := by
  rw [(generate_ending hc hp out).2]
  constructor
  · rintro ⟨_, h, hK⟩
    unfold AllKeyed at hK
    push Not at hK
    exact ⟨h, hK⟩
  · rintro ⟨h, t, ht, e⟩
    exact ⟨hR, h, fun hK => hK t ht e⟩

/-- A schema with which the process panics. -/
example : (generate strcase jpaOption { tables := [{ name := "log"ₛ, columns := [{ name := "text"ₛ, type := "varchar"ₛ }] }] } "out"ₛ).ending =
    .panic := by decide +kernel

/-! ### C89: Kotlin -/

/-- C89: the file of a selected table can be read exactly when its names are names in Kotlin, each property of a column that is not
null has a default value, and each column of a key of several columns is not null. -/
theorem C89_kotlin_partial {sc : Strcase} {o : KtOption} {s : Schema} (hc : CleanCase sc) (hp : PlainJpa o s) (hR : AllRelated sc o s)
    (out : Str) {t : Table} (ht : t ∈ JpaSelected o s) :
    ∃ text, (entityPath sc o out t, text) ∈ (generate sc o s out).writes ∧ ((∃ f, readKt text = some f) ↔ KtTable sc o t) := by
  refine ⟨_, entity_written hc hp hR out ht, ?_⟩
  have h := read_entity (plain_entity hc hp (List.mem_filter.1 ht).1 (hR t ht))
  rw [valid_iff] at h
  constructor
  · rintro ⟨f, hf⟩
    by_contra hk
    rw [show entityStr sc o s t = unlines (entityLines (entityParts sc o s t)) from rfl, h.2 hk] at hf
    cases hf
  · intro hk
    exact ⟨_, h.1 hk⟩

/-- C89 is violated: a column with a blob that is not null has no default value, so that no file with such a table can be read. -/
theorem C89_kotlin_violated {sc : Strcase} {o : KtOption} {s : Schema} (hc : CleanCase sc) (hp : PlainJpa o s) (hR : AllRelated sc o s)
    (out : Str) {t : Table} (ht : t ∈ JpaSelected o s) {c : Column} (hm : c ∈ t.columns) (hn : c.notNull = true)
    (hb : lower c.type ∈ ["blob8"ₛ, "blob16"ₛ, "blob24"ₛ, "blob32"ₛ]) :
    ∃ text, (entityPath sc o out t, text) ∈ (generate sc o s out).writes ∧ readKt text = none := by
  obtain ⟨text, h1, h2⟩ := C89_kotlin_partial hc hp hR out ht
  refine ⟨text, h1, ?_⟩
  cases hf : readKt text with
  | none => rfl
  | some f =>
    refine absurd ((h2.1 ⟨f, hf⟩).2.1 c hm).2 fun h => h hn ?_
    have : ∀ x ∈ ["blob8"ₛ, "blob16"ₛ, "blob24"ₛ, "blob32"ₛ], (ktTypes.lookup x).bind (·.2.1) = none := by decide +kernel
    exact this _ hb

/-- Tables whose files Kotlin does not accept: a blob, a key of several columns with one that may be null, names with a leading digit,
and names that are keywords. -/
example : [({ name := "a"ₛ, columns := [{ name := "data"ₛ, type := "blob16"ₛ, notNull := true }] } : Table),
    { name := "a"ₛ, columns := [{ name := "x"ₛ, type := "int32"ₛ, primaryKey := true, notNull := true },
      { name := "y"ₛ, type := "int32"ₛ, primaryKey := true }] },
    { name := "2fa"ₛ, columns := [] }, { name := "a"ₛ, columns := [{ name := "object"ₛ, type := "int32"ₛ }] }].all
    (fun t => ((generate strcase { jpaOption with reposPackage := [] } { tables := [t] } "out"ₛ).writes.map fun w => readKt w.2) == [none]) =
      true := by
  decide +kernel

/-! ### C90: files -/

/-- C90: when the run ends without error, no file is written twice exactly when no two selected tables have the same class name and,
if the repositories go to the same directory, no class has the name of a repository. -/
theorem C90_files_partial {sc : Strcase} {o : KtOption} {s : Schema} (hc : CleanCase sc) (hp : PlainJpa o s) (out : Str)
    (hd : (generate sc o s out).ending = .done) : ((generate sc o s out).writes.map Prod.fst).Nodup ↔
      ((JpaSelected o s).map (ktClassName sc o)).Nodup ∧
      (o.reposPackage = [] ∨ (split '.' o.package).filter (· ≠ []) ≠ (split '.' o.reposPackage).filter (· ≠ []) ∨
        ∀ t ∈ JpaSelected o s, ∀ u ∈ JpaSelected o s, ktClassName sc o t ≠ ktClassName sc o u ++ "Repository"ₛ) := by
  have hR : AllRelated sc o s := by
    by_contra h
    rw [((generate_ending hc hp out).1).2 h] at hd
    cases hd
  have hent : ((JpaSelected o s).map (entityPath sc o out)).Nodup ↔ ((JpaSelected o s).map (ktClassName sc o)).Nodup := by
    rw [show entityPath sc o out = (fun n => ((out :: split '.' o.package).filter (· ≠ [])) ++ [n ++ ".kt"ₛ]) ∘ ktClassName sc o from rfl,
      ← List.map_map]
    refine List.nodup_map_iff fun a b h => ?_
    have := List.append_cancel_left h
    rw [List.cons.injEq] at this
    exact List.append_cancel_right this.1
  have hrep : ((JpaSelected o s).map (repositoryPath sc o out)).Nodup ↔ ((JpaSelected o s).map (ktClassName sc o)).Nodup := by
    rw [show repositoryPath sc o out = (fun n => ((out :: split '.' o.reposPackage).filter (· ≠ [])) ++ [n ++ "Repository.kt"ₛ]) ∘
      ktClassName sc o from rfl, ← List.map_map]
    refine List.nodup_map_iff fun a b h => ?_
    have := List.append_cancel_left h
    rw [List.cons.injEq] at this
    exact List.append_cancel_right this.1
  by_cases hr : o.reposPackage = []
  · rw [generate_entities hc hp hR hr, List.map_map]
    rw [show (Prod.fst ∘ fun t => (entityPath sc o out t, entityStr sc o s t)) = entityPath sc o out from rfl, hent]
    exact ⟨fun h => ⟨h, .inl hr⟩, fun h => h.1⟩
  · have hK : AllKeyed o s := by
      by_contra h
      rw [((generate_ending hc hp out).2).2 ⟨hR, hr, h⟩] at hd
      cases hd
    rw [generate_repositories hc hp hR hr, repositories_done hr hK]
    dsimp only
    rw [List.map_append, List.map_map, List.map_map,
      show (Prod.fst ∘ fun t => (entityPath sc o out t, entityStr sc o s t)) = entityPath sc o out from rfl,
      show (Prod.fst ∘ fun t => (repositoryPath sc o out t, repositoryStr sc o t)) = repositoryPath sc o out from rfl,
      List.nodup_append, hent, hrep]
    have hpath : ∀ t u, entityPath sc o out t = repositoryPath sc o out u ↔
        (split '.' o.package).filter (· ≠ []) = (split '.' o.reposPackage).filter (· ≠ []) ∧
          ktClassName sc o t = ktClassName sc o u ++ "Repository"ₛ := by
      intro t u
      unfold entityPath repositoryPath
      rw [List.append_singleton_inj]
      have e1 : ∀ p : Str, ((out :: split '.' p).filter (· ≠ [])) = [out].filter (· ≠ []) ++ (split '.' p).filter (· ≠ []) := by
        intro p
        rw [← List.filter_append]; rfl
      rw [e1, e1, List.append_cancel_left_eq]
      refine and_congr_right fun _ => ?_
      rw [show "Repository.kt"ₛ = "Repository"ₛ ++ ".kt"ₛ from rfl, ← List.append_assoc, List.append_cancel_right_eq]
    constructor
    · rintro ⟨h1, _, h3⟩
      refine ⟨h1, .inr ?_⟩
      by_cases hd : (split '.' o.package).filter (· ≠ []) = (split '.' o.reposPackage).filter (· ≠ [])
      · right
        intro t ht u hu e
        exact h3 _ (List.mem_map_of_mem ht) _ (List.mem_map_of_mem hu) ((hpath t u).2 ⟨hd, e⟩)
      · exact .inl hd
    · rintro ⟨h1, h2⟩
      refine ⟨h1, h1, ?_⟩
      intro a ha b hb e
      obtain ⟨t, ht, rfl⟩ := List.mem_map.1 ha
      obtain ⟨u, hu, rfl⟩ := List.mem_map.1 hb
      obtain ⟨e1, e2⟩ := (hpath t u).1 e
      rcases h2 with h2 | h2 | h2
      · exact hr h2
      · exact h2 e1
      · exact h2 t ht u hu e2

/-- The hypothesis of C90 holds of the example. -/
example : (generate strcase jpaOption jpaSchema "out"ₛ).ending = .done ∧
    ((generate strcase jpaOption jpaSchema "out"ₛ).writes.map Prod.fst).Nodup := by decide +kernel

/-- C90 is violated: two tables whose names differ only in the removed prefix are written to the same file, and the file has only
the last one. -/
theorem C90_files_violated : ∃ (s : Schema) (o : KtOption), PlainJpa o s ∧ (s.tables.map (·.name)).Nodup ∧
    (generate strcase o s "out"ₛ).ending = .done ∧ ∃ t ∈ JpaSelected o s, ∃ f,
      ((fileText (generate strcase o s "out"ₛ).writes (entityPath strcase o "out"ₛ t)).bind readKt) = some f ∧
      f.classes.map (·.head.table) ≠ [some t.name] := by
  let c : Column := { name := "id"ₛ, type := "int64"ₛ, primaryKey := true, notNull := true }
  let s : Schema := { tables := [{ name := "t_user"ₛ, columns := [c] }, { name := "user"ₛ, columns := [c] }] }
  refine ⟨s, jpaOption, jpaOption_plain jpaOption_example (by decide +kernel) (by decide +kernel), by decide +kernel, by decide +kernel,
    { name := "t_user"ₛ, columns := [c] }, by decide +kernel, ?_⟩
  have : ((((fileText (generate strcase jpaOption s "out"ₛ).writes (entityPath strcase jpaOption "out"ₛ
      { name := "t_user"ₛ, columns := [c] })).bind readKt)).map fun f => f.classes.map (·.head.table)) = some [some "user"ₛ] := by
    decide +kernel
  rw [Option.map_eq_some_iff] at this
  obtain ⟨f, hf, e⟩ := this
  refine ⟨f, hf, ?_⟩
  rw [e]
  decide

/-! ### C91: the interface with an `id` -/

/-- C91: an entity with one key column whose property is `id` implements the interface of the option, and the property overrides the
one of the interface exactly when the column is not null. -/
theorem C91_id_partial {sc : Strcase} {o : KtOption} {s : Schema} (hc : CleanCase sc) (hp : PlainJpa o s) (hR : AllRelated sc o s)
    (out : Str) {t : Table} (ht : t ∈ JpaSelected o s) (hk : KtTable sc o t) :
    ∃ text f e rest, (entityPath sc o out t, text) ∈ (generate sc o s out).writes ∧ readKt text = some f ∧ f.classes = e :: rest ∧
      (Implements sc o t → ∃ c ∈ t.columns, keyColumns t = [c] ∧ e.super = some (o.idEntity ++ "<"ₛ ++ ktTypeOf c ++ ">"ₛ)) ∧
      (¬Implements sc o t → e.super = none) ∧
      List.Forall₂ (fun c p => p.overrides = true ↔ Implements sc o t ∧ c.primaryKey = true ∧ c.notNull = true) t.columns e.properties := by
  refine ⟨_, _, _, _, entity_written hc hp hR out ht,
    (read_entity (plain_entity hc hp (List.mem_filter.1 ht).1 (hR t ht))).1 ((valid_iff sc o s t).2 hk), rfl, ?_, ?_, ?_⟩
  · intro hi
    have h2 := hi.2
    rcases hkc : keyColumns t with _ | ⟨c, _ | ⟨d, l⟩⟩
    · rw [hkc] at h2; cases h2
    · refine ⟨c, (List.mem_filter.1 (show c ∈ keyColumns t by rw [hkc]; exact List.mem_singleton.2 rfl)).1, rfl, ?_⟩
      show (if Implements sc o t then some (superType o t) else none) = _
      rw [if_pos hi]
      unfold superType
      rw [hkc]
      rfl
    · rw [hkc] at h2
      exact absurd (congrArg List.length h2) (by simp)
  · intro hi
    exact if_neg hi
  · have e : ((entityParts sc o s t).properties.map Prod.fst) = t.columns.map (columnProperty sc o s t) := by
      show ((withNext t.columns).map _).map Prod.fst = _
      rw [List.map_map]
      conv_rhs => rw [← withNext_fst t.columns]
      rw [List.map_map]
      rfl
    show List.Forall₂ _ t.columns ((entityParts sc o s t).properties.map Prod.fst)
    rw [e, List.forall₂_map_right_iff, List.forall₂_same]
    intro c _
    show (decide (Implements sc o t) && (c.notNull && c.primaryKey)) = true ↔ _
    rw [Bool.and_eq_true, Bool.and_eq_true, decide_eq_true_eq]
    exact ⟨fun h => ⟨h.1, h.2.2, h.2.1⟩, fun h => ⟨h.1, h.2.2, h.2.1⟩⟩

/-- C91: the first table of the demo. -/
example := C91_id_partial strcase_clean (jpaSchema_plain jpaOption_example) jpaSchema_related "out"ₛ
  (show jpaSchema.tables[0] ∈ JpaSelected jpaOption jpaSchema by decide +kernel) (by decide +kernel)

/-- C91 is violated: an entity implements the interface without a property that overrides the one of the interface. -/
theorem C91_id_violated : ∃ (s : Schema) (o : KtOption) (t : Table), PlainJpa o s ∧ t ∈ JpaSelected o s ∧ KtTable strcase o t ∧
    ∃ f ∈ ((generate strcase o s "out"ₛ).writes.lookup (entityPath strcase o "out"ₛ t)).bind readKt,
      (∃ e ∈ f.classes, e.super ≠ none ∧ ∀ p ∈ e.properties, p.overrides = false) := by
  let t : Table := { name := "user"ₛ, columns := [{ name := "id"ₛ, type := "int64"ₛ, primaryKey := true }] }
  refine ⟨{ tables := [t] }, { jpaOption with reposPackage := [] }, t,
    jpaOption_plain ⟨rfl, rfl, rfl, rfl, rfl, rfl⟩ (by decide +kernel) (by decide +kernel), List.mem_singleton.2 rfl, by decide +kernel, ?_⟩
  have : ((((generate strcase { jpaOption with reposPackage := [] } { tables := [t] } "out"ₛ).writes.lookup
      (entityPath strcase { jpaOption with reposPackage := [] } "out"ₛ t)).bind readKt).map fun f =>
        f.classes.any fun e => e.super.isSome && e.properties.all fun p => !p.overrides) = some true := by
    decide +kernel
  rw [Option.map_eq_some_iff] at this
  obtain ⟨f, hf, e⟩ := this
  refine ⟨f, hf, ?_⟩
  obtain ⟨e, he, h⟩ := List.any_eq_true.1 e
  rw [Bool.and_eq_true] at h
  refine ⟨e, he, ?_, ?_⟩
  · intro hn; rw [hn] at h; cases h.1
  · intro p hp
    have := List.all_eq_true.1 h.2 p hp
    simpa using this

/-! ### C92: the type of the key -/

/-- C92: the key type of the repository of a table is nullable exactly when the table has one key column, and this may be null. -/
theorem C92_key_partial {sc : Strcase} {o : KtOption} {s : Schema} (hc : CleanCase sc) (hp : PlainJpa o s) (hR : AllRelated sc o s)
    (hr : Word o.reposPackage) (hK : AllKeyed o s) (out : Str) {t : Table} (ht : t ∈ JpaSelected o s) :
    ∃ text f r, (repositoryPath sc o out t, text) ∈ (generate sc o s out).writes ∧ readKt text = some f ∧ f.repositories = [r] ∧
      (r.key.getLast? = some '?' ↔ ∃ c, keyColumns t = [c] ∧ c.notNull = false) := by
  obtain ⟨text, h1, h2⟩ := (C62_repositories_partial hc hp hR hr hK out).2 t ht
  refine ⟨text, _, _, h1, h2, rfl, ?_⟩
  show (ktKeyType sc o t).getLast? = _ ↔ _
  have hpk : ∀ n : Str, (n ++ "PK"ₛ).getLast? ≠ some '?' := by
    intro n
    rw [show "PK"ₛ = ['P'] ++ ['K'] from rfl, ← List.append_assoc, List.getLast?_concat]
    decide
  unfold ktKeyType
  rcases hkc : keyColumns t with _ | ⟨c, _ | ⟨d, l⟩⟩
  · exact ⟨fun h => absurd h (hpk _), fun ⟨c, h, _⟩ => by cases h⟩
  · dsimp only
    have hl : ∀ s : Str, (s ++ "?"ₛ).getLast? = some '?' := fun s => List.getLast?_concat
    have hb : (((ktTypes.lookup (lower c.type)).map (·.1)).getD "Any"ₛ).getLast? ≠ some '?' := by
      rcases ktType_mem c.type with h | ⟨p, hp, h⟩
      · rw [h]; decide
      · rw [h]
        have : ∀ p ∈ ktTypes, p.2.1.getLast? ≠ some '?' := by decide +kernel
        exact this p hp
    unfold ktTypeOf
    cases hn : c.notNull with
    | true =>
      rw [if_pos rfl, List.append_nil]
      refine ⟨fun h => absurd h hb, ?_⟩
      rintro ⟨d, e, h⟩
      cases e
      rw [hn] at h; cases h
    | false =>
      rw [if_neg (by decide)]
      exact ⟨fun _ => ⟨c, rfl, hn⟩, fun _ => hl _⟩
  · exact ⟨fun h => absurd h (hpk _), fun ⟨c, h, _⟩ => by cases h⟩

/-- C92: the first table of the demo. -/
example := C92_key_partial strcase_clean (jpaSchema_plain jpaOption_example) jpaSchema_related ⟨by decide, by decide⟩
  (show ∀ t ∈ JpaSelected jpaOption jpaSchema, keyColumns t ≠ [] by decide +kernel) "out"ₛ
  (show jpaSchema.tables[0] ∈ JpaSelected jpaOption jpaSchema by decide +kernel)

/-- C92 is violated: the key of a repository can be nullable. -/
theorem C92_key_violated : ∃ (s : Schema) (o : KtOption) (t : Table), PlainJpa o s ∧ t ∈ JpaSelected o s ∧ KtTable strcase o t ∧
    (((generate strcase o s "out"ₛ).writes.lookup (repositoryPath strcase o "out"ₛ t)).bind readKt).map
      (fun f => f.repositories.map (·.key)) = some ["Long?"ₛ] := by
  let t : Table := { name := "user"ₛ, columns := [{ name := "id"ₛ, type := "int64"ₛ, primaryKey := true }] }
  exact ⟨{ tables := [t] }, jpaOption, t, jpaOption_plain jpaOption_example (by decide +kernel) (by decide +kernel),
    List.mem_singleton.2 rfl, by decide +kernel, by decide +kernel⟩

/-! ### C93: references -/

/-- C93: the process ends with an error exactly when references are written, and a column of a selected table refers to a table that
is not selected. -/
theorem C93_references_partial {sc : Strcase} {o : KtOption} {s : Schema} (hc : CleanCase sc) (hp : PlainJpa o s) (out : Str) :
    (generate sc o s out).ending = .fatal ↔ o.relation = "VRelation"ₛ ∧ ∃ t ∈ JpaSelected o s, ∃ c ∈ t.columns, ∃ r ∈ c.ref,
      ∀ u ∈ JpaSelected o s, u.name ≠ r.table := by
  rw [(generate_ending hc hp out).1]
  have htarget : ∀ n, ktTarget sc o s n = none ↔ ∀ u ∈ JpaSelected o s, u.name ≠ n := by
    intro n
    unfold ktTarget
    rw [Option.map_eq_none_iff, List.find?_eq_none]
    refine forall₂_congr fun u _ => ?_
    rw [beq_iff_eq]
  constructor
  · intro h
    unfold AllRelated at h
    push Not at h
    obtain ⟨t, ht, c, hcm, h⟩ := h
    unfold Related at h
    push Not at h
    obtain ⟨hv, r, hr, h⟩ := h
    exact ⟨hv, t, ht, c, hcm, r, hr, (htarget _).1 h⟩
  · rintro ⟨hv, t, ht, c, hcm, r, hr, h⟩ hR
    exact hR t ht c hcm hv r hr ((htarget _).2 h)

/-- C93: the demo. -/
example := C93_references_partial strcase_clean (jpaSchema_plain jpaOption_example) "out"ₛ

/-- C93 is violated: a reference to a table of the schema that the filter leaves out ends the process. -/
theorem C93_references_violated : ∃ (s : Schema) (o : KtOption), PlainJpa o s ∧
    (∀ t ∈ s.tables, ∀ c ∈ t.columns, ∀ r ∈ c.ref, ∃ u ∈ s.tables, u.name = r.table ∧ ∃ d ∈ u.columns, d.name = r.column) ∧
    (generate strcase o s "out"ₛ).ending = .fatal := by
  refine ⟨jpaSchema, { jpaOption with tableFilter := some fun t => t.name = "order_item"ₛ }, jpaSchema_plain ⟨rfl, rfl, rfl, rfl, rfl, rfl⟩,
    by decide +kernel, by decide +kernel⟩

/-! ### C94: directories -/

/-- C94: when both packages have names, every file goes to a place under the output directory. -/
theorem C94_directory_partial {sc : Strcase} {o : KtOption} {s : Schema} {out : Str} (ho : out ≠ []) (hp : o.package ≠ [])
    {w : List Str × Str} (h : w ∈ (generate sc o s out).writes) : [out] <+: w.1 := by
  have key : ∀ {pkg n : Str}, pkg ≠ [] → n ≠ [] → [out] <+: pathJoin (packageDir out pkg ++ [n]) := by
    intro pkg n h1 h2
    rw [path_eq h1 h2, List.filter_cons_of_pos (by simpa using ho)]
    exact ⟨_, rfl⟩
  have hent : ∀ w ∈ (generateEntities sc o (newClasses sc o s) out).writes, [out] <+: w.1 := by
    intro w hw
    obtain ⟨k, _, _, e⟩ := writeAll_mem hw
    rw [e]
    exact key hp (append_ne_nil (by decide))
  unfold generate at h
  dsimp only at h
  split at h
  · split at h
    · exact hent w h
    · rename_i hr
      rcases List.mem_append.1 h with h | h
      · exact hent w h
      · obtain ⟨k, _, _, e⟩ := writeAll_mem h
        rw [e]
        exact key hr (append_ne_nil (by decide))
  · exact hent w h

/-- The hypotheses of C94 hold of the example. -/
example : jpaOption.package ≠ [] ∧ (generate strcase jpaOption jpaSchema "out"ₛ).writes.length = 4 := by decide +kernel

/-- C94 is violated: without a package the entities go to the working directory, whatever the output directory is. -/
theorem C94_directory_violated {sc : Strcase} {o : KtOption} {s : Schema} {out : Str} (hp : o.package = [])
    (hr : o.reposPackage = []) {w : List Str × Str} (h : w ∈ (generate sc o s out).writes) : w.1.length = 1 := by
  have hent : ∀ w ∈ (generateEntities sc o (newClasses sc o s) out).writes, w.1.length = 1 := by
    intro w hw
    obtain ⟨k, _, _, e⟩ := writeAll_mem hw
    rw [e, hp]
    show (pathJoin ([] ++ [k.name ++ ".kt"ₛ])).length = 1
    unfold pathJoin
    rw [List.nil_append, List.filter_cons_of_pos (by simp)]
    rfl
  unfold generate at h
  dsimp only at h
  split at h
  · rw [if_pos hr] at h
    exact hent w h
  · exact hent w h

/-- Files without a package. -/
example : (generate strcase { jpaOption with package := [], reposPackage := [] } jpaSchema "out"ₛ).writes.map Prod.fst =
    [["User.kt"ₛ], ["OrderItem.kt"ₛ]] := by decide +kernel

/-! ### C95: property names -/

/-- C95: the names of the properties differ exactly when the column names differ in camel case. -/
theorem C95_properties_partial {sc : Strcase} {o : KtOption} {s : Schema} (hc : CleanCase sc) (hp : PlainJpa o s) (hR : AllRelated sc o s)
    (out : Str) {t : Table} (ht : t ∈ JpaSelected o s) (hk : KtTable sc o t) :
    ∃ text f e rest, (entityPath sc o out t, text) ∈ (generate sc o s out).writes ∧ readKt text = some f ∧ f.classes = e :: rest ∧
      ((e.properties.map (·.name)).Nodup ↔ (t.columns.map fun c => sc.toLowerCamel c.name).Nodup) := by
  obtain ⟨text, f, h1, h2, h3⟩ := C61_columns hc hp hR out ht hk
  obtain ⟨e, rest, h4, h5⟩ := C61_once h3
  refine ⟨text, f, e, rest, h1, h2, h4, ?_⟩
  have h6 := congrArg (List.map Prod.fst) h5
  rw [List.map_map, List.map_map] at h6
  rw [show (e.properties.map (·.name)) = t.columns.map fun c => sc.toLowerCamel c.name from h6]

/-- C95: the first table of the demo. -/
example := C95_properties_partial strcase_clean (jpaSchema_plain jpaOption_example) jpaSchema_related "out"ₛ
  (show jpaSchema.tables[0] ∈ JpaSelected jpaOption jpaSchema by decide +kernel) (by decide +kernel)

/-- C95 is violated: an entity can have two properties with the same name. -/
theorem C95_properties_violated : ∃ (s : Schema) (o : KtOption) (t : Table), PlainJpa o s ∧ t ∈ JpaSelected o s ∧
    (t.columns.map (·.name)).Nodup ∧
    (((generate strcase o s "out"ₛ).writes.lookup (entityPath strcase o "out"ₛ t)).bind readKt).map
      (fun f => f.classes.map fun e => e.properties.map (·.name)) = some [["userName"ₛ, "userName"ₛ]] := by
  let t : Table := { name := "user"ₛ, columns := [{ name := "user_name"ₛ, type := "varchar"ₛ, primaryKey := true },
    { name := "userName"ₛ, type := "varchar"ₛ }] }
  exact ⟨{ tables := [t] }, jpaOption, t, jpaOption_plain jpaOption_example (by decide +kernel) (by decide +kernel),
    List.mem_singleton.2 rfl, by decide +kernel, by decide +kernel⟩

/-! ### C96: imports -/

/-- C96: a file imports exactly the classes of its types, annotations and key, each one once. -/
theorem C96_imports {sc : Strcase} {o : KtOption} {s : Schema} (hc : CleanCase sc) (hp : PlainJpa o s) (hR : AllRelated sc o s)
    (out : Str) {t : Table} (ht : t ∈ JpaSelected o s) (hk : KtTable sc o t) :
    ∃ text f, (entityPath sc o out t, text) ∈ (generate sc o s out).writes ∧ readKt text = some f ∧
      (∀ i, i ∈ f.imports ↔ NeedsImport sc t i) ∧ f.imports.Nodup :=
  ⟨_, _, entity_written hc hp hR out ht,
    (read_entity (plain_entity hc hp (List.mem_filter.1 ht).1 (hR t ht))).1 ((valid_iff sc o s t).2 hk),
    Jpa.mem_allImports sc o t, Jpa.nodup_allImports sc o t⟩

/-- C96: the first table of the demo. -/
example := C96_imports strcase_clean (jpaSchema_plain jpaOption_example) jpaSchema_related "out"ₛ
  (show jpaSchema.tables[0] ∈ JpaSelected jpaOption jpaSchema by decide +kernel) (by decide +kernel)

end Octo
