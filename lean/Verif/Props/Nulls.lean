import Verif.Props.Mapped
import Verif.Props.Graphql

/-! Property C152: the generated classes and the same columns without null. -/

namespace Octo.Spec

/-- The column of a field cannot be null: GORM creates it with `not null`, or as a part of the primary key. -/
def goMandatory (x : GoFieldDecl) : Bool := ("not null"ₛ, none) ∈ x.tags ∨ ("primary_key"ₛ, none) ∈ x.tags

/-- The columns of the fields of a struct, and whether they are mandatory. -/
def goNulls (nm : Str → Str) (d : GoStructDecl) : List (Str × Bool) :=
  (d.fields.filter goIsColumn).map fun x => (goColumnOf nm x, goMandatory x)

/-- The annotation of a property says that its column cannot be null. -/
def ktMandatory (p : KtProperty) : Bool := ("nullable"ₛ, "false"ₛ) ∈ (p.annotations.lookup "Column"ₛ).getD []

/-- The columns of an entity, and whether they are mandatory. -/
def ktNulls (nm : Str → Str) (e : KtClass) : List (Str × Bool) := e.properties.map fun p => (ktColumnOf nm p, ktMandatory p)

/-- The type of a property allows null. -/
def ktAllowsNull (p : KtProperty) : Prop := p.type.getLast? = some '?'

/-- The column of an attribute cannot be null. -/
def pyMandatory (m : PyMember) : Bool := match attributeArgs m with
  | some (_, as) => !saNullable as
  | none => false

/-- The columns of a class, and whether they are mandatory. -/
def pyNulls (k : PyClass) : List (Str × Bool) := (classColumns k).filterMap fun m => (pyColumnOf m).map fun n => (n, pyMandatory m)

end Octo.Spec

namespace Octo
open Spec

/-- GORM and SQLAlchemy: part of the key, or not null and not counted up. -/
def storedMandatory (c : Column) : Bool := c.primaryKey || c.notNull && !c.autoIncremental

theorem goNulls_eq {sc : Strcase} {o : Gorm.GormOption} {s : Schema} {models : Gorm.Models} {t : Table} {d : GoStructDecl} (nm : Str → Str)
    (h : GormDescribes sc o s models t d) (hs : ∀ c ∈ t.columns, NeedsColumn sc c.name ∨ nm (goFieldName sc c.name) = c.name) :
    ∃ chosen, Embeds models (t.columns.map (·.name)) chosen ∧ d.embedded = chosen.map Prod.fst ∧
      goNulls nm d = (ownColumns chosen t).map fun c => (c.name, storedMandatory c) := by
  obtain ⟨_, chosen, he, hem, hf, hl⟩ := h
  refine ⟨chosen, he, hem, ?_⟩
  unfold goNulls
  rw [goFields hf hl]
  refine map_of_forall₂ hf fun c hc x hx => ?_
  rw [(goColumn_exact nm hx.1 hx.2.2).2 (hs c (List.mem_filter.1 hc).1)]
  refine congrArg (Prod.mk c.name) ?_
  unfold goMandatory storedMandatory
  rw [Bool.eq_iff_iff, decide_eq_true_eq, hx.2.2.notNull none, hx.2.2.primary none]
  cases c.primaryKey <;> cases c.notNull <;> cases c.autoIncremental <;> simp

theorem ktMandatory_eq {sc : Strcase} {o : Jpa.KtOption} {s : Schema} {c : Column} {p : KtProperty} (h : IsProperty sc o s c p) :
    ktMandatory p = c.notNull := by
  unfold ktMandatory
  rw [Bool.eq_iff_iff, decide_eq_true_eq, h.annotations.column.nullable]
  exact and_iff_right rfl

theorem ktNulls_eq {sc : Strcase} {o : Jpa.KtOption} {s : Schema} {t : Table} {e : KtClass} (nm : Str → Str)
    (hp : ∀ c ∈ t.columns, PlainQuoted '"' c.name) (h : List.Forall₂ (IsProperty sc o s) t.columns e.properties)
    (hs : ∀ c ∈ t.columns, NeedsName sc c.name ∨ nm (sc.toLowerCamel c.name) = c.name) :
    ktNulls nm e = t.columns.map fun c => (c.name, c.notNull) := by
  refine map_of_forall₂ h fun c hc p hpr => ?_
  rw [(ktColumn_exact nm (hp c hc) hpr).2 (hs c hc), ktMandatory_eq hpr]

theorem ktType_plain : ∀ n : Str, n ∈ ktTypes.map (fun x => x.2.1) → n.getLast? ≠ some '?' := by
  decide +kernel

/-- C152: the type of a property allows null exactly when its column does, and so does the column of the schema. -/
theorem C152_types {sc : Strcase} {o : Jpa.KtOption} {s : Schema} {c : Column} {p : KtProperty} (h : IsProperty sc o s c p) :
    (ktAllowsNull p ↔ ktMandatory p = false) ∧ (ktAllowsNull p ↔ c.notNull = false) := by
  have hm := ktMandatory_eq h
  have : ktAllowsNull p ↔ c.notNull = false := by
    unfold ktAllowsNull
    rw [h.type]
    unfold ktTypeOf
    cases hn : c.notNull with
    | false =>
      rw [if_neg Bool.false_ne_true, List.getLast?_append]
      exact ⟨fun _ => rfl, fun _ => rfl⟩
    | true =>
      rw [if_pos rfl, List.append_nil]
      refine ⟨fun hq => absurd hq ?_, fun hq => by cases hq⟩
      cases hl : ktTypes.lookup (lower c.type) with
      | none => decide
      | some v => exact ktType_plain _ (List.mem_map_of_mem (f := fun x => x.2.1) (lookup_mem hl))
  exact ⟨by rw [this, hm], this⟩

theorem pyNulls_eq {sc : Strcase} {o : Sqlalchemy.SaOption} {t : Table} {k : PyClass} (h : SaDescribes sc o t k) :
    pyNulls k = t.columns.map fun c => (c.name, storedMandatory c) := by
  have hmap : ∀ {cs : List Column} {ms : List PyMember}, List.Forall₂ (fun c m => ∃ as, IsSaColumn sc o c m as) cs ms →
      ms.filterMap (fun m => (pyColumnOf m).map fun n => (n, pyMandatory m)) = cs.map fun c => (c.name, storedMandatory c) := by
    intro cs ms h
    induction h with
    | nil => rfl
    | @cons c m cs ms h1 _ ih =>
      obtain ⟨as, ha⟩ := h1
      have e1 : pyColumnOf m = some c.name := by
        rw [ha.assign]
        show some _ = some _
        rw [ha.name]
      have e2 : pyMandatory m = storedMandatory c := by
        rw [ha.assign]
        show (!saNullable as) = _
        unfold saNullable storedMandatory
        rw [ha.nullable, ha.primary]
        unfold whenTrue
        cases c.primaryKey <;> cases c.notNull <;> cases c.autoIncremental <;> rfl
      have e3 : (pyColumnOf m).map (fun n => (n, pyMandatory m)) = some (c.name, storedMandatory c) := by rw [e1, e2]; rfl
      rw [List.filterMap_cons_some (f := fun m => (pyColumnOf m).map fun n => (n, pyMandatory m)) e3, List.map_cons, ih]
  exact hmap h.columns

/-- C152: a struct and a class of the same table agree which of the columns that the struct does not embed are mandatory. -/
theorem C152_gorm_sqlalchemy {sc : Strcase} {og : Gorm.GormOption} {os : Sqlalchemy.SaOption} {s : Schema} {models : Gorm.Models} {t : Table}
    {d : GoStructDecl} {k : PyClass} (nm : Str → Str) (h : GormDescribes sc og s models t d) (hk : SaDescribes sc os t k)
    (hs : ∀ c ∈ t.columns, NeedsColumn sc c.name ∨ nm (goFieldName sc c.name) = c.name) :
    (goNulls nm d).Sublist (pyNulls k) ∧ (d.embedded = [] → goNulls nm d = pyNulls k) := by
  obtain ⟨chosen, _, hem, hg⟩ := goNulls_eq nm h hs
  rw [hg, pyNulls_eq hk]
  refine ⟨List.filter_sublist.map _, fun he => ?_⟩
  rw [he] at hem
  have : chosen = [] := List.map_eq_nil_iff.1 hem.symm
  subst this
  exact congrArg _ (List.filter_eq_self.2 fun _ _ => rfl)

theorem map_same_iff {α β : Type} {f g : α → β} {l : List α} : l.map f = l.map g ↔ ∀ a ∈ l, f a = g a := List.map_inj_left

/-- C152: an entity and a class of the same table agree exactly when each column of the key is not null, and each other column that is
not null is not counted up. -/
theorem C152_jpa_sqlalchemy_exact {sc : Strcase} {oj : Jpa.KtOption} {os : Sqlalchemy.SaOption} {s : Schema} {t : Table} {e : KtClass}
    {k : PyClass} (nm : Str → Str) (hp : ∀ c ∈ t.columns, PlainQuoted '"' c.name)
    (h : List.Forall₂ (IsProperty sc oj s) t.columns e.properties) (hk : SaDescribes sc os t k)
    (hs : ∀ c ∈ t.columns, NeedsName sc c.name ∨ nm (sc.toLowerCamel c.name) = c.name) :
    ktNulls nm e = pyNulls k ↔ ∀ c ∈ t.columns, (c.primaryKey = true → c.notNull = true) ∧
      (c.notNull = true → c.autoIncremental = true → c.primaryKey = true) := by
  rw [ktNulls_eq nm hp h hs, pyNulls_eq hk, map_same_iff]
  refine forall₂_congr fun c _ => ?_
  rw [Prod.mk.injEq, and_iff_right rfl]
  unfold storedMandatory
  cases c.primaryKey <;> cases c.notNull <;> cases c.autoIncremental <;> decide

/-- C152: an entity and a GraphQL type of the same table have the same names of fields in the same order; and they agree which of them are
mandatory exactly when a column that is the whole key is not null. -/
theorem C152_jpa_graphql_exact {sc : Strcase} {oj : Jpa.KtOption} {og : Graphql.GqlOption} {s : Schema} {t : Table} {e : KtClass} {d : GqlDef}
    (h : List.Forall₂ (IsProperty sc oj s) t.columns e.properties) (hd : GqlDescribes sc og t d) :
    e.properties.map (·.name) = d.fields.map (·.1) ∧
      (e.properties.map (fun p => (p.name, ktMandatory p)) = d.fields.map (fun f => (f.1, f.2.isNonNull)) ↔
        ∀ c ∈ t.columns, OnlyKey t c → c.notNull = true) := by
  have e1 : e.properties.map (·.name) = t.columns.map fun c => sc.toLowerCamel c.name := map_of_forall₂ h fun c _ p hpr => hpr.name
  have e2 : d.fields.map (·.1) = t.columns.map fun c => sc.toLowerCamel c.name := map_of_forall₂ hd.fields fun c _ f hf => hf.name
  have e3 : e.properties.map (fun p => (p.name, ktMandatory p)) = t.columns.map fun c => (sc.toLowerCamel c.name, c.notNull) :=
    map_of_forall₂ h fun c _ p hpr => by rw [hpr.name, ktMandatory_eq hpr]
  have e4 : d.fields.map (fun f => (f.1, f.2.isNonNull)) = t.columns.map fun c => (sc.toLowerCamel c.name, c.notNull || decide (OnlyKey t c)) :=
    map_of_forall₂ hd.fields fun c _ f hf => by
      rw [hf.name]
      refine congrArg (Prod.mk _) ?_
      rw [Bool.eq_iff_iff, hf.nonNull, Bool.or_eq_true, decide_eq_true_eq]
  rw [e1, e2, e3, e4]
  refine ⟨rfl, ?_⟩
  rw [map_same_iff]
  refine forall₂_congr fun c _ => ?_
  rw [Prod.mk.injEq, and_iff_right rfl]
  by_cases ho : OnlyKey t c
  · rw [decide_eq_true ho, Bool.or_true]
    exact ⟨fun hn _ => hn, fun hn => hn ho⟩
  · rw [decide_eq_false ho, Bool.or_false]
    exact ⟨fun _ h => absurd h ho, fun _ => rfl⟩

/-- C152: a table that is selected for all four has a struct, an entity, a class and a GraphQL type that agree which columns cannot be
null, when each column of the key is not null, and each other column that is not null is not counted up. -/
theorem C152_same_partial {sc : Strcase} {plural : Str → Str} {og : Gorm.GormOption} {oj : Jpa.KtOption} {os : Sqlalchemy.SaOption}
    {oq : Graphql.GqlOption} {s : Schema} {ords : Nat → (Gorm.Models → Gorm.Models) × (Gorm.Models → Gorm.Models)} {models : Gorm.Models}
    (hc : CleanCase sc) (hpl : CleanPlural plural) (hg : PlainGorm og s) (hj : PlainJpa oj s) (hs : PlainSa sc os s) (hq : PlainGql oq s)
    (ho : Schedules ords) (hm : Registered models) (hR : Jpa.AllRelated sc oj s)
    (hk : ∀ t ∈ SaSelected os s, PyTable sc os t ∧ t.columns ≠ [] ∧ ∀ c ∈ t.columns, saType c ≠ none)
    (hqt : ∀ t ∈ GqlSelected oq s, GqlTable sc plural oq t)
    {t : Table} (h1 : t ∈ GormSelected og s) (h2 : t ∈ JpaSelected oj s) (h3 : t ∈ SaSelected os s) (h4 : t ∈ GqlSelected oq s)
    (hkt : KtTable sc oj t) (outj outs outq : Str) {gn jn : Str → Str}
    (hgn : ∀ c ∈ t.columns, NeedsColumn sc c.name ∨ gn (goFieldName sc c.name) = c.name)
    (hjn : ∀ c ∈ t.columns, NeedsName sc c.name ∨ jn (sc.toLowerCamel c.name) = c.name)
    (hn : ∀ c ∈ t.columns, (c.primaryKey = true → c.notNull = true) ∧
      (c.notNull = true → c.autoIncremental = true → c.primaryKey = true)) :
    ∃ fg, readGo (Gorm.generate sc ords models og s).1 = some fg ∧ ∃ d ∈ fg.structs,
    ∃ wj ∈ (Jpa.generate sc oj s outj).writes, ∃ fj, readKt wj.2 = some fj ∧ ∃ e ∈ fj.classes,
    ∃ ws ∈ Sqlalchemy.generate sc os s outs, ∃ fs, readPy ws.2 = some fs ∧ ∃ k ∈ pyClasses fs,
    ∃ ds, readGql (Graphql.generate sc plural oq s outq).2 = some ds ∧ ∃ q ∈ ds,
      ktNulls jn e = (t.columns.map fun c => (c.name, c.notNull)) ∧ pyNulls k = ktNulls jn e ∧ (goNulls gn d).Sublist (ktNulls jn e) ∧
      q.fields.map (fun f => (f.1, f.2.isNonNull)) = e.properties.map (fun p => (p.name, ktMandatory p)) ∧
      ∀ p ∈ e.properties, ktAllowsNull p ↔ ktMandatory p = false := by
  obtain ⟨fg, hfg, hds, _, _⟩ := C59_columns hc hg ho hm
  obtain ⟨d, hd, hdd⟩ := forall₂_mem_left hds t h1
  obtain ⟨text, fj, hwj, hfj, hjd⟩ := C61_columns hc hj hR outj h2 hkt
  obtain ⟨e, rest, hcl, _, _, _, hpr, _⟩ := hjd.entity
  obtain ⟨ws, hws, fs, hfs, k, hkk, hkd⟩ := C97_described_partial hc hs hk outs h3
  obtain ⟨ds, hds'⟩ := Option.isSome_iff_exists.1 ((C104_readable_partial hc hpl hq outq).2 ⟨List.ne_nil_of_mem h4, hqt⟩)
  obtain ⟨sch, qry, types, e1, _, _, hty⟩ := C65_types hc hpl hq outq hds'
  obtain ⟨q, hqm, hqd⟩ := forall₂_mem_left hty t h4
  have hplain : ∀ c ∈ t.columns, PlainQuoted '"' c.name := fun c hc' => (hj.columns t (List.mem_filter.1 h2).1 c hc').1
  have hjp := (C152_jpa_sqlalchemy_exact jn hplain hpr hkd hjn).2 hn
  refine ⟨fg, hfg, d, hd, _, hwj, fj, hfj, e, by rw [hcl]; exact List.mem_cons_self, ws, hws, fs, hfs, k, hkk, ds, hds', q,
    by rw [e1]; exact List.mem_cons_of_mem _ (List.mem_cons_of_mem _ hqm), ktNulls_eq jn hplain hpr hjn, hjp.symm, ?_, ?_, ?_⟩
  · rw [hjp]
    exact (C152_gorm_sqlalchemy gn hdd hkd hgn).1
  · exact ((C152_jpa_graphql_exact hpr hqd).2.2 fun c hcm ho => (hn c hcm).1 ho.1).symm
  · intro p hp
    obtain ⟨c, _, hcp⟩ := forall₂_mem_right hpr p hp
    exact (C152_types hcp).1

/-- The hypotheses of `C152_same_partial` that C149 does not have hold for each table of its schema. -/
example : PlainGql gqlOption mappedSchema ∧ (∀ t ∈ GqlSelected gqlOption mappedSchema, GqlTable strcase withS gqlOption t) ∧
    ∀ t ∈ mappedSchema.tables, t ∈ GqlSelected gqlOption mappedSchema ∧
      ∀ c ∈ t.columns, (c.primaryKey = true → c.notNull = true) ∧ (c.notNull = true → c.autoIncremental = true → c.primaryKey = true) :=
  ⟨gqlOption_plain (by decide +kernel) (by decide +kernel), by decide +kernel, by decide +kernel⟩

/-- What two of them say about the schema. -/
example : (Sqlalchemy.generate strcase saOption mappedSchema "models"ₛ).map (fun w => (readPy w.2).map fun f => (pyClasses f).map pyNulls) =
    [some [[("id"ₛ, true), ("userName"ₛ, true), ("group_id"ₛ, false), ("created_at"ₛ, false), ("updated_at"ₛ, false), ("deleted_at"ₛ, false)]],
      some [[("order_id"ₛ, true), ("item_no"ₛ, true), ("buyer"ₛ, false)]]] ∧
    (readGo (Gorm.generate strcase gormOrds Gorm.defaultModels gormOption mappedSchema).1).map (fun f =>
      f.structs.map (goNulls strcase.toSnake)) =
    some [[("userName"ₛ, true), ("group_id"ₛ, false)], [("order_id"ₛ, true), ("item_no"ₛ, true), ("buyer"ₛ, false)]] := by
  decide +kernel

/-- A table with a column that is not null and counted up, and not part of the key. -/
def countedSchema : Schema := { tables := [{ name := "ticket"ₛ, columns := [
  { name := "code"ₛ, type := "int64"ₛ, primaryKey := true }, { name := "no"ₛ, type := "int64"ₛ, notNull := true, autoIncremental := true }] }] }

/-- C152 is violated: for a key that is not declared as not null, and for a column that is not null and counted up. The entity and the class
disagree on both columns, and the entity and the GraphQL type on the first. -/
theorem C152_violated : ∃ s, PlainGorm gormOption s ∧ PlainJpa jpaOption s ∧ PlainSa strcase saOption s ∧
    (Jpa.generate strcase { jpaOption with reposPackage := [] } s "out"ₛ).writes.map (fun w => (readKt w.2).map fun f =>
      f.classes.map (ktNulls strcase.toSnake)) = [some [[("code"ₛ, false), ("no"ₛ, true)]]] ∧
    (Sqlalchemy.generate strcase saOption s "models"ₛ).map (fun w => (readPy w.2).map fun f => (pyClasses f).map pyNulls) =
      [some [[("code"ₛ, true), ("no"ₛ, false)]]] ∧
    (readGo (Gorm.generate strcase gormOrds Gorm.defaultModels gormOption s).1).map (fun f => f.structs.map (goNulls strcase.toSnake)) =
      some [[("code"ₛ, true), ("no"ₛ, false)]] ∧
    (readGql (Graphql.generate strcase withS gqlOption s "out"ₛ).2).map (fun ds => (ds.drop 2).map fun q =>
      q.fields.map fun f => (f.1, f.2.isNonNull)) = some [[("code"ₛ, true), ("no"ₛ, true)]] :=
  ⟨countedSchema, gormOption_plain rfl rfl rfl rfl (by decide +kernel) (by decide +kernel) (by decide +kernel),
    jpaOption_plain jpaOption_example (by decide +kernel) (by decide +kernel), saOption_plain (by decide +kernel) (by decide +kernel),
    by decide +kernel, by decide +kernel, by decide +kernel, by decide +kernel⟩

end Octo
