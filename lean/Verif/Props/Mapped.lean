import Verif.Props.Gorm
import Verif.Props.Jpa
import Verif.Props.Sqlalchemy

/-! Property C149: the three object mappers of a schema stand for the same database. -/

namespace Octo.Spec

/-- The database column of a field of a struct: the one of its tag, or the one that the naming strategy of GORM gives to the field. -/
def goColumnOf (nm : Str → Str) (x : GoFieldDecl) : Str := match x.tags.lookup "column"ₛ with
  | some (some n) => n
  | _ => nm x.name

/-- A field that holds no other struct. -/
def goIsColumn (x : GoFieldDecl) : Bool := (x.tags.lookup "foreignKey"ₛ).isNone

/-- The database columns of a struct: those of the structs it embeds, and those of its fields. -/
def goColumnsOf (nm : Str → Str) (models : Gorm.Models) (d : GoStructDecl) : List Str :=
  d.embedded.flatMap (fun e => (models.lookup e).getD []) ++ (d.fields.filter goIsColumn).map (goColumnOf nm)

/-- The database columns of the fields of a struct that are marked as primary key. -/
def goKeysOf (nm : Str → Str) (d : GoStructDecl) : List Str :=
  ((d.fields.filter goIsColumn).filter fun x => ("primary_key"ₛ, none) ∈ x.tags).map (goColumnOf nm)

/-- The database column of a property: the one of its annotation, or the one that the naming strategy of JPA gives to the property. -/
def ktColumnOf (nm : Str → Str) (p : KtProperty) : Str := match ((p.annotations.lookup "Column"ₛ).getD []).lookup "name"ₛ with
  | some v => (unquote '"' v).getD []
  | none => nm p.name

/-- The database columns of an entity. -/
def ktColumnsOf (nm : Str → Str) (e : KtClass) : List Str := e.properties.map (ktColumnOf nm)

/-- The database columns of the primary key of an entity. -/
def ktKeysOf (nm : Str → Str) (e : KtClass) : List Str :=
  (e.properties.filter fun p => ("Id"ₛ, []) ∈ p.annotations).map (ktColumnOf nm)

/-- The database column of an attribute: the first text among its arguments, or the name of the attribute. -/
def pyColumnOf : PyMember → Option Str
  | .assign n (.call _ as) => some ((explicitNames as).headD n)
  | _ => none

/-- The database columns of a class. -/
def pyColumnsOf (k : PyClass) : List Str := (classColumns k).filterMap pyColumnOf

/-- An attribute of the primary key. -/
def pyIsKey : PyMember → Bool
  | .assign _ (.call _ as) => columnArg as "primary_key"ₛ = some (.atom "True"ₛ)
  | _ => false

/-- The database columns of the primary key of a class. -/
def pyKeysOf (k : PyClass) : List Str := ((classColumns k).filter pyIsKey).filterMap pyColumnOf

/-- The database table of a class. -/
def pyTableOf (k : PyClass) : Option Str := k.members.findSome? fun m => match m with
  | .assign n (.atom v) => if n = "__tablename__"ₛ then unquote '\'' v else none
  | _ => none

end Octo.Spec

namespace Octo
open Spec

/-! ### Each of the three -/

theorem lookup_only {α : Type} {k : Str} {v : α} : ∀ {l : List (Str × α)}, (∀ w, (k, w) ∈ l ↔ w = v) → l.lookup k = some v := by
  intro l h
  cases e : l.lookup k with
  | some w => rw [(h w).1 (lookup_mem e)]
  | none =>
    have h1 := List.lookup_eq_none_iff.1 e (k, v) ((h v).2 rfl)
    rw [bne_self_eq_false] at h1
    cases h1

theorem lookup_never {α : Type} {k : Str} {l : List (Str × α)} (h : ∀ w, (k, w) ∉ l) : l.lookup k = none := by
  cases e : l.lookup k with
  | some w => exact absurd (lookup_mem e) (h w)
  | none => rfl

/-- The column of a field is the column of the table, exactly when its name is given or the naming strategy leads to it. -/
theorem goColumn_exact {sc : Strcase} {o : Gorm.GormOption} {t : Table} {c : Column} {x : GoFieldDecl} (nm : Str → Str)
    (h1 : x.name = goFieldName sc c.name) (h2 : GormTags sc o t c x.tags) :
    goColumnOf nm x = c.name ↔ NeedsColumn sc c.name ∨ nm (goFieldName sc c.name) = c.name := by
  unfold goColumnOf
  by_cases hn : NeedsColumn sc c.name
  · rw [lookup_only (k := "column"ₛ) (v := some c.name) fun w => (h2.column w).trans (and_iff_left hn)]
    exact ⟨fun _ => .inl hn, fun _ => rfl⟩
  · rw [lookup_never (k := "column"ₛ) fun w hw => hn ((h2.column w).1 hw).2, h1]
    exact ⟨.inr, fun h => h.resolve_left hn⟩

theorem goColumn_field {sc : Strcase} {o : Gorm.GormOption} {t : Table} {c : Column} {x : GoFieldDecl} (h : GormTags sc o t c x.tags) :
    goIsColumn x = true := by
  unfold goIsColumn
  rw [lookup_never fun w hw => absurd (h.others _ hw) (by show "foreignKey"ₛ ∉ _; decide)]
  rfl

theorem goLink_field {sc : Strcase} {o : Gorm.GormOption} {l : Column × Reference × Table × Column} {x : GoFieldDecl} (h : GormLink sc o l x) :
    goIsColumn x = false := by
  unfold goIsColumn
  rw [h.tags]
  rfl

theorem filter_of_forall₂ {α β : Type} {R : α → β → Prop} {p : β → Bool} {b : Bool} {l : List α} {r : List β} (h : List.Forall₂ R l r)
    (hp : ∀ a y, R a y → p y = b) : r.filter p = if b then r else [] := by
  cases b with
  | true =>
    refine List.filter_eq_self.2 fun y hy => ?_
    obtain ⟨a, _, ha⟩ := forall₂_mem_right h y hy
    exact hp a y ha
  | false =>
    refine List.filter_eq_nil_iff.2 fun y hy => ?_
    obtain ⟨a, _, ha⟩ := forall₂_mem_right h y hy
    rw [hp a y ha]
    exact Bool.false_ne_true

/-- The fields of a struct that stand for columns. -/
theorem goFields {sc : Strcase} {o : Gorm.GormOption} {s : Schema} {t : Table} {d : GoStructDecl} {chosen : Gorm.Models}
    (h1 : List.Forall₂ (fun (c : Column) (f : GoFieldDecl) => f.name = goFieldName sc c.name ∧ f.type = goTypeOf c ∧ GormTags sc o t c f.tags)
      (ownColumns chosen t) (d.fields.take (ownColumns chosen t).length))
    (h2 : List.Forall₂ (GormLink sc o) (links s t) (d.fields.drop (ownColumns chosen t).length)) :
    d.fields.filter goIsColumn = d.fields.take (ownColumns chosen t).length := by
  conv_lhs => rw [← List.take_append_drop (ownColumns chosen t).length d.fields]
  rw [List.filter_append, filter_of_forall₂ h1 fun c x h => goColumn_field h.2.2, filter_of_forall₂ h2 fun l x h => goLink_field h]
  exact List.append_nil _

theorem map_of_forall₂ {α β γ : Type} {R : α → β → Prop} {f : α → γ} {g : β → γ} {l : List α} {r : List β} (h : List.Forall₂ R l r)
    (hf : ∀ a ∈ l, ∀ b, R a b → g b = f a) : r.map g = l.map f := by
  induction h with
  | nil => rfl
  | cons h _ ih =>
    rw [List.map_cons, List.map_cons, hf _ List.mem_cons_self _ h, ih fun a ha b => hf a (List.mem_cons_of_mem _ ha) b]

theorem mapped_filter {α β γ : Type} {R : α → β → Prop} {f : α → γ} {g : β → γ} {p : α → Bool} {q : β → Bool} {l : List α} {r : List β}
    (h : List.Forall₂ R l r) (hf : ∀ a ∈ l, ∀ b, R a b → g b = f a) (hq : ∀ a ∈ l, ∀ b, R a b → q b = p a) :
    (r.filter q).map g = (l.filter p).map f := by
  induction h with
  | nil => rfl
  | @cons a b l r h _ ih =>
    have ih' := ih (fun a ha b => hf a (List.mem_cons_of_mem _ ha) b) (fun a ha b => hq a (List.mem_cons_of_mem _ ha) b)
    rw [List.filter_cons, List.filter_cons, hq a List.mem_cons_self b h]
    cases p a with
    | true => rw [if_pos rfl, if_pos rfl, List.map_cons, List.map_cons, hf a List.mem_cons_self b h, ih']
    | false => rw [if_neg Bool.false_ne_true, if_neg Bool.false_ne_true, ih']

/-- C149: the database columns of the struct of a table are the columns of the table, and the keys of its fields are the columns of the
primary key that no embedded struct has, when the naming strategy leads from each field to its column unless the column is given. -/
theorem C149_gorm {sc : Strcase} {o : Gorm.GormOption} {s : Schema} {models : Gorm.Models} {t : Table} {d : GoStructDecl} (nm : Str → Str)
    (hn : (models.map Prod.fst).Nodup) (h : GormDescribes sc o s models t d)
    (hs : ∀ c ∈ t.columns, NeedsColumn sc c.name ∨ nm (goFieldName sc c.name) = c.name) :
    (∀ n, n ∈ goColumnsOf nm models d ↔ n ∈ t.columns.map (·.name)) ∧
      ∃ chosen, Embeds models (t.columns.map (·.name)) chosen ∧ d.embedded = chosen.map Prod.fst ∧
        goKeysOf nm d = ((ownColumns chosen t).filter (·.primaryKey)).map (·.name) := by
  obtain ⟨_, chosen, he, hem, hf, hl⟩ := h
  have hown : ∀ c ∈ ownColumns chosen t, ∀ x : GoFieldDecl,
      x.name = goFieldName sc c.name ∧ x.type = goTypeOf c ∧ GormTags sc o t c x.tags → goColumnOf nm x = c.name := fun c hc x hx =>
    (goColumn_exact nm hx.1 hx.2.2).2 (hs c (List.mem_filter.1 hc).1)
  refine ⟨fun n => ?_, chosen, he, hem, ?_⟩
  · unfold goColumnsOf
    rw [goFields hf hl, map_of_forall₂ hf hown, hem, List.mem_append]
    constructor
    · rintro (hm | hm)
      · obtain ⟨e, hme, hmn⟩ := List.mem_flatMap.1 hm
        obtain ⟨m, hmc, rfl⟩ := List.mem_map.1 hme
        refine he.columns m hmc n ?_
        rwa [(mem_iff_lookup hn).1 (he.known m hmc)] at hmn
      · obtain ⟨c, hc, rfl⟩ := List.mem_map.1 hm
        exact List.mem_map_of_mem (List.mem_filter.1 hc).1
    · intro hm
      obtain ⟨c, hc, rfl⟩ := List.mem_map.1 hm
      by_cases hin : ∃ m ∈ chosen, c.name ∈ m.2
      · obtain ⟨m, hmc, hcn⟩ := hin
        refine .inl (List.mem_flatMap.2 ⟨m.1, List.mem_map_of_mem hmc, ?_⟩)
        rwa [(mem_iff_lookup hn).1 (he.known m hmc)]
      · refine .inr (List.mem_map_of_mem (f := fun c : Column => c.name) (List.mem_filter.2 ⟨hc, ?_⟩))
        rw [List.all_eq_true]
        intro m hm'
        have : c.name ∉ m.2 := fun h => hin ⟨m, hm', h⟩
        simpa using this
  · unfold goKeysOf
    rw [goFields hf hl]
    refine mapped_filter hf hown fun c _ x hx => ?_
    rw [Bool.eq_iff_iff, decide_eq_true_eq, hx.2.2.primary none]
    exact and_iff_right rfl

/-- The column of a property is the column of the table, exactly when its name is given or the naming strategy leads to it. -/
theorem ktColumn_exact {sc : Strcase} {o : Jpa.KtOption} {s : Schema} {c : Column} {p : KtProperty} (nm : Str → Str)
    (hp : PlainQuoted '"' c.name) (h : IsProperty sc o s c p) :
    ktColumnOf nm p = c.name ↔ NeedsName sc c.name ∨ nm (sc.toLowerCamel c.name) = c.name := by
  unfold ktColumnOf
  have ha := h.annotations.column
  by_cases hn : NeedsName sc c.name
  · rw [lookup_only (k := "name"ₛ) (v := ktQuoted c.name) fun w => (ha.name w).trans (and_iff_left hn)]
    dsimp only
    rw [Jpa.unquote_ktQuoted hp]
    exact ⟨fun _ => .inl hn, fun _ => rfl⟩
  · rw [lookup_never (k := "name"ₛ) fun w hw => hn ((ha.name w).1 hw).2, h.name]
    exact ⟨.inr, fun h => h.resolve_left hn⟩

/-- C149: the database columns of an entity are the columns of its table, in order, exactly when the naming strategy leads from each
property to its column unless the column is given. -/
theorem C149_jpa_exact {sc : Strcase} {o : Jpa.KtOption} {s : Schema} {t : Table} {e : KtClass} (nm : Str → Str)
    (hp : ∀ c ∈ t.columns, PlainQuoted '"' c.name) (h : List.Forall₂ (IsProperty sc o s) t.columns e.properties) :
    ktColumnsOf nm e = t.columns.map (·.name) ↔ ∀ c ∈ t.columns, NeedsName sc c.name ∨ nm (sc.toLowerCamel c.name) = c.name := by
  unfold ktColumnsOf
  generalize t.columns = cs at h hp
  generalize e.properties = ps at h
  induction h with
  | nil => exact ⟨fun _ c hc => absurd hc List.not_mem_nil, fun _ => rfl⟩
  | @cons c p cs ps h1 _ ih =>
    have ih' := ih fun c hc => hp c (List.mem_cons_of_mem _ hc)
    rw [List.map_cons, List.map_cons, List.cons.injEq, List.forall_mem_cons, ktColumn_exact nm (hp c List.mem_cons_self) h1, ih']

theorem jpa_keys {sc : Strcase} {o : Jpa.KtOption} {s : Schema} {t : Table} {e : KtClass} (nm : Str → Str)
    (hp : ∀ c ∈ t.columns, PlainQuoted '"' c.name) (h : List.Forall₂ (IsProperty sc o s) t.columns e.properties)
    (hs : ∀ c ∈ t.columns, NeedsName sc c.name ∨ nm (sc.toLowerCamel c.name) = c.name) :
    ktKeysOf nm e = (t.columns.filter (·.primaryKey)).map (·.name) := by
  unfold ktKeysOf
  refine mapped_filter h (fun c hc p hpr => (ktColumn_exact nm (hp c hc) hpr).2 (hs c hc)) fun c _ p hpr => ?_
  rw [Bool.eq_iff_iff, decide_eq_true_eq, hpr.annotations.id []]
  exact and_iff_right rfl

/-- C149: the table and the columns of a class are those of its table, in order, and so is the primary key, whatever the names are:
SQLAlchemy has no naming strategy. -/
theorem C149_sqlalchemy {sc : Strcase} {o : Sqlalchemy.SaOption} {t : Table} {k : PyClass} (hp : PlainQuoted '\'' t.name)
    (h : SaDescribes sc o t k) : pyTableOf k = some t.name ∧ pyColumnsOf k = t.columns.map (·.name) ∧
      pyKeysOf k = (t.columns.filter (·.primaryKey)).map (·.name) := by
  have hmap : ∀ {cs : List Column} {ms : List PyMember}, List.Forall₂ (fun c m => ∃ as, IsSaColumn sc o c m as) cs ms →
      ms.filterMap pyColumnOf = cs.map (·.name) ∧ (ms.filter pyIsKey).filterMap pyColumnOf = (cs.filter (·.primaryKey)).map (·.name) := by
    intro cs ms h
    induction h with
    | nil => exact ⟨rfl, rfl⟩
    | @cons c m cs ms h1 _ ih =>
      obtain ⟨as, ha⟩ := h1
      have e1 : pyColumnOf m = some c.name := by
        rw [ha.assign]
        show some _ = some _
        rw [ha.name]
      have e2 : pyIsKey m = c.primaryKey := by
        rw [ha.assign]
        show decide (columnArg as "primary_key"ₛ = some (.atom "True"ₛ)) = _
        rw [ha.primary]
        unfold whenTrue
        cases c.primaryKey with
        | true => exact decide_eq_true (if_pos rfl)
        | false => rw [if_neg Bool.false_ne_true]; rfl
      refine ⟨?_, ?_⟩
      · rw [List.filterMap_cons_some e1, List.map_cons, ih.1]
      · rw [List.filter_cons, List.filter_cons, e2]
        cases c.primaryKey with
        | true => rw [if_pos rfl, if_pos rfl, List.filterMap_cons_some e1, List.map_cons, ih.2]
        | false => rw [if_neg Bool.false_ne_true, if_neg Bool.false_ne_true, ih.2]
  refine ⟨?_, (hmap h.columns).1, (hmap h.columns).2⟩
  have hq : unquote '\'' ("'"ₛ ++ t.name ++ "'"ₛ) = some t.name := Sqlalchemy.unquote_pyQuoted hp
  cases e : pyTableOf k with
  | none =>
    have h1 := List.findSome?_eq_none_iff.1 e _ h.table
    dsimp only at h1
    rw [if_pos rfl, hq] at h1
    cases h1
  | some n =>
    obtain ⟨m, hm, hn⟩ := List.exists_of_findSome?_eq_some e
    split at hn
    · rename_i a v
      split at hn
      · rename_i ha
        rw [ha] at hm
        rw [h.tableOnce v hm, hq] at hn
        exact hn.symm
      · cases hn
    · cases hn

/-! ### All three -/

/-- C149: a table that is selected for all three object mappers is mapped by a struct, an entity and a class to the same database table,
with the same columns and the same primary key, when the naming strategies of GORM and of JPA lead from a name in camel case to the
column, unless the column is given. -/
theorem C149_same_partial {sc : Strcase} {og : Gorm.GormOption} {oj : Jpa.KtOption} {os : Sqlalchemy.SaOption} {s : Schema}
    {ords : Nat → (Gorm.Models → Gorm.Models) × (Gorm.Models → Gorm.Models)} {models : Gorm.Models} (hc : CleanCase sc)
    (hg : PlainGorm og s) (hj : PlainJpa oj s) (hs : PlainSa sc os s) (ho : Schedules ords) (hm : Registered models)
    (hR : Jpa.AllRelated sc oj s) (hk : ∀ t ∈ SaSelected os s, PyTable sc os t ∧ t.columns ≠ [] ∧ ∀ c ∈ t.columns, saType c ≠ none)
    {t : Table} (h1 : t ∈ GormSelected og s) (h2 : t ∈ JpaSelected oj s) (h3 : t ∈ SaSelected os s) (hkt : KtTable sc oj t)
    (outj outs : Str) {gn jn : Str → Str}
    (hgn : ∀ c ∈ t.columns, NeedsColumn sc c.name ∨ gn (goFieldName sc c.name) = c.name)
    (hjn : ∀ c ∈ t.columns, NeedsName sc c.name ∨ jn (sc.toLowerCamel c.name) = c.name) :
    ∃ fg, readGo (Gorm.generate sc ords models og s).1 = some fg ∧ ∃ d ∈ fg.structs,
    ∃ wj ∈ (Jpa.generate sc oj s outj).writes, ∃ fj, readKt wj.2 = some fj ∧ ∃ e ∈ fj.classes,
    ∃ ws ∈ Sqlalchemy.generate sc os s outs, ∃ fs, readPy ws.2 = some fs ∧ ∃ k ∈ pyClasses fs,
      (∃ n, (d.name, n) ∈ fg.tableNames ∧ e.head.table = some n ∧ pyTableOf k = some n) ∧
      (∀ n, n ∈ goColumnsOf gn (Gorm.register models og.embed) d ↔ n ∈ ktColumnsOf jn e) ∧ ktColumnsOf jn e = pyColumnsOf k ∧
      (∀ n ∈ goKeysOf gn d, n ∈ ktKeysOf jn e) ∧
      (∀ n ∈ ktKeysOf jn e, n ∈ goKeysOf gn d ∨ ∃ m ∈ d.embedded, n ∈ ((Gorm.register models og.embed).lookup m).getD []) ∧
      ktKeysOf jn e = pyKeysOf k := by
  obtain ⟨fg, hfg, hds, htn, _⟩ := C59_columns hc hg ho hm
  obtain ⟨d, hd, hdd⟩ := forall₂_mem_left hds t h1
  obtain ⟨text, fj, hwj, hfj, hjd⟩ := C61_columns hc hj hR outj h2 hkt
  obtain ⟨e, rest, hcl, _, het, _, hpr, _⟩ := hjd.entity
  obtain ⟨ws, hws, fs, hfs, k, hkk, hkd⟩ := C97_described_partial hc hs hk outs h3
  have hn := Gorm.register_nodup hm.1 og.embed
  have hplain : ∀ c ∈ t.columns, PlainQuoted '"' c.name := fun c hc' => (hj.columns t (List.mem_filter.1 h2).1 c hc').1
  obtain ⟨g1, chosen, he, hem, g2⟩ := C149_gorm gn hn hdd hgn
  have j1 := (C149_jpa_exact jn hplain hpr).2 hjn
  have j2 := jpa_keys jn hplain hpr hjn
  obtain ⟨s1, s2, s3⟩ := C149_sqlalchemy (hs.tables t (List.mem_filter.1 h3).1).1 hkd
  refine ⟨fg, hfg, d, hd, _, hwj, fj, hfj, e, by rw [hcl]; exact List.mem_cons_self, ws, hws, fs, hfs, k, hkk, ⟨t.name, ?_, het, s1⟩,
    fun n => by rw [g1 n, j1], by rw [j1, s2], ?_, ?_, by rw [j2, s3]⟩
  · rw [htn, hdd.1]
    exact List.mem_map_of_mem (f := fun t : Table => (goStructName sc og t, t.name)) h1
  · intro n hnm
    rw [g2] at hnm
    rw [j2]
    obtain ⟨c, hcm, rfl⟩ := List.mem_map.1 hnm
    have hcf := List.mem_filter.1 hcm
    exact List.mem_map_of_mem (f := fun c : Column => c.name) (List.mem_filter.2 ⟨(List.mem_filter.1 hcf.1).1, hcf.2⟩)
  · intro n hnm
    rw [j2] at hnm
    obtain ⟨c, hcm, rfl⟩ := List.mem_map.1 hnm
    have hcf := List.mem_filter.1 hcm
    by_cases hin : ∃ m ∈ chosen, c.name ∈ m.2
    · obtain ⟨m, hmc, hcn⟩ := hin
      refine .inr ⟨m.1, by rw [hem]; exact List.mem_map_of_mem hmc, ?_⟩
      rwa [(mem_iff_lookup hn).1 (he.known m hmc)]
    · left
      rw [g2]
      refine List.mem_map_of_mem (f := fun c : Column => c.name) (List.mem_filter.2 ⟨List.mem_filter.2 ⟨hcf.1, ?_⟩, hcf.2⟩)
      rw [List.all_eq_true]
      intro m hm'
      have : c.name ∉ m.2 := fun h => hin ⟨m, hm', h⟩
      simpa using this

/-- A schema for all three. -/
def mappedSchema : Schema :=
  { tables := [
      { name := "t_user"ₛ, columns := [
          { name := "id"ₛ, type := "int64"ₛ, primaryKey := true, notNull := true, autoIncremental := true },
          { name := "userName"ₛ, type := "varchar"ₛ, size := 20, uniqueKey := true, notNull := true },
          { name := "group_id"ₛ, type := "int64"ₛ },
          { name := "created_at"ₛ, type := "datetime"ₛ }, { name := "updated_at"ₛ, type := "datetime"ₛ },
          { name := "deleted_at"ₛ, type := "datetime"ₛ }] },
      { name := "order_item"ₛ, columns := [
          { name := "order_id"ₛ, type := "int64"ₛ, primaryKey := true, notNull := true },
          { name := "item_no"ₛ, type := "int32"ₛ, primaryKey := true, notNull := true },
          { name := "buyer"ₛ, type := "int64"ₛ, ref := some ⟨"t_user"ₛ, "id"ₛ, "n:1"ₛ⟩ }] }] }

theorem mapped_related : Jpa.AllRelated strcase jpaOption mappedSchema := by
  show ∀ t ∈ JpaSelected jpaOption mappedSchema, ∀ c ∈ t.columns, Related strcase jpaOption mappedSchema c
  decide +kernel

/-- The hypotheses of `C149_same_partial` hold for each table of the schema, with snake case as naming strategies. One column is given by name, one
table embeds the struct of GORM. -/
example : PlainGorm gormOption mappedSchema ∧ PlainJpa jpaOption mappedSchema ∧ PlainSa strcase saOption mappedSchema ∧
    Schedules gormOrds ∧ Registered Gorm.defaultModels ∧ Jpa.AllRelated strcase jpaOption mappedSchema ∧
    (∀ t ∈ SaSelected saOption mappedSchema, PyTable strcase saOption t ∧ t.columns ≠ [] ∧ ∀ c ∈ t.columns, saType c ≠ none) ∧
    ∀ t ∈ mappedSchema.tables, t ∈ GormSelected gormOption mappedSchema ∧ t ∈ JpaSelected jpaOption mappedSchema ∧
      t ∈ SaSelected saOption mappedSchema ∧ KtTable strcase jpaOption t ∧
      (∀ c ∈ t.columns, NeedsColumn strcase c.name ∨ strcase.toSnake (goFieldName strcase c.name) = c.name) ∧
      ∀ c ∈ t.columns, NeedsName strcase c.name ∨ strcase.toSnake (strcase.toLowerCamel c.name) = c.name :=
  ⟨gormOption_plain rfl rfl rfl rfl (by decide +kernel) (by decide +kernel) (by decide +kernel),
    jpaOption_plain jpaOption_example (by decide +kernel) (by decide +kernel), saOption_plain (by decide +kernel) (by decide +kernel),
    gormOrds_schedules, defaultModels_registered, mapped_related, by decide +kernel, by unfold NeedsColumn; decide +kernel⟩

/-- What the three say about the first table. -/
example : (readGo (Gorm.generate strcase gormOrds Gorm.defaultModels gormOption mappedSchema).1).map (fun f =>
      f.structs.map (goColumnsOf strcase.toSnake Gorm.defaultModels)) =
    some [["id"ₛ, "created_at"ₛ, "updated_at"ₛ, "deleted_at"ₛ, "userName"ₛ, "group_id"ₛ], ["order_id"ₛ, "item_no"ₛ, "buyer"ₛ]] ∧
    (Jpa.generate strcase { jpaOption with reposPackage := [] } mappedSchema "out"ₛ).writes.map (fun w => (readKt w.2).map fun f =>
      (f.classes.take 1).map (ktColumnsOf strcase.toSnake)) =
    [some [["id"ₛ, "userName"ₛ, "group_id"ₛ, "created_at"ₛ, "updated_at"ₛ, "deleted_at"ₛ]], some [["order_id"ₛ, "item_no"ₛ, "buyer"ₛ]]] ∧
    (Sqlalchemy.generate strcase saOption mappedSchema "models"ₛ).map (fun w => (readPy w.2).map fun f => (pyClasses f).map pyColumnsOf) =
    [some [["id"ₛ, "userName"ₛ, "group_id"ₛ, "created_at"ₛ, "updated_at"ₛ, "deleted_at"ₛ]], some [["order_id"ₛ, "item_no"ₛ, "buyer"ₛ]]] := by
  decide +kernel

/-- A table with a column whose field ends with capitals. -/
def initialsSchema : Schema := { tables := [{ name := "node"ₛ, columns := [{ name := "u_id"ₛ, type := "int64"ₛ }] }] }

/-- C149 is violated with snake case as naming strategies, which the generators assume when they leave out the column: the generator of
structs compares the column with the name in camel case, but writes a final `Id` in capitals. The field `UID` of the column `u_id` has no
column, and snake case leads to `uid`. -/
theorem C149_violated : ∃ (o : Gorm.GormOption) (s : Schema), PlainGorm o s ∧ PlainJpa jpaOption s ∧
    (readGo (Gorm.generate strcase gormOrds Gorm.defaultModels o s).1).map (fun f => f.structs.map (goColumnsOf strcase.toSnake Gorm.defaultModels)) =
      some [["uid"ₛ]] ∧
    (Jpa.generate strcase { jpaOption with reposPackage := [] } s "out"ₛ).writes.map (fun w => (readKt w.2).map fun f =>
      f.classes.map (ktColumnsOf strcase.toSnake)) = [some [["u_id"ₛ]]] :=
  ⟨gormOption, initialsSchema, gormOption_plain rfl rfl rfl rfl (by decide +kernel) (by decide +kernel) (by decide +kernel),
    jpaOption_plain jpaOption_example (by decide +kernel) (by decide +kernel), by decide +kernel, by decide +kernel⟩

end Octo
