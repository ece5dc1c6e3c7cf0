import Verif.Props.Gorm

/-! Exact conditions for the structs that GORM files embed, their imports, and what is lost in them. -/

namespace Octo
open Spec

open Gorm

/-! ### C83: the order of maps -/

/-- An order that visits `m` first. -/
def frontOf (m : Str × List Str) (l : Models) : Models := if m ∈ l then m :: l.erase m else l

theorem frontOf_perm (m : Str × List Str) (l : Models) : (frontOf m l).Perm l := by
  unfold frontOf
  split
  · rename_i h; exact (List.perm_cons_erase h).symm
  · exact .refl _

theorem mapSet_keep {m : Models} {k : Str} {v : List Str} {x : Str × List Str} (hx : x ∈ m) (hk : k ≠ x.1) : x ∈ mapSet m k v := by
  induction m with
  | nil => cases hx
  | cons p m ih =>
    obtain ⟨a, b⟩ := p
    unfold mapSet
    by_cases h : a = k
    · rw [if_pos h]
      rcases List.mem_cons.1 hx with rfl | hx
      · exact absurd h.symm hk
      · exact List.mem_cons_of_mem _ hx
    · rw [if_neg h]
      rcases List.mem_cons.1 hx with rfl | hx
      · exact List.mem_cons_self
      · exact List.mem_cons_of_mem _ (ih hx)

theorem extract_keeps {x : Str × List Str} : ∀ (l : Models) (st : StringSet × Models), x ∈ st.2 → x.1 ∉ l.map Prod.fst →
    x ∈ (l.foldl extractStep st).2 := by
  intro l
  induction l with
  | nil => intro st h _; exact h
  | cons p l ih =>
    intro st h hn
    rw [List.map_cons, List.mem_cons, not_or] at hn
    refine ih _ ?_ hn.2
    unfold extractStep
    split
    · exact mapSet_keep h (Ne.symm hn.1)
    · exact h

/-- The struct that is visited first is embedded. -/
theorem extract_front {models : Models} {m : Str × List Str} {columns : List Column} (hn : (models.map Prod.fst).Nodup) (hm : m ∈ models)
    (hc : ∀ c ∈ m.2, c ∈ columns.map (·.name)) : m ∈ extractModels (frontOf m) models columns := by
  have hp := frontOf_perm m models
  have hn' := (hp.map Prod.fst).nodup_iff.2 hn
  unfold extractModels
  unfold frontOf at hn' ⊢
  rw [if_pos hm] at hn' ⊢
  rw [List.map_cons, List.nodup_cons] at hn'
  rw [List.foldl_cons]
  refine extract_keeps _ _ ?_ hn'.1
  unfold extractStep
  rw [if_pos]
  · exact List.mem_singleton.2 rfl
  · rw [containsAll_iff]
    intro c h
    show c ∈ (StringSet.ofList _).keys
    rw [StringSet.mem_ofList]
    exact hc c h

theorem front_schedules (m : Str × List Str) : Schedules fun _ => (frontOf m, frontOf m) :=
  fun _ l => ⟨frontOf_perm m l, frontOf_perm m l⟩

/-- Any struct whose columns a table has is the first embedded one in some execution. -/
theorem front_embedded {sc : Strcase} {o : GormOption} {s : Schema} {models : Models} (hc : CleanCase sc) (hp : PlainGorm o s)
    (hm : Registered models) {m : Str × List Str} (hmm : m ∈ register models o.embed) {i : Nat} {t : Table}
    (ht : (GormSelected o s)[i]? = some t) (hcols : ∀ c ∈ m.2, c ∈ t.columns.map (·.name)) :
    ((readGo (generate sc (fun _ => (frontOf m, frontOf m)) models o s).1).bind fun f => f.structs[i]?.bind fun d => d.embedded.head?) =
      some m.1 := by
  rw [read_generate hc hp (front_schedules m) hm.1 hm.2, Option.bind_some]
  dsimp only
  unfold fileDecls
  rw [List.map_map, List.getElem?_map, List.getElem?_zipIdx, ht]
  have hf := extract_front (register_nodup hm.1 o.embed) hmm hcols
  show List.head? ((frontOf m (extractModels (frontOf m) (register models o.embed) t.columns)).map Prod.fst) = _
  have e : frontOf m (extractModels (frontOf m) (register models o.embed) t.columns) =
      m :: (extractModels (frontOf m) (register models o.embed) t.columns).erase m := if_pos hf
  rw [e]
  rfl

/-- C83, exactly: the text is the same in all executions if and only if no selected table has the columns of two known structs. -/
theorem C83_exact {sc : Strcase} {o : GormOption} {s : Schema} {models : Models} (hc : CleanCase sc) (hp : PlainGorm o s)
    (hm : Registered models) :
    (∀ ords ords', Schedules ords → Schedules ords' → (generate sc ords models o s).1 = (generate sc ords' models o s).1) ↔
      OneModel (register models o.embed) (GormSelected o s) := by
  constructor
  · intro h t ht m hmm m' hmm' hcols hcols'
    obtain ⟨i, hi⟩ := List.mem_iff_getElem?.1 ht
    have h1 := front_embedded hc hp hm hmm hi hcols
    have h2 := front_embedded hc hp hm hmm' hi hcols'
    rw [h _ _ (front_schedules m) (front_schedules m'), h2] at h1
    exact List.inj_on_of_nodup_map (register_nodup hm.1 o.embed) hmm hmm' (Option.some.inj h1).symm
  · intro hone ords ords' ho ho'
    rw [C83_order_partial ho ho' hm hone]

/-- The demo, and the default with a second struct. -/
example := C83_exact (o := gormOption) strcase_clean (gormSchema_plain rfl rfl rfl rfl) defaultModels_registered

example : ¬OneModel (register defaultModels "base.Model:id"ₛ) (GormSelected { gormOption with embed := "base.Model:id"ₛ } gormOverlap) := by
  intro h
  have := h (gormOverlap.tables.head (by decide)) (by decide +kernel) ("gorm.Model"ₛ, ["id"ₛ, "created_at"ₛ, "updated_at"ₛ, "deleted_at"ₛ])
    (by decide +kernel) ("base.Model"ₛ, ["id"ₛ]) (by decide +kernel) (by decide +kernel) (by decide +kernel)
  exact absurd this (by decide)

theorem mapSet_fix {m : Models} {k : Str} {v : List Str} (hn : (m.map Prod.fst).Nodup) : mapSet m k v = m ↔ (k, v) ∈ m := by
  induction m with
  | nil =>
    constructor
    · intro h; cases h
    · intro h; cases h
  | cons p m ih =>
    obtain ⟨a, b⟩ := p
    rw [List.map_cons, List.nodup_cons] at hn
    unfold mapSet
    by_cases h : a = k
    · rw [if_pos h]
      subst h
      constructor
      · intro e
        rw [← (List.cons.inj e).1]
        exact List.mem_cons_self
      · intro e
        rcases List.mem_cons.1 e with e | e
        · rw [e]
        · exact absurd (List.mem_map_of_mem (f := Prod.fst) e) hn.1
    · rw [if_neg h]
      constructor
      · intro e
        exact List.mem_cons_of_mem _ ((ih hn.2).1 (List.cons.inj e).2)
      · intro e
        rcases List.mem_cons.1 e with e | e
        · exact absurd (congrArg Prod.fst e).symm h
        · rw [(ih hn.2).2 e]

/-- C83, exactly: a call leaves the known structs as they are if and only if its option defines no struct, or one that is known. -/
theorem C83_state_exact {sc : Strcase} {o : GormOption} {s : Schema} {ords : Nat → (Models → Models) × (Models → Models)}
    {models : Models} (hm : Registered models) :
    (generate sc ords models o s).2 = models ↔ ∀ p, parseModel o.embed = some p → p ∈ models := by
  show register models o.embed = models ↔ _
  unfold register
  by_cases h : o.embed = []
  · rw [if_pos h, h]
    refine ⟨fun _ p hp => ?_, fun _ => rfl⟩
    cases hp
  · rw [if_neg h]
    cases hp : parseModel o.embed with
    | none => exact ⟨fun _ p hp => (by cases hp), fun _ => rfl⟩
    | some p =>
      obtain ⟨k, v⟩ := p
      dsimp only
      rw [mapSet_fix hm.1]
      exact ⟨fun h p hp => Option.some.inj hp ▸ h, fun h => h _ rfl⟩

example := C83_state_exact (sc := strcase) (o := gormOption) (s := gormSchema) (ords := gormOrds) defaultModels_registered

/-! ### C84: imports -/

/-- C84, exactly. `cs` are the selected tables with the structs that they embed. The imports are the packages that the file uses if
and only if each package of an embedded struct is imported for `gorm.Model` or for a column, and there is a use of `null` if there
is a column that may be null. -/
theorem C84_exact {sc : Strcase} {o : GormOption} {s : Schema} {ords : Nat → (Models → Models) × (Models → Models)}
    {models : Models} (hc : CleanCase sc) (hp : PlainGorm o s) (ho : Schedules ords) (hm : Registered models) :
    ∃ f, ∃ cs : List (Table × Models), readGo (generate sc ords models o s).1 = some f ∧ cs.map Prod.fst = GormSelected o s ∧
      f.structs.map (·.embedded) = cs.map (fun p => p.2.map Prod.fst) ∧
      (∀ p ∈ cs, Embeds (register models o.embed) (p.1.columns.map (·.name)) p.2) ∧
      ((∀ q, q ∈ f.imports.map importName ↔ ∃ d ∈ f.structs, q ∈ usedPackages d) ↔
        (∀ p ∈ cs, ∀ m ∈ p.2, ∀ q, qualifier m.1 = some q →
          (q = "gorm"ₛ ∧ ∃ p' ∈ cs, "gorm.Model"ₛ ∈ p'.2.map Prod.fst) ∨
          ∃ p' ∈ cs, ∃ c ∈ ownColumns p'.2 p'.1, (q = "null"ₛ ∧ c.notNull = false) ∨ (q = "decimal"ₛ ∧ lower c.type = "decimal"ₛ) ∨
            (q = "time"ₛ ∧ c.notNull = true ∧ lower c.type ∈ ["datetime"ₛ, "date"ₛ, "time"ₛ])) ∧
        ((∃ p ∈ cs, ∃ c ∈ ownColumns p.2 p.1, c.notNull = false) →
          (∃ p ∈ cs, ∃ c ∈ ownColumns p.2 p.1, c.notNull = false ∧ lower c.type ∈ nullTypes) ∨
          ∃ p ∈ cs, ∃ m ∈ p.2, qualifier m.1 = some "null"ₛ)) := by
  let ch : Table × Nat → Models := fun p => (ords p.2).2 (extractModels (ords p.2).1 (register models o.embed) p.1.columns)
  let cs : List (Table × Models) := (GormSelected o s).zipIdx.map fun p => (p.1, ch p)
  refine ⟨_, cs, read_generate hc hp ho hm.1 hm.2, ?_, ?_, ?_, ?_⟩
  · show ((GormSelected o s).zipIdx.map fun p => (p.1, ch p)).map Prod.fst = _
    rw [List.map_map]
    have := zipIdx_map_fst' (GormSelected o s) id
    rw [List.map_id] at this
    exact this
  · dsimp only
    unfold fileDecls
    show _ = ((GormSelected o s).zipIdx.map fun p => (p.1, ch p)).map _
    rw [List.map_map, List.map_map, List.map_map]
    rfl
  · intro p hpm
    obtain ⟨p', hp', rfl⟩ := List.mem_map.1 hpm
    exact embeds_extract (fun l => (ho p'.2 l).1) (fun l => (ho p'.2 l).2) (register_nodup hm.1 o.embed) p'.1.columns
  · dsimp only
    have himp : ∀ q, q ∈ (imports (structs sc ords models o s)).map importName ↔
        (q = "gorm"ₛ ∧ ∃ p' ∈ cs, "gorm.Model"ₛ ∈ p'.2.map Prod.fst) ∨
          ∃ p' ∈ cs, ∃ c ∈ ownColumns p'.2 p'.1, (q = "null"ₛ ∧ c.notNull = false) ∨ (q = "decimal"ₛ ∧ lower c.type = "decimal"ₛ) ∨
            (q = "time"ₛ ∧ c.notNull = true ∧ lower c.type ∈ ["datetime"ₛ, "date"ₛ, "time"ₛ]) := by
      intro q
      constructor
      · intro h
        obtain ⟨i, hi, rfl⟩ := List.mem_map.1 h
        rw [file_imports ho] at hi
        obtain ⟨p, hpm, ⟨hg, rfl⟩ | ⟨c, hcm, hi⟩⟩ := hi
        · exact .inl ⟨importName_gorm, (p.1, ch p), List.mem_map_of_mem hpm, hg⟩
        · refine .inr ⟨(p.1, ch p), List.mem_map_of_mem hpm, c, hcm, ?_⟩
          rw [mem_fieldImports] at hi
          rcases hi with ⟨h1, rfl⟩ | ⟨h1, rfl⟩ | ⟨⟨h1, h2⟩, rfl⟩
          · rw [Bool.not_eq_true'] at h1
            exact .inl ⟨importName_null, h1⟩
          · exact .inr (.inl ⟨importName_decimal, h1⟩)
          · rw [Bool.not_eq_false'] at h2
            exact .inr (.inr ⟨importName_time, h2, h1⟩)
      · rintro (⟨rfl, p, hpm, hg⟩ | ⟨p, hpm, c, hcm, h⟩)
        · obtain ⟨p', hp', rfl⟩ := List.mem_map.1 hpm
          exact List.mem_map.2 ⟨"github.com/jinzhu/gorm"ₛ, (file_imports ho _).2 ⟨p', hp', .inl ⟨hg, rfl⟩⟩, importName_gorm⟩
        · obtain ⟨p', hp', rfl⟩ := List.mem_map.1 hpm
          rcases h with ⟨rfl, h⟩ | ⟨rfl, h⟩ | ⟨rfl, h1, h2⟩
          · refine List.mem_map.2 ⟨"gopkg.in/guregu/null.v4"ₛ, (file_imports ho _).2 ⟨p', hp', .inr ⟨c, hcm, ?_⟩⟩, importName_null⟩
            rw [mem_fieldImports]
            exact .inl ⟨by rw [h]; rfl, rfl⟩
          · refine List.mem_map.2 ⟨"github.com/shopspring/decimal"ₛ, (file_imports ho _).2 ⟨p', hp', .inr ⟨c, hcm, ?_⟩⟩, importName_decimal⟩
            rw [mem_fieldImports]
            exact .inr (.inl ⟨h, rfl⟩)
          · refine List.mem_map.2 ⟨"time"ₛ, (file_imports ho _).2 ⟨p', hp', .inr ⟨c, hcm, ?_⟩⟩, importName_time⟩
            rw [mem_fieldImports]
            exact .inr (.inr ⟨⟨h2, by rw [h1]; rfl⟩, rfl⟩)
    have huse : ∀ q, (∃ d ∈ (fileDecls sc ords models o s).map Prod.fst, q ∈ usedPackages d) ↔
        (∃ p ∈ cs, ∃ m ∈ p.2, qualifier m.1 = some q) ∨ ∃ p ∈ cs, ∃ c ∈ ownColumns p.2 p.1, qualifier (goTypeOf c) = some q := by
      intro q
      constructor
      · rintro ⟨d, hd, hu⟩
        obtain ⟨d', hd', rfl⟩ := List.mem_map.1 hd
        obtain ⟨p, hpm, rfl⟩ := List.mem_map.1 hd'
        rw [used_struct hc hp] at hu
        rcases hu with ⟨m, hm', e⟩ | ⟨c, hcm, e⟩
        · exact .inl ⟨(p.1, ch p), List.mem_map_of_mem hpm, m, hm', e⟩
        · exact .inr ⟨(p.1, ch p), List.mem_map_of_mem hpm, c, hcm, e⟩
      · rintro (⟨p, hpm, m, hm', e⟩ | ⟨p, hpm, c, hcm, e⟩)
        · obtain ⟨p', hp', rfl⟩ := List.mem_map.1 hpm
          refine ⟨_, List.mem_map_of_mem (List.mem_map_of_mem hp'), ?_⟩
          rw [used_struct hc hp]
          exact .inl ⟨m, hm', e⟩
        · obtain ⟨p', hp', rfl⟩ := List.mem_map.1 hpm
          refine ⟨_, List.mem_map_of_mem (List.mem_map_of_mem hp'), ?_⟩
          rw [used_struct hc hp]
          exact .inr ⟨c, hcm, e⟩
    have hnd : "decimal"ₛ ∉ nullTypes := by decide +kernel
    have hndt : "decimal"ₛ ∉ ["datetime"ₛ, "date"ₛ, "time"ₛ] := by decide
    constructor
    · intro h
      refine ⟨fun p hpm m hm' q e => (himp q).1 ((h q).2 ((huse q).2 (.inl ⟨p, hpm, m, hm', e⟩))), ?_⟩
      rintro ⟨p, hpm, c, hcm, hn⟩
      rcases (huse _).1 ((h "null"ₛ).1 ((himp _).2 (.inr ⟨p, hpm, c, hcm, .inl ⟨rfl, hn⟩⟩))) with h | ⟨p, hpm, c, hcm, e⟩
      · exact .inr h
      · left
        rw [qualifier_goType] at e
        split at e
        · rename_i h
          exact ⟨p, hpm, c, hcm, h⟩
        · split at e
          · exact absurd e (by decide)
          · split at e
            · exact absurd e (by decide)
            · cases e
    · rintro ⟨hemb, hnull⟩ q
      rw [himp, huse]
      constructor
      · rintro (⟨rfl, p, hpm, hg⟩ | ⟨p, hpm, c, hcm, h⟩)
        · obtain ⟨m, hm', e⟩ := List.mem_map.1 hg
          exact .inl ⟨p, hpm, m, hm', by rw [e]; decide +kernel⟩
        · rcases h with ⟨rfl, h⟩ | ⟨rfl, h⟩ | ⟨rfl, h1, h2⟩
          · rcases hnull ⟨p, hpm, c, hcm, h⟩ with ⟨p, hpm, c, hcm, h⟩ | h
            · refine .inr ⟨p, hpm, c, hcm, ?_⟩
              rw [qualifier_goType, if_pos h]
            · exact .inl h
          · refine .inr ⟨p, hpm, c, hcm, ?_⟩
            rw [qualifier_goType, if_neg (fun e => hnd (h ▸ e.2)), if_pos h]
          · refine .inr ⟨p, hpm, c, hcm, ?_⟩
            rw [qualifier_goType, if_neg (fun e => by rw [h1] at e; exact absurd e.1 (by decide)), if_neg (fun e => by rw [e] at h2; exact hndt h2),
              if_pos ⟨h1, h2⟩]
      · rintro (⟨p, hpm, m, hm', e⟩ | ⟨p, hpm, c, hcm, e⟩)
        · exact hemb p hpm m hm' q e
        · right
          refine ⟨p, hpm, c, hcm, ?_⟩
          rw [qualifier_goType] at e
          split at e
          · rename_i h
            exact .inl ⟨(Option.some.inj e).symm, h.1⟩
          · split at e
            · rename_i h
              exact .inr (.inl ⟨(Option.some.inj e).symm, h⟩)
            · split at e
              · rename_i h
                exact .inr (.inr ⟨(Option.some.inj e).symm, h⟩)
              · cases e

example := C84_exact (o := gormOption) strcase_clean (gormSchema_plain rfl rfl rfl rfl) gormOrds_schedules defaultModels_registered

/-! ### C88: types of columns in embedded structs -/

/-- A schema with other types. -/
def retyped (g : Table → Column → Str) (s : Schema) : Schema :=
  { s with tables := s.tables.map fun t => { t with columns := t.columns.map fun c => { c with type := g t c } } }

theorem retyped_reference (g : Table → Column → Str) (s : Schema) (r : Reference) :
    ((retyped g s).findReference r).map (fun p => (p.1.name, p.1.className, p.1.group, p.2.name)) =
      (s.findReference r).map fun p => (p.1.name, p.1.className, p.1.group, p.2.name) := by
  rw [resolve_eq, resolve_eq]
  unfold resolve retyped
  dsimp only
  rw [List.find?_map]
  have e : ((fun t : Table => t.name == r.table) ∘ fun t : Table => { t with columns := t.columns.map fun c => { c with type := g t c } }) =
      fun t : Table => t.name == r.table := rfl
  rw [e]
  cases s.tables.find? (fun t : Table => t.name == r.table) with
  | none => rfl
  | some t =>
    rw [Option.map_some, Option.bind_some, Option.bind_some]
    dsimp only
    rw [List.find?_map]
    have e' : ((fun c : Column => c.name == r.column) ∘ fun c : Column => { c with type := g t c }) = fun c : Column => c.name == r.column := rfl
    rw [e']
    cases t.columns.find? (fun c : Column => c.name == r.column) with
    | none => rfl
    | some c => rfl

theorem retyped_association (sc : Strcase) (g : Table → Column → Str) (s : Schema) (o : GormOption) (t : Table) (c : Column) :
    association sc (retyped g s) o { c with type := g t c } = association sc s o c := by
  unfold association
  dsimp only
  cases c.ref with
  | none => rfl
  | some r =>
    rw [Option.bind_some, Option.bind_some]
    have h := retyped_reference g s r
    cases h1 : (retyped g s).findReference r with
    | none =>
      rw [h1] at h
      cases h2 : s.findReference r with
      | none => rfl
      | some p => rw [h2] at h; cases h
    | some p =>
      rw [h1] at h
      cases h2 : s.findReference r with
      | none => rw [h2] at h; cases h
      | some q =>
        rw [h2] at h
        obtain ⟨t1, c1⟩ := p
        obtain ⟨t2, c2⟩ := q
        have h := Option.some.inj h
        have h1 : t1.name = t2.name := congrArg (fun x => x.1) h
        have h2 : t1.className = t2.className := congrArg (fun x => x.2.1) h
        have h3 : t1.group = t2.group := congrArg (fun x => x.2.2.1) h
        have h4 : c1.name = c2.name := congrArg (fun x => x.2.2.2) h
        rw [Option.map_some, Option.map_some]
        unfold structName
        dsimp only
        rw [h1, h2, h3, h4]

/-- What the text of a struct depends on. -/
theorem structText_congr {o : GormOption} {g g' : GoStruct} (h1 : g.name = g'.name) (h2 : g.embedded = g'.embedded) (h3 : g.fields = g'.fields)
    (h4 : g.uniqueFields.length = g'.uniqueFields.length) (h5 : g.associations = g'.associations) (h6 : g.table.name = g'.table.name)
    (h7 : g.table.indices = g'.table.indices) : structText o g = structText o g' := by
  have hu : uniqueCstName o g = uniqueCstName o g' := by unfold uniqueCstName; rw [h4, h6]
  have ht : ∀ f, fieldTags g.table (uniqueCstName o g') f = fieldTags g'.table (uniqueCstName o g') f := by
    intro f
    unfold fieldTags
    rw [h7]
  unfold structText structFields
  rw [hu, h1, h2, h3, h5, h6]
  simp only [ht]

/-- C88 is violated, in general: the text does not depend on the type of a column if the table embeds a struct with that name. -/
theorem C88_ignored {sc : Strcase} {o : GormOption} {s : Schema} {ords : Nat → (Models → Models) × (Models → Models)} {models : Models}
    (ho : Schedules ords) (hm : Registered models) (g : Table → Column → Str)
    (hf : ∀ t ∈ s.tables, passes o.tableFilter { t with columns := t.columns.map fun c => { c with type := g t c } } = passes o.tableFilter t)
    (hone : OneModel (register models o.embed) (GormSelected o s))
    (hg : ∀ t ∈ GormSelected o s, ∀ c ∈ t.columns,
      (∀ m ∈ register models o.embed, (∀ n ∈ m.2, n ∈ t.columns.map (·.name)) → c.name ∉ m.2) → g t c = c.type) :
    generate sc ords models o (retyped g s) = generate sc ords models o s := by
  have hsel : selected o (retyped g s) = (selected o s).map fun t => { t with columns := t.columns.map fun c => { c with type := g t c } } := by
    unfold selected retyped
    dsimp only
    rw [List.filter_map]
    congr 1
    exact List.filter_congr hf
  have key : ∀ p ∈ (selected o s).zipIdx,
      let a := newGoStruct sc (retyped g s) o (register models o.embed) (ords p.2).1 (ords p.2).2
        { p.1 with columns := p.1.columns.map fun c => { c with type := g p.1 c } }
      let b := newGoStruct sc s o (register models o.embed) (ords p.2).1 (ords p.2).2 p.1
      a.name = b.name ∧ a.embedded = b.embedded ∧ a.fields = b.fields ∧ a.uniqueFields.length = b.uniqueFields.length ∧
      a.associations = b.associations ∧ a.table.name = b.table.name ∧ a.table.indices = b.table.indices := by
    intro p hp
    dsimp only
    have hps : p.1 ∈ GormSelected o s := by
      rw [Gorm.selected_eq] at hp
      have := List.mem_map_of_mem (f := fun q : Table × Nat => id q.1) hp
      rw [zipIdx_map_fst', List.map_id] at this
      exact this
    have hx : extractModels (ords p.2).1 (register models o.embed) (p.1.columns.map fun c => { c with type := g p.1 c }) =
        extractModels (ords p.2).1 (register models o.embed) p.1.columns := by
      unfold extractModels
      rw [List.map_map]
      rfl
    have he := embeds_extract (ord := (ords p.2).1) (ord' := id) (fun l => (ho p.2 l).1) (fun l => .refl _) (register_nodup hm.1 o.embed)
      p.1.columns
    have hown : ∀ c ∈ p.1.columns, containsColumn (extractModels (ords p.2).1 (register models o.embed) p.1.columns) c.name = false →
        g p.1 c = c.type := by
      intro c hc hn
      refine hg p.1 hps c hc fun m hmm hcols hin => ?_
      have hmc : m ∈ extractModels (ords p.2).1 (register models o.embed) p.1.columns := by
        rcases he.maximal m hmm hcols with h | ⟨x, _, m', hm', _⟩
        · exact h
        · have := hone p.1 hps m hmm m' (he.known m' hm') hcols (he.columns m' hm')
          rw [this]
          exact hm'
      unfold containsColumn at hn
      have := List.any_eq_false.1 hn m hmc
      exact this (by simpa using hin)
    unfold newGoStruct
    dsimp only
    refine ⟨rfl, by rw [hx], ?_, ?_, ?_, rfl, rfl⟩
    · rw [hx, List.map_map, List.filter_map, List.filter_map]
      have e : (fun f : GoField => !containsColumn (extractModels (ords p.2).1 (register models o.embed) p.1.columns) f.column.name) ∘
          (newGoField sc ∘ fun c => { c with type := g p.1 c }) =
          (fun f : GoField => !containsColumn (extractModels (ords p.2).1 (register models o.embed) p.1.columns) f.column.name) ∘ newGoField sc := rfl
      rw [e]
      apply List.map_congr_left
      intro c hc
      have hc := List.mem_filter.1 hc
      have := hown c hc.1 (by simpa [newGoField] using hc.2)
      show newGoField sc { c with type := g p.1 c } = newGoField sc c
      rw [this]
    · rw [List.map_map, List.filter_map, List.filter_map, List.length_map, List.length_map]
      rfl
    · rw [List.filterMap_map]
      congr 1
      funext c
      exact retyped_association sc g s o p.1 c
  have hzip : (selected o (retyped g s)).zipIdx = (selected o s).zipIdx.map fun p =>
      ({ p.1 with columns := p.1.columns.map fun c => { c with type := g p.1 c } }, p.2) := by
    rw [hsel, List.zipIdx_map]
    rfl
  have himp : imports (structs sc ords models o (retyped g s)) = imports (structs sc ords models o s) := by
    unfold imports structs
    rw [hzip, List.map_map, List.foldl_map, List.foldl_map]
    congr 1
    refine List.foldl_ext _ _ _ fun st p hp => ?_
    obtain ⟨_, h2, h3, _⟩ := key p hp
    show StringSet.addAll (List.foldl _ _ (List.filterMap _ (newGoStruct sc (retyped g s) o (register models o.embed) (ords p.2).1 (ords p.2).2
        { p.1 with columns := p.1.columns.map fun c => { c with type := g p.1 c } }).embedded)) (List.flatMap _ (newGoStruct sc (retyped g s) o (register models o.embed) (ords p.2).1 (ords p.2).2
        { p.1 with columns := p.1.columns.map fun c => { c with type := g p.1 c } }).fields) = _
    rw [h2, h3]
  have htext : (structs sc ords models o (retyped g s)).flatMap (structText o) = (structs sc ords models o s).flatMap (structText o) := by
    unfold structs
    rw [hzip, List.map_map, List.flatMap_map, List.flatMap_map]
    refine List.flatMap_congr fun p hp => ?_
    obtain ⟨h1, h2, h3, h4, h5, h6, h7⟩ := key p hp
    exact structText_congr h1 h2 h3 h4 h5 h6 h7
  unfold generate
  dsimp only
  rw [himp, htext]

/-- In the table of the demo that embeds `gorm.Model`, the types of its columns do not matter. -/
example (type : Str) := C88_ignored (sc := strcase) (o := gormOption) (s := gormText "int64"ₛ) gormOrds_schedules defaultModels_registered
  (fun _ c => if c.name = "id"ₛ then type else c.type)
  (fun _ _ => rfl)
  (by
    intro t _ m hm m' hm' _ _
    rw [show register defaultModels gormOption.embed = defaultModels from rfl] at hm hm'
    rw [List.mem_singleton.1 hm, List.mem_singleton.1 hm'])
  (by
    intro t ht c hc h
    rw [if_neg]
    intro e
    have ht' : t ∈ (gormText "int64"ₛ).tables := (List.mem_filter.1 ht).1
    rw [List.mem_singleton.1 ht'] at h
    refine h ("gorm.Model"ₛ, ["id"ₛ, "created_at"ₛ, "updated_at"ₛ, "deleted_at"ₛ]) List.mem_cons_self (by decide +kernel) ?_
    rw [e]
    exact List.mem_cons_self)

end Octo
