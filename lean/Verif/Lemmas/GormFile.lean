import Verif.Lemmas.GormStruct
import Verif.Lemmas.DiffTables

/-! The file of the GORM generator is read as what it says about the schema. -/

namespace Octo.Gorm
open Spec
open Protobuf (LineWord lineWord_ident lineWord_literal)

/-! ### Fields -/

/-- The field of a column. -/
def columnDecl (sc : Strcase) (o : GormOption) (t : Table) (c : Column) : GoFieldDecl :=
  ⟨goFieldName sc c.name, goTypeOf c, tagList t (cstName o t) (fieldName sc c.name).2 c⟩

/-- The field of a reference. -/
def linkDecl (sc : Strcase) (o : GormOption) (x : Column × Reference × Table × Column) : GoFieldDecl :=
  ⟨goStructName sc o x.2.2.1,
   (if o.pointerAssociation then "*"ₛ else []) ++ (if x.2.1.relationship = "1:n"ₛ then "[]"ₛ else []) ++ goStructName sc o x.2.2.1,
   [("foreignKey"ₛ, some (goFieldName sc x.1.name)), ("references"ₛ, some (goFieldName sc x.2.2.2.name))]⟩

/-- The struct of a table. -/
def structDecl (sc : Strcase) (o : GormOption) (s : Schema) (chosen : Models) (t : Table) : GoStructDecl :=
  ⟨goStructName sc o t, chosen.map Prod.fst, (ownColumns chosen t).map (columnDecl sc o t) ++ (links s t).map (linkDecl sc o)⟩

theorem resolve_eq (s : Schema) (r : Reference) : s.findReference r = resolve s r := by
  unfold Schema.findReference resolve Schema.tableByName Table.columnByName
  cases s.tables.find? fun t => t.name == r.table with
  | none => rfl
  | some t =>
    dsimp only
    rw [Option.bind_some]
    cases t.columns.find? fun c => c.name == r.column with
    | none => rfl
    | some c => rfl

theorem resolve_mem {s : Schema} {r : Reference} {p : Table × Column} (h : resolve s r = some p) : p.1 ∈ s.tables ∧ p.2 ∈ p.1.columns := by
  unfold resolve at h
  obtain ⟨t, ht, h⟩ := Option.bind_eq_some_iff.1 h
  obtain ⟨c, hc, rfl⟩ := Option.map_eq_some_iff.1 h
  exact ⟨List.mem_of_find?_eq_some ht, List.mem_of_find?_eq_some hc⟩

theorem links_mem {s : Schema} {t : Table} {x : Column × Reference × Table × Column} (h : x ∈ links s t) :
    x.1 ∈ t.columns ∧ x.1.ref = some x.2.1 ∧ resolve s x.2.1 = some x.2.2 := by
  obtain ⟨c, hc, h⟩ := List.mem_filterMap.1 h
  obtain ⟨r, hr, h⟩ := Option.bind_eq_some_iff.1 h
  obtain ⟨p, hp, rfl⟩ := Option.map_eq_some_iff.1 h
  exact ⟨hc, hr, hp⟩

theorem associations_eq (sc : Strcase) (s : Schema) (o : GormOption) (t : Table) :
    t.columns.filterMap (association sc s o) = (links s t).map fun x =>
      ⟨goStructName sc o x.2.2.1, goStructName sc o x.2.2.1, x.2.1.relationship == refOneToMany, (fieldName sc x.1.name).1,
        (fieldName sc x.2.2.2.name).1⟩ := by
  unfold links
  rw [List.map_filterMap]
  congr 1
  funext c
  unfold association
  cases c.ref with
  | none => rfl
  | some r =>
    rw [Option.bind_some, Option.bind_some, resolve_eq]
    cases resolve s r with
    | none => rfl
    | some p =>
      simp only [Option.map_some, structName_eq]

theorem own_fields (sc : Strcase) {chosen chosen' : Models} (h : chosen.Perm chosen') (t : Table) :
    (t.columns.map (newGoField sc)).filter (fun f => !containsColumn chosen f.column.name) =
      (ownColumns chosen' t).map (newGoField sc) := by
  rw [List.filter_map, ← own_eq]
  congr 1
  apply List.filter_congr
  intro c _
  show (!containsColumn chosen c.name) = _
  rw [containsColumn_perm h]

theorem unique_fields (sc : Strcase) (t : Table) :
    ((t.columns.map (newGoField sc)).filter (·.column.uniqueKey)).length = (uniqueColumns t).length := by
  rw [List.filter_map, List.length_map]
  rfl

/-- The lines of the fields are the lines of the declarations. -/
theorem struct_fields {sc : Strcase} {s : Schema} {o : GormOption} (hc : CleanCase sc) (hp : PlainGorm o s) {t : Table}
    (ht : t ∈ s.tables) (models : Models) (ord ord' : Models → Models) (ho' : ∀ l, (ord' l).Perm l) :
    (structFields o (newGoStruct sc s o models ord ord' t)).map ("\t"ₛ ++ ·) =
      (structDecl sc o s (ord' (extractModels ord models t.columns)) t).fields.map declLine := by
  unfold structFields structDecl
  have hu : uniqueCstName o (newGoStruct sc s o models ord ord' t) = cstName o t := by
    unfold uniqueCstName cstName
    show (if ((t.columns.map (newGoField sc)).filter (·.column.uniqueKey)).length > 1 then t.name ++ o.uniqueNameSuffix else []) = _
    rw [unique_fields]
  rw [hu, List.map_append, List.map_append, List.map_map, List.map_map, List.map_map, List.map_map]
  congr 1
  · show List.map _ ((t.columns.map (newGoField sc)).filter fun f => !containsColumn (extractModels ord models t.columns) f.column.name) = _
    rw [own_fields sc (ho' _).symm, List.map_map]
    apply List.map_congr_left
    intro c hm
    have hm' : c ∈ t.columns := (List.mem_filter.1 hm).1
    show "\t"ₛ ++ fieldLine (fieldName sc c.name).1 (fieldType c.type !c.notNull) (gormTag (fieldTags t (cstName o t) (newGoField sc c))) =
      declLine (columnDecl sc o t c)
    rw [tag_map, (fieldName_eq hc (hp.columns t ht c hm').2).1, fieldType_eq]
    rfl
  · show List.map _ (t.columns.filterMap (association sc s o)) = _
    rw [associations_eq, List.map_map]
    apply List.map_congr_left
    intro x hx
    obtain ⟨h1, h2, h3⟩ := links_mem hx
    obtain ⟨h4, h5⟩ := resolve_mem h3
    show "\t"ₛ ++ fieldLine _ (associationType o ⟨_, _, _, (fieldName sc x.1.name).1, (fieldName sc x.2.2.2.name).1⟩) (gormTag
      ["foreignKey:"ₛ ++ (fieldName sc x.1.name).1, "references:"ₛ ++ (fieldName sc x.2.2.2.name).1]) = declLine (linkDecl sc o x)
    rw [(fieldName_eq hc (hp.columns t ht _ h1).2).1, (fieldName_eq hc (hp.columns _ h4 _ h5).2).1]
    unfold declLine linkDecl associationType
    dsimp only
    have e : ∀ y, (x.2.1.relationship == refOneToMany) = y → (if o.pointerAssociation = true then
        "*"ₛ ++ (if y = true then "[]"ₛ ++ goStructName sc o x.2.2.1 else goStructName sc o x.2.2.1)
        else if y = true then "[]"ₛ ++ goStructName sc o x.2.2.1 else goStructName sc o x.2.2.1) =
        (if o.pointerAssociation = true then "*"ₛ else []) ++ (if x.2.1.relationship = "1:n"ₛ then "[]"ₛ else []) ++
          goStructName sc o x.2.2.1 := by
      rintro y rfl
      by_cases h : x.2.1.relationship = "1:n"ₛ
      · have : (x.2.1.relationship == refOneToMany) = true := by rw [h]; decide
        rw [if_pos this, if_pos h]
        split
        · rw [List.append_assoc]
        · rfl
      · have : ¬(x.2.1.relationship == refOneToMany) = true := by rw [beq_iff_eq]; exact h
        rw [if_neg this, if_neg h]
        split
        · rw [List.append_assoc]; rfl
        · rfl
    rw [e _ rfl]
    rfl

/-- The text of a struct, as lines. -/
theorem struct_lines {sc : Strcase} {s : Schema} {o : GormOption} (hc : CleanCase sc) (hp : PlainGorm o s) {t : Table}
    (ht : t ∈ s.tables) (models : Models) (ord ord' : Models → Models) (ho' : ∀ l, (ord' l).Perm l) :
    structText o (newGoStruct sc s o models ord ord' t) =
      unlines (structLines (structDecl sc o s (ord' (extractModels ord models t.columns)) t) t.name) := by
  unfold structText structLines
  have e : ∀ (n tn : Str) (l : List Str),
      "type "ₛ ++ n ++ " struct {"ₛ ++ l.flatMap ("\n"ₛ ++ ·) ++ "\n}\n\nfunc (c *"ₛ ++ n ++
        ") TableName() string { return \""ₛ ++ tn ++ "\" }\n\n"ₛ =
      unlines (("type "ₛ ++ n ++ " struct {"ₛ) :: (l ++
        ["}"ₛ, [], "func (c *"ₛ ++ n ++ ") TableName() string { return \""ₛ ++ tn ++ "\" }"ₛ, []])) := by
    intro n tn l
    rw [← List.cons_append, unlines_append, ← unlines_before]
    simp [unlines, List.append_assoc]
  have f : ∀ l : List Str, l.flatMap (fun e => "\n\t"ₛ ++ e) = (l.map ("\t"ₛ ++ ·)).flatMap ("\n"ₛ ++ ·) := by
    intro l
    rw [List.flatMap_map]
    rfl
  rw [f, f, struct_fields hc hp ht _ _ _ ho']
  rw [show (newGoStruct sc s o models ord ord' t).name = goStructName sc o t from structName_eq _ _ _]
  show "type "ₛ ++ goStructName sc o t ++ " struct {"ₛ ++
    (((ord' (extractModels ord models t.columns)).map Prod.fst).map ("\t"ₛ ++ ·)).flatMap ("\n"ₛ ++ ·) ++ _ ++ _ ++ _ ++ _ ++ t.name ++ _ = _
  rw [← e, List.flatMap_append]
  simp only [List.append_assoc]
  rfl

theorem header_lines (o : GormOption) (is : List Str) :
    headerText o is = unlines (headerLines (if o.package = [] then "main"ₛ else o.package) is) := by
  unfold headerText headerLines
  generalize (if o.package = [] then "main"ₛ else o.package) = p
  have e : is.flatMap (fun i => "\n\t\""ₛ ++ i ++ "\""ₛ) = (is.map (fun i => "\t\""ₛ ++ i ++ "\""ₛ)).flatMap ("\n"ₛ ++ ·) := by
    rw [List.flatMap_map]
    rfl
  rw [e, unlines_cons, unlines_cons, ← List.cons_append, unlines_append, ← unlines_before]
  simp [unlines, List.append_assoc]

/-! ### Plain structs -/

theorem modelName_word {x : Str} (h : ModelName x) : LineWord x ∧ x ≠ "}"ₛ := by
  have hc : ∀ c ∈ x, isModelNameChar c = true := List.all_eq_true.1 h.2
  refine ⟨lineWord_literal x ?_ h.1, ?_⟩
  · rw [List.all_eq_true]
    intro c hm
    have := hc c hm
    by_cases h1 : sqlSep c = true
    · unfold sqlSep at h1
      simp only [Bool.or_eq_true, beq_iff_eq] at h1
      exfalso
      revert this
      unfold isBlank at h1
      simp only [Bool.or_eq_true, beq_iff_eq] at h1
      rcases h1 with ((((rfl | rfl) | rfl) | rfl) | rfl) | rfl <;> decide
    · have h2 : isQuote c ≠ true := by
        intro h2
        unfold isQuote at h2
        simp only [Bool.or_eq_true, beq_iff_eq] at h2
        revert this
        rcases h2 with (rfl | rfl) | rfl <;> decide
      have h3 : c ≠ '(' := by rintro rfl; revert this; decide
      have h4 : c ≠ ')' := by rintro rfl; revert this; decide
      simp [h1, h2, h3, h4]
  · rintro rfl
    exact absurd (hc '}' (by decide)) (by decide)

theorem register_names {models : Models} (h : ∀ m ∈ models, ModelName m.1) (embed : Str) : ∀ m ∈ register models embed, ModelName m.1 := by
  unfold register
  split
  · exact h
  · split
    · exact h
    · rename_i name columns hp
      intro m hm
      have : m.1 ∈ (mapSet models name columns).map Prod.fst := List.mem_map_of_mem hm
      rw [keys_mapSet] at this
      have hk : m.1 ∈ models.map Prod.fst ∨ m.1 = name := by
        split at this
        · exact .inl this
        · rcases List.mem_append.1 this with h' | h'
          · exact .inl h'
          · exact .inr (List.mem_singleton.1 h')
      rcases hk with hk | hk
      · obtain ⟨m', hm', e⟩ := List.mem_map.1 hk
        rw [← e]
        exact h m' hm'
      · rw [hk]
        unfold parseModel at hp
        split at hp
        · split at hp
          · rename_i hn
            cases hp
            exact ⟨hn.1, hn.2.1⟩
          · cases hp
        · cases hp

theorem register_nodup {models : Models} (h : (models.map Prod.fst).Nodup) (embed : Str) : ((register models embed).map Prod.fst).Nodup := by
  unfold register
  split
  · exact h
  · split
    · exact h
    · exact nodup_mapSet h _ _

theorem ident_plain {s : Str} (h : Ident s) : ∀ c ∈ s, tagBad c = false := ident_tag h.2

theorem plain_struct {sc : Strcase} {s : Schema} {o : GormOption} (hc : CleanCase sc) (hp : PlainGorm o s) {t : Table}
    (ht : t ∈ s.tables) {chosen : Models} (hm : ∀ m ∈ chosen, ModelName m.1) : PlainStruct (structDecl sc o s chosen t) t.name where
  name := ident_goStructName hc hp ht
  table := (hp.tables t ht).1
  embedded x hx := by
    obtain ⟨m, hm', rfl⟩ := List.mem_map.1 hx
    exact modelName_word (hm m hm')
  fields x hx := by
    rcases List.mem_append.1 hx with hx | hx
    · obtain ⟨c, hc', rfl⟩ := List.mem_map.1 hx
      have hc'' : c ∈ t.columns := (List.mem_filter.1 hc').1
      exact ⟨lineWord_ident (ident_goFieldName hc (hp.columns t ht c hc'').2), lineWord_goType c, plain_tagList hp ht hc'' _⟩
    · obtain ⟨l, hl, rfl⟩ := List.mem_map.1 hx
      obtain ⟨h1, h2, h3⟩ := links_mem hl
      obtain ⟨h4, h5⟩ := resolve_mem h3
      have hn := lineWord_ident (ident_goStructName hc hp h4)
      refine ⟨hn, ?_, ?_⟩
      · have hs : LineWord "*"ₛ := lineWord_literal _ (by decide) (by decide)
        have ha : LineWord "[]"ₛ := lineWord_literal _ (by decide) (by decide)
        show LineWord ((if o.pointerAssociation = true then "*"ₛ else []) ++ (if l.2.1.relationship = "1:n"ₛ then "[]"ₛ else []) ++
          goStructName sc o l.2.2.1)
        split
        · split
          · exact (hs.append ha).append hn
          · rw [List.append_nil]; exact hs.append hn
        · split
          · exact ha.append hn
          · exact hn
      · intro p hpm
        rcases List.mem_cons.1 hpm with rfl | hpm
        · exact plain_some (by decide) (ident_plain (ident_goFieldName hc (hp.columns t ht _ h1).2))
        · rw [List.mem_singleton.1 hpm]
          exact plain_some (by decide) (ident_plain (ident_goFieldName hc (hp.columns _ h4 _ h5).2))

theorem struct_describes {sc : Strcase} {s : Schema} {o : GormOption} (hc : CleanCase sc) (hp : PlainGorm o s) {t : Table}
    (ht : t ∈ s.tables) {models chosen : Models} (he : Embeds models (t.columns.map (·.name)) chosen) :
    GormDescribes sc o s models t (structDecl sc o s chosen t) := by
  refine ⟨rfl, chosen, he, rfl, ?_, ?_⟩
  · unfold structDecl
    dsimp only
    rw [List.take_left' (List.length_map _), List.forall₂_map_right_iff]
    apply List.forall₂_same.2
    intro c hc'
    have hc'' : c ∈ t.columns := (List.mem_filter.1 hc').1
    exact ⟨rfl, rfl, gormTags (hp.tables t ht).1.1 (fieldName_eq hc (hp.columns t ht c hc'').2).2⟩
  · unfold structDecl
    dsimp only
    rw [List.drop_left' (List.length_map _), List.forall₂_map_right_iff]
    apply List.forall₂_same.2
    intro x _
    exact ⟨rfl, rfl, rfl⟩

/-! ### Imports -/

theorem mem_fieldImports {t i : Str} {n : Bool} : i ∈ fieldImports t n ↔ (n = true ∧ i = "gopkg.in/guregu/null.v4"ₛ) ∨
    (lower t = "decimal"ₛ ∧ i = "github.com/shopspring/decimal"ₛ) ∨
    ((lower t ∈ ["datetime"ₛ, "date"ₛ, "time"ₛ] ∧ n = false) ∧ i = "time"ₛ) := by
  unfold fieldImports
  dsimp only
  rw [mem_slice]
  have key : ∀ (l : List Str) (s : StringSet), i ∈ (l.foldl StringSet.add s).keys ↔ i ∈ l ∨ i ∈ s.keys := by
    intro l
    induction l with
    | nil => intro s; simp
    | cons a l ih =>
      intro s
      rw [List.foldl_cons, ih, StringSet.mem_add, List.mem_cons]
      tauto
  rw [key]
  simp only [List.mem_append, mem_ite_nil, List.mem_singleton]
  show (_ ∨ i ∈ []) ↔ _
  simp only [List.not_mem_nil, or_false, or_assoc]

theorem mem_imports {gs : List GoStruct} {i : Str} : i ∈ imports gs ↔
    ∃ g ∈ gs, ("gorm.Model"ₛ ∈ g.embedded ∧ i = "github.com/jinzhu/gorm"ₛ) ∨ ∃ f ∈ g.fields, i ∈ f.imports := by
  unfold imports
  rw [mem_slice]
  have key0 : ∀ (l : List Str) (s : StringSet), i ∈ (l.foldl StringSet.add s).keys ↔ i ∈ l ∨ i ∈ s.keys := by
    intro l
    induction l with
    | nil => intro s; simp
    | cons a l ih =>
      intro s
      rw [List.foldl_cons, ih, StringSet.mem_add, List.mem_cons]
      tauto
  have hg : ∀ g : GoStruct, i ∈ (g.embedded.filterMap fun m => if m = "gorm.Model"ₛ then some "github.com/jinzhu/gorm"ₛ else none) ↔
      "gorm.Model"ₛ ∈ g.embedded ∧ i = "github.com/jinzhu/gorm"ₛ := by
    intro g
    rw [List.mem_filterMap]
    constructor
    · rintro ⟨m, hm, e⟩
      by_cases h : m = "gorm.Model"ₛ
      · rw [if_pos h] at e
        cases e
        exact ⟨h ▸ hm, rfl⟩
      · rw [if_neg h] at e
        cases e
    · rintro ⟨h, rfl⟩
      exact ⟨_, h, if_pos rfl⟩
  have key : ∀ (l : List GoStruct) (s : StringSet), i ∈ (l.foldl (fun s g =>
      ((g.embedded.filterMap fun m => if m = "gorm.Model"ₛ then some "github.com/jinzhu/gorm"ₛ else none).foldl StringSet.add s).addAll
        (g.fields.flatMap (·.imports))) s).keys ↔
      (∃ g ∈ l, ("gorm.Model"ₛ ∈ g.embedded ∧ i = "github.com/jinzhu/gorm"ₛ) ∨ ∃ f ∈ g.fields, i ∈ f.imports) ∨ i ∈ s.keys := by
    intro l
    induction l with
    | nil =>
      intro s
      exact ⟨.inr, fun h => h.resolve_left (by rintro ⟨g, hg, _⟩; cases hg)⟩
    | cons g l ih =>
      intro s
      rw [List.foldl_cons, ih, StringSet.mem_addAll, key0, hg, List.mem_flatMap, List.exists_mem_cons_iff]
      have : ∀ a b c d : Prop, (c ∨ b ∨ a ∨ d) ↔ ((a ∨ b) ∨ c) ∨ d := by intro a b c d; tauto
      exact this _ _ _ _
  rw [key]
  show (_ ∨ i ∈ []) ↔ _
  simp only [List.not_mem_nil, or_false]

theorem plain_import {gs : List GoStruct} (h : ∀ g ∈ gs, ∀ f ∈ g.fields, ∃ t n, f.imports = fieldImports t n) :
    ∀ i ∈ imports gs, PlainImport i := by
  intro i hi
  rw [mem_imports] at hi
  obtain ⟨g, hg, ⟨_, rfl⟩ | ⟨f, hf, hi⟩⟩ := hi
  · exact ⟨by decide, by decide, by decide⟩
  · obtain ⟨t, n, e⟩ := h g hg f hf
    rw [e, mem_fieldImports] at hi
    rcases hi with ⟨_, rfl⟩ | ⟨_, rfl⟩ | ⟨_, rfl⟩ <;> exact ⟨by decide, by decide, by decide⟩

/-! ### Files -/

theorem selected_eq (o : GormOption) (s : Schema) : selected o s = GormSelected o s := by
  unfold selected GormSelected
  congr 1
  funext t
  unfold passes
  cases o.tableFilter <;> rfl

/-- The structs of a file, as declarations. -/
def fileDecls (sc : Strcase) (ords : Nat → (Models → Models) × (Models → Models)) (models : Models) (o : GormOption) (s : Schema) :
    List (GoStructDecl × Str) :=
  (GormSelected o s).zipIdx.map fun p =>
    (structDecl sc o s ((ords p.2).2 (extractModels (ords p.2).1 (register models o.embed) p.1.columns)) p.1, p.1.name)

theorem selected_mem {o : GormOption} {s : Schema} {p : Table × Nat} (h : p ∈ (GormSelected o s).zipIdx) : p.1 ∈ s.tables :=
  (List.mem_filter.1 (by
    have := List.mem_map_of_mem (f := fun q : Table × Nat => id q.1) h
    rw [zipIdx_map_fst', List.map_id] at this
    exact this)).1

theorem read_generate {sc : Strcase} {s : Schema} {o : GormOption} (hc : CleanCase sc) (hp : PlainGorm o s)
    {ords : Nat → (Models → Models) × (Models → Models)} (ho : ∀ i l, ((ords i).1 l).Perm l ∧ ((ords i).2 l).Perm l)
    {models : Models} (hn : (models.map Prod.fst).Nodup) (hm : ∀ m ∈ models, ModelName m.1) :
    readGo (generate sc ords models o s).1 = some ⟨some (if o.package = [] then "main"ₛ else o.package),
      imports (structs sc ords models o s), (fileDecls sc ords models o s).map Prod.fst,
      (fileDecls sc ords models o s).map fun d => (d.1.name, d.2)⟩ := by
  have e : (generate sc ords models o s).1 = unlines (headerLines (if o.package = [] then "main"ₛ else o.package)
      (imports (structs sc ords models o s)) ++ (fileDecls sc ords models o s).flatMap fun d => structLines d.1 d.2) := by
    unfold generate
    dsimp only
    rw [unlines_append, header_lines]
    congr 1
    unfold structs fileDecls unlines
    rw [List.flatMap_map, List.flatMap_map, List.flatMap_assoc, selected_eq]
    apply List.flatMap_congr
    intro p hpm
    exact struct_lines hc hp (selected_mem hpm) _ _ _ fun l => (ho p.2 l).2
  rw [e]
  apply read_file
  · split
    · exact ⟨by decide, by decide⟩
    · rename_i h
      exact hp.package.resolve_left h
  · apply plain_import
    intro g hg f hf
    obtain ⟨p, _, rfl⟩ := List.mem_map.1 hg
    obtain ⟨c, _, rfl⟩ := List.mem_map.1 (List.mem_filter.1 hf).1
    exact ⟨_, _, rfl⟩
  · intro d hd
    obtain ⟨p, hpm, rfl⟩ := List.mem_map.1 hd
    have ht := selected_mem hpm
    have he := embeds_extract (fun l => (ho p.2 l).1) (fun l => (ho p.2 l).2) (register_nodup hn o.embed) p.1.columns
    exact plain_struct hc hp ht fun m hm' => register_names hm o.embed m (he.known m hm')

theorem file_describes {sc : Strcase} {s : Schema} {o : GormOption} (hc : CleanCase sc) (hp : PlainGorm o s)
    {ords : Nat → (Models → Models) × (Models → Models)} (ho : ∀ i l, ((ords i).1 l).Perm l ∧ ((ords i).2 l).Perm l)
    {models : Models} (hn : (models.map Prod.fst).Nodup) :
    List.Forall₂ (GormDescribes sc o s (register models o.embed)) (GormSelected o s) ((fileDecls sc ords models o s).map Prod.fst) := by
  unfold fileDecls
  rw [List.map_map, List.forall₂_map_right_iff]
  have : List.Forall₂ (fun t (p : Table × Nat) => t = p.1 ∧ p ∈ (GormSelected o s).zipIdx) (GormSelected o s) (GormSelected o s).zipIdx := by
    have e : GormSelected o s = (GormSelected o s).zipIdx.map fun p => id p.1 := by rw [zipIdx_map_fst', List.map_id]
    conv => arg 2; rw [e]
    rw [List.forall₂_map_left_iff]
    exact List.forall₂_same.2 fun p hpm => ⟨rfl, hpm⟩
  refine this.imp ?_
  rintro t p ⟨rfl, hpm⟩
  have he := embeds_extract (fun l => (ho p.2 l).1) (fun l => (ho p.2 l).2) (register_nodup hn o.embed) p.1.columns
  exact struct_describes hc hp (selected_mem hpm) he

end Octo.Gorm
