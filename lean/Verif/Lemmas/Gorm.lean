import Verif.Lemmas.ProtobufMessages
import Verif.Spec.Gorm

/-! Lemmas about the GORM generator: what it writes is read by the Go reader. -/

namespace Octo.Gorm
open Spec
open Protobuf (LineWord lineWord_ident lineWord_literal)

/-! ### Names -/

theorem hasSuffix_Id (s : Str) : hasSuffix s "Id"ₛ = true ↔ ∃ r, s = r ++ "Id"ₛ := by
  unfold hasSuffix
  rw [show ("Id"ₛ).reverse = ['d', 'I'] from rfl]
  constructor
  · intro h
    have e : s = s.reverse.reverse := (List.reverse_reverse s).symm
    rcases hr : s.reverse with _ | ⟨a, _ | ⟨b, r⟩⟩
    · rw [hr] at h; cases h
    · rw [hr] at h; simp [hasPrefix] at h
    · rw [hr] at h
      simp only [hasPrefix, Bool.and_true, Bool.and_eq_true, beq_iff_eq] at h
      obtain ⟨rfl, rfl⟩ := h
      refine ⟨r.reverse, ?_⟩
      rw [e, hr]
      simp
  · rintro ⟨r, rfl⟩
    simp [hasPrefix]

theorem idSuffix_eq (s : Str) : idSuffix s = goInitialism s := by
  unfold idSuffix goInitialism
  by_cases h : hasSuffix s "Id"ₛ = true
  · rw [if_pos h]
    obtain ⟨r, rfl⟩ := (hasSuffix_Id s).1 h
    simp
  · rw [if_neg h]
    split
    · rename_i d i r e
      rw [if_neg]
      rintro ⟨rfl, rfl⟩
      apply h
      rw [hasSuffix_Id]
      refine ⟨r.reverse, ?_⟩
      rw [← List.reverse_reverse s, e]
      simp
    · rfl

theorem goInitialism_alnum {s : Str} (h : Alnum s) : Alnum (goInitialism s) := by
  rw [← idSuffix_eq]
  unfold idSuffix
  split
  · refine ⟨by simp, ?_⟩
    rw [List.all_append, Bool.and_eq_true]
    refine ⟨?_, by decide⟩
    rw [List.all_eq_true]
    intro c hc
    exact List.all_eq_true.1 h.2 c (List.mem_of_mem_take hc)
  · exact h

theorem alnum_not {s : Str} (h : Alnum s) {c : Char} (hc : isAlnum c = false) : c ∉ s := by
  intro hm
  rw [List.all_eq_true.1 h.2 c hm] at hc
  cases hc

theorem fieldName_eq {sc : Strcase} (hc : CleanCase sc) {n : Str} (h : HasAlnum n) :
    (fieldName sc n).1 = goFieldName sc n ∧ ((fieldName sc n).2 = true ↔ NeedsColumn sc n) := by
  have ha : Alnum (goBaseName sc n) := goInitialism_alnum (hc n h).1
  have e : startsWithNumber (goBaseName sc n) = true ↔ StartsWithDigit (goBaseName sc n) := by
    unfold startsWithNumber StartsWithDigit
    have : (goBaseName sc n).contains '\n' = false := by
      rw [← Bool.not_eq_true, List.contains_iff_mem]
      exact alnum_not ha (by decide)
    rw [this, Bool.not_false, Bool.and_true]
  unfold fieldName goFieldName NeedsColumn
  dsimp only
  rw [idSuffix_eq]
  rw [show goInitialism (utilToUpperCamel sc n).1 = goBaseName sc n from rfl]
  by_cases hd : StartsWithDigit (goBaseName sc n)
  · rw [if_pos (e.2 hd), if_pos hd]
    exact ⟨rfl, by simp [hd]⟩
  · have hne : ¬startsWithNumber (goBaseName sc n) = true := fun h => hd (e.1 h)
    rw [if_neg hne, if_neg hd]
    refine ⟨rfl, ?_⟩
    show (!(utilToUpperCamel sc n).2) = true ↔ _
    unfold utilToUpperCamel
    dsimp only
    rw [Bool.not_eq_true', beq_eq_false_iff_ne, or_iff_left hd]
    exact ⟨fun h e => h e.symm, fun h e => h e.symm⟩

theorem ident_goFieldName {sc : Strcase} (hc : CleanCase sc) {n : Str} (h : HasAlnum n) : Ident (goFieldName sc n) := by
  have ha := alnum_ident (goInitialism_alnum (hc n h).1)
  unfold goFieldName
  split
  · refine ⟨by simp, ?_⟩
    rw [List.all_cons, Bool.and_eq_true]
    exact ⟨rfl, ha.2⟩
  · exact ha

theorem structName_eq (sc : Strcase) (o : GormOption) (t : Table) : structName sc o t = goStructName sc o t := by
  unfold structName goStructName
  split
  · dsimp only
    split
    · rfl
    · rename_i h
      rw [not_not.1 h]; rfl
  · rfl

theorem ident_goStructName {sc : Strcase} {o : GormOption} {s : Schema} (hc : CleanCase sc) (hp : PlainGorm o s) {t : Table}
    (ht : t ∈ s.tables) : Ident (goStructName sc o t) := by
  unfold goStructName
  split
  · have h1 := (hc _ (hp.tables t ht).2.1).1
    refine alnum_ident ⟨?_, ?_⟩
    · intro e; exact h1.1 (List.append_eq_nil_iff.1 e).2
    · rw [List.all_append, h1.2, hp.prefixes]; rfl
  · rename_i h
    exact (hp.tables t ht).2.2.resolve_left h

/-! ### Types -/

theorem fieldType_eq (c : Column) : fieldType c.type (!c.notNull) = goTypeOf c := by
  unfold fieldType goTypeOf
  by_cases h : lower c.type ∈ goTypes.map Prod.fst
  · have key : ∀ x ∈ goTypes.map Prod.fst, ∀ b : Bool,
        (if x ∈ ["char"ₛ, "varchar"ₛ, "text8"ₛ, "text16"ₛ, "text24"ₛ, "text32"ₛ] then
            if (!b) = true then "null.String"ₛ else "string"ₛ
          else if x = "boolean"ₛ then if (!b) = true then "null.Bool"ₛ else "bool"ₛ
          else if x = "int8"ₛ then if (!b) = true then "null.Int"ₛ else "int8"ₛ
          else if x = "int16"ₛ then if (!b) = true then "null.Int"ₛ else "int16"ₛ
          else if x ∈ ["int24"ₛ, "int32"ₛ] then if (!b) = true then "null.Int"ₛ else "int32"ₛ
          else if x = "int64"ₛ then if (!b) = true then "null.Int"ₛ else "int64"ₛ
          else if x = "decimal"ₛ then if (!b) = true then "decimal.NullDecimal"ₛ else "decimal.Decimal"ₛ
          else if x = "float"ₛ then if (!b) = true then "null.Float"ₛ else "float32"ₛ
          else if x = "double"ₛ then if (!b) = true then "null.Float"ₛ else "float64"ₛ
          else if x ∈ ["datetime"ₛ, "date"ₛ, "time"ₛ] then if (!b) = true then "null.Time"ₛ else "time.Time"ₛ
          else if x ∈ ["blob8"ₛ, "blob16"ₛ, "blob24"ₛ, "blob32"ₛ] then "[]byte"ₛ
          else if x = "bit"ₛ then if (!b) = true then "*byte"ₛ else "byte"ₛ
          else if x = "enum"ₛ then "string"ₛ
          else "interface{}"ₛ) = ((goTypes.lookup x).map fun p => if b = true then p.1 else p.2).getD "interface{}"ₛ := by
      decide +kernel
    exact key _ h _
  · have hn : ∀ x ∈ goTypes.map Prod.fst, lower c.type ≠ x := fun x hx e => h (e ▸ hx)
    have hl : goTypes.lookup (lower c.type) = none := by
      rw [List.lookup_eq_none_iff]
      intro p hp
      exact bne_iff_ne.2 (hn _ (List.mem_map_of_mem hp))
    rw [hl]
    dsimp only
    have hm : ∀ l : List Str, (∀ x ∈ l, x ∈ goTypes.map Prod.fst) → lower c.type ∉ l := fun l hl hm => h (hl _ hm)
    rw [if_neg (hm _ (by decide)), if_neg (hn _ (by decide)), if_neg (hn _ (by decide)), if_neg (hn _ (by decide)),
      if_neg (hm _ (by decide)), if_neg (hn _ (by decide)), if_neg (hn _ (by decide)), if_neg (hn _ (by decide)),
      if_neg (hn _ (by decide)), if_neg (hm _ (by decide)), if_neg (hm _ (by decide)), if_neg (hn _ (by decide)),
      if_neg (hn _ (by decide))]
    rfl

theorem lineWord_goType (c : Column) : LineWord (goTypeOf c) := by
  have key : ∀ x ∈ "interface{}"ₛ :: goTypes.flatMap (fun p => [p.2.1, p.2.2]),
      x.all (fun c => !sqlSep c && !isQuote c && c != '(' && c != ')') = true ∧ x ≠ [] := by decide +kernel
  have hm : goTypeOf c ∈ "interface{}"ₛ :: goTypes.flatMap (fun p => [p.2.1, p.2.2]) := by
    unfold goTypeOf
    cases h : goTypes.lookup (lower c.type) with
    | none => exact List.mem_cons_self
    | some p =>
      refine List.mem_cons_of_mem _ (List.mem_flatMap.2 ⟨_, Ojson.lookup_mem' h, ?_⟩)
      show (if c.notNull = true then p.1 else p.2) ∈ _
      split
      · exact List.mem_cons_self
      · exact List.mem_cons_of_mem _ List.mem_cons_self
  exact lineWord_literal _ (key _ hm).1 (key _ hm).2

/-! ### Embedded structs -/

theorem mapSet_new {m : Models} {k : Str} {v : List Str} (h : k ∉ m.map Prod.fst) : mapSet m k v = m ++ [(k, v)] := by
  induction m with
  | nil => rfl
  | cons p m ih =>
    rw [List.map_cons, List.mem_cons, not_or] at h
    obtain ⟨k', v'⟩ := p
    rw [mapSet, if_neg (fun e => h.1 e.symm), ih h.2]
    rfl

theorem mem_removeAll {vs : List Str} {s : StringSet} {k : Str} : k ∈ (s.removeAll vs).keys ↔ k ∈ s.keys ∧ k ∉ vs := by
  unfold StringSet.removeAll
  induction vs generalizing s with
  | nil => simp
  | cons v vs ih =>
    rw [List.foldl_cons, ih]
    unfold StringSet.remove
    simp only [List.mem_filter, List.mem_cons, not_or, decide_eq_true_eq]
    tauto

theorem containsAll_iff {s : StringSet} {vs : List Str} : s.containsAll vs = true ↔ ∀ v ∈ vs, v ∈ s.keys := by
  unfold StringSet.containsAll StringSet.contains
  simp

/-- The invariant of the loop over the models: the models of `seen` have been visited. -/
structure Extracting (names : List Str) (seen : Models) (st : StringSet × Models) : Prop where
  set : ∀ c, c ∈ st.1.keys ↔ c ∈ names ∧ ∀ m ∈ st.2, c ∉ m.2
  embeds : Embeds seen names st.2

theorem extract_step {names : List Str} {seen : Models} {st : StringSet × Models} (h : Extracting names seen st) {m : Str × List Str}
    (hm : m.1 ∉ seen.map Prod.fst) : Extracting names (seen ++ [m]) (extractStep st m) := by
  have hnew : m.1 ∉ st.2.map Prod.fst := by
    intro hmem
    obtain ⟨x, hx, e⟩ := List.mem_map.1 hmem
    exact hm (e ▸ List.mem_map_of_mem (h.embeds.known x hx))
  unfold extractStep
  split
  · rename_i hc
    rw [containsAll_iff] at hc
    rw [mapSet_new hnew]
    refine ⟨?_, ?_, ?_, ?_, ?_, ?_⟩
    · intro c
      dsimp only
      rw [mem_removeAll, h.set]
      simp only [List.mem_append, List.mem_singleton]
      constructor
      · rintro ⟨⟨h1, h2⟩, h3⟩
        refine ⟨h1, ?_⟩
        rintro x (hx | rfl)
        · exact h2 x hx
        · exact h3
      · rintro ⟨h1, h2⟩
        exact ⟨⟨h1, fun x hx => h2 x (.inl hx)⟩, h2 m (.inr rfl)⟩
    · intro x hx
      rcases List.mem_append.1 hx with hx | hx
      · exact List.mem_append_left _ (h.embeds.known x hx)
      · exact List.mem_append_right _ hx
    · intro x hx
      rcases List.mem_append.1 hx with hx | hx
      · exact h.embeds.columns x hx
      · rw [List.mem_singleton.1 hx]
        exact fun c hcm => ((h.set c).1 (hc c hcm)).1
    · rw [List.pairwise_append]
      refine ⟨h.embeds.apart, List.pairwise_singleton _ _, ?_⟩
      intro a ha b hb c hca hcb
      rw [List.mem_singleton.1 hb] at hcb
      exact ((h.set c).1 (hc c hcb)).2 a ha hca
    · rw [List.map_append, List.nodup_append]
      refine ⟨h.embeds.distinct, List.nodup_singleton _, ?_⟩
      intro a ha b hb e
      rw [show b = m.1 from List.mem_singleton.1 hb] at e
      exact hnew (e ▸ ha)
    · intro x hx hcols
      rcases List.mem_append.1 hx with hx | hx
      · rcases h.embeds.maximal x hx hcols with h1 | ⟨c, h1, m', h2, h3⟩
        · exact .inl (List.mem_append_left _ h1)
        · exact .inr ⟨c, h1, m', List.mem_append_left _ h2, h3⟩
      · exact .inl (List.mem_append_right _ hx)
  · rename_i hc
    refine ⟨h.set, ⟨?_, h.embeds.columns, h.embeds.apart, h.embeds.distinct, ?_⟩⟩
    · exact fun x hx => List.mem_append_left _ (h.embeds.known x hx)
    · intro x hx hcols
      rcases List.mem_append.1 hx with hx | hx
      · exact h.embeds.maximal x hx hcols
      · rw [List.mem_singleton.1 hx] at hcols ⊢
        right
        rw [containsAll_iff] at hc
        push Not at hc
        obtain ⟨c, hcm, hcs⟩ := hc
        rw [h.set] at hcs
        push Not at hcs
        obtain ⟨m', hm', h'⟩ := hcs (hcols c hcm)
        exact ⟨c, hcm, m', hm', h'⟩

theorem extract_foldl {names : List Str} : ∀ (l seen : Models) (st : StringSet × Models), Extracting names seen st →
    ((seen ++ l).map Prod.fst).Nodup → Extracting names (seen ++ l) (l.foldl extractStep st) := by
  intro l
  induction l with
  | nil => intro seen st h _; rw [List.append_nil]; exact h
  | cons m l ih =>
    intro seen st h hn
    rw [List.foldl_cons, show seen ++ m :: l = (seen ++ [m]) ++ l by simp]
    apply ih
    · apply extract_step h
      rw [List.map_append, List.nodup_append] at hn
      intro hmem
      exact hn.2.2 _ hmem _ (by simp) rfl
    · rw [show (seen ++ [m]) ++ l = seen ++ m :: l by simp]; exact hn

theorem embeds_perm {models models' : Models} {names : List Str} {chosen chosen' : Models} (h : Embeds models names chosen)
    (hm : models.Perm models') (hc : chosen.Perm chosen') : Embeds models' names chosen' where
  known m h' := hm.mem_iff.1 (h.known m (hc.mem_iff.2 h'))
  columns m h' := h.columns m (hc.mem_iff.2 h')
  apart := (hc.pairwise_iff fun h c hb ha => h c ha hb).1 h.apart
  distinct := (hc.map Prod.fst).nodup_iff.1 h.distinct
  maximal m h' hcols := by
    rcases h.maximal m (hm.mem_iff.2 h') hcols with h1 | ⟨c, h1, m', h2, h3⟩
    · exact .inl (hc.mem_iff.1 h1)
    · exact .inr ⟨c, h1, m', hc.mem_iff.1 h2, h3⟩

theorem embeds_extract {ord ord' : Models → Models} (ho : ∀ l, (ord l).Perm l) (ho' : ∀ l, (ord' l).Perm l) {models : Models}
    (hn : (models.map Prod.fst).Nodup) (columns : List Column) :
    Embeds models (columns.map (·.name)) (ord' (extractModels ord models columns)) := by
  have hn' : ((ord models).map Prod.fst).Nodup := ((ho models).map Prod.fst).nodup_iff.2 hn
  have h0 : Extracting (columns.map (·.name)) [] (StringSet.ofList (columns.map (·.name)), []) := by
    refine ⟨fun c => ?_, ?_, ?_, List.Pairwise.nil, List.nodup_nil, ?_⟩
    · show c ∈ (StringSet.ofList _).keys ↔ _
      rw [StringSet.mem_ofList]
      simp
    all_goals intro m hm; cases hm
  have := extract_foldl (ord models) [] _ h0 (by rw [List.nil_append]; exact hn')
  rw [List.nil_append] at this
  exact embeds_perm this.embeds (ho models) (ho' _).symm

theorem containsColumn_perm {a b : Models} (h : a.Perm b) (n : Str) : containsColumn a n = containsColumn b n := by
  unfold containsColumn
  rw [Bool.eq_iff_iff, List.any_eq_true, List.any_eq_true]
  constructor
  · rintro ⟨x, hx, h'⟩; exact ⟨x, h.mem_iff.1 hx, h'⟩
  · rintro ⟨x, hx, h'⟩; exact ⟨x, h.mem_iff.2 hx, h'⟩

theorem own_eq (chosen : Models) (t : Table) : t.columns.filter (fun c => !containsColumn chosen c.name) = ownColumns chosen t := by
  unfold ownColumns containsColumn
  congr 1
  funext c
  rw [Bool.eq_iff_iff]
  simp

end Octo.Gorm
