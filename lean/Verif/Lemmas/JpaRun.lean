import Verif.Lemmas.JpaFile
import Verif.Lemmas.Octopus

/-! The runs of the JPA generator. -/

namespace Octo.Jpa
open Spec
open Protobuf (LineWord lineWord_ident lineWord_literal)

/-! ### Imports -/

theorem foldl_addAll {α : Type} (g : α → List Str) (l : List α) (s : StringSet) :
    l.foldl (fun s f => (g f).foldl StringSet.add s) s = s.addAll (l.flatMap g) := by
  unfold StringSet.addAll
  rw [List.foldl_flatMap]

theorem ktImport_java {type i : Str} (h : ktImport type = some i) : hasPrefix i "java."ₛ = true ∧ LineWord i := by
  unfold ktImport at h
  rcases ktType_mem type with h' | ⟨p, hp, h'⟩
  · rw [Option.map_eq_none_iff] at h'
    rw [h'] at h; cases h
  · rw [h'] at h
    have hx : p.2.2.2 = some i := h
    have : ∀ p ∈ ktTypes, p.2.2.2 = none ∨ hasPrefix (p.2.2.2.getD []) "java."ₛ = true ∧
        (p.2.2.2.getD []).all (fun c => !sqlSep c && !isQuote c && c != '(' && c != ')') = true ∧ p.2.2.2.getD [] ≠ [] := by
      decide +kernel
    have := this p hp
    rw [hx] at this
    rcases this with e | ⟨e1, e2, e3⟩
    · cases e
    · exact ⟨e1, lineWord_literal i e2 e3⟩

theorem mem_imports (sc : Strcase) (o : KtOption) (t : Table) (i : Str) : i ∈ imports (newClass sc o t) ↔
    (i = "org.hibernate.annotations.CreationTimestamp"ₛ ∧
      ∃ c ∈ t.columns, c.type = "datetime"ₛ ∧ sc.toLowerCamel c.name = "createdAt"ₛ) ∨
    (i = "org.hibernate.annotations.UpdateTimestamp"ₛ ∧
      ∃ c ∈ t.columns, c.type = "datetime"ₛ ∧ sc.toLowerCamel c.name = "updatedAt"ₛ) := by
  unfold imports
  rw [foldl_addAll, mem_slice, Octo.mem_addAll, List.mem_flatMap]
  rw [show (newClass sc o t).fields = t.columns.map (newField sc) from rfl]
  constructor
  · rintro (h | ⟨f, hf, h⟩)
    · cases h
    · obtain ⟨c, hc, rfl⟩ := List.mem_map.1 hf
      rcases List.mem_append.1 h with h | h
      · rcases List.mem_append.1 h with h | h
        · obtain ⟨h1, h2⟩ := List.mem_filter.1 h
          rw [(ktImport_java ((field_imports sc c i).1 h1)).1] at h2
          cases h2
        · obtain ⟨h1, h2⟩ := Gorm.mem_ite_nil.1 h
          exact .inl ⟨List.mem_singleton.1 h2, c, hc, h1⟩
      · obtain ⟨h1, h2⟩ := Gorm.mem_ite_nil.1 h
        exact .inr ⟨List.mem_singleton.1 h2, c, hc, h1⟩
  · rintro (⟨rfl, c, hc, h⟩ | ⟨rfl, c, hc, h⟩)
    · exact .inr ⟨_, List.mem_map_of_mem hc, List.mem_append_left _ (List.mem_append_right _
        (Gorm.mem_ite_nil.2 ⟨h, List.mem_singleton.2 rfl⟩))⟩
    · exact .inr ⟨_, List.mem_map_of_mem hc, List.mem_append_right _ (Gorm.mem_ite_nil.2 ⟨h, List.mem_singleton.2 rfl⟩)⟩

theorem mem_javaImports (sc : Strcase) (o : KtOption) (t : Table) (i : Str) : i ∈ javaImports (newClass sc o t) ↔
    i = "javax.persistence.*"ₛ ∨ (i = "java.io.Serializable"ₛ ∧ 2 ≤ (keyColumns t).length) ∨
      (∃ c ∈ t.columns, ktImport c.type = some i) := by
  unfold javaImports
  rw [foldl_addAll, mem_slice, Octo.mem_addAll, List.mem_flatMap, pkFields_eq, List.length_map]
  rw [show (newClass sc o t).fields = t.columns.map (newField sc) from rfl]
  have h1 : i ∈ (List.foldl StringSet.add StringSet.empty (["javax.persistence.*"ₛ] ++
      if (keyColumns t).length > 1 then ["java.io.Serializable"ₛ] else [])).keys ↔
      i = "javax.persistence.*"ₛ ∨ (i = "java.io.Serializable"ₛ ∧ 2 ≤ (keyColumns t).length) := by
    refine (Octo.mem_addAll (s := StringSet.empty)).trans ?_
    rw [List.mem_append, List.mem_singleton, Gorm.mem_ite_nil, List.mem_singleton]
    constructor
    · rintro (h | h | h)
      · cases h
      · exact .inl h
      · exact .inr ⟨h.2, h.1⟩
    · rintro (h | h)
      · exact .inr (.inl h)
      · exact .inr (.inr ⟨h.2, h.1⟩)
  rw [h1, or_assoc]
  refine or_congr_right (or_congr_right ?_)
  constructor
  · rintro ⟨f, hf, h⟩
    obtain ⟨c, hc, rfl⟩ := List.mem_map.1 hf
    exact ⟨c, hc, (field_imports sc c i).1 (List.mem_filter.1 h).1⟩
  · rintro ⟨c, hc, h⟩
    exact ⟨_, List.mem_map_of_mem hc, List.mem_filter.2 ⟨(field_imports sc c i).2 h, (ktImport_java h).1⟩⟩

theorem mem_allImports (sc : Strcase) (o : KtOption) (t : Table) (i : Str) :
    i ∈ imports (newClass sc o t) ++ javaImports (newClass sc o t) ↔ NeedsImport sc t i := by
  unfold NeedsImport
  rw [List.mem_append, mem_imports, mem_javaImports]
  have : ∀ a b c d e : Prop, (d ∨ e) ∨ a ∨ b ∨ c ↔ a ∨ b ∨ c ∨ d ∨ e := by tauto
  exact this _ _ _ _ _

theorem nodup_slice {s : StringSet} (h : s.keys.Nodup) : s.slice.Nodup := (slice_perm s).nodup_iff.2 h

theorem nodup_allImports (sc : Strcase) (o : KtOption) (t : Table) :
    (imports (newClass sc o t) ++ javaImports (newClass sc o t)).Nodup := by
  have h1 : (imports (newClass sc o t)).Nodup := by
    unfold imports
    rw [foldl_addAll]
    exact nodup_slice (StringSet.nodup_addAll List.nodup_nil)
  have h2 : (javaImports (newClass sc o t)).Nodup := by
    unfold javaImports
    rw [foldl_addAll]
    exact nodup_slice (StringSet.nodup_addAll (StringSet.nodup_addAll (s := StringSet.empty) List.nodup_nil))
  refine List.nodup_append.2 ⟨h1, h2, ?_⟩
  intro a ha b hb e
  subst e
  have hj : hasPrefix a "java"ₛ = true := by
    rcases (mem_javaImports sc o t a).1 hb with rfl | ⟨rfl, _⟩ | ⟨c, _, h⟩
    · decide
    · decide
    · have := (ktImport_java h).1
      rw [hasPrefix_iff] at this ⊢
      obtain ⟨r, hr⟩ := this
      exact ⟨"."ₛ ++ r, by rw [hr, ← List.append_assoc]; rfl⟩
  rcases (mem_imports sc o t a).1 ha with ⟨rfl, _⟩ | ⟨rfl, _⟩
  · exact absurd hj (by decide)
  · exact absurd hj (by decide)

theorem lineWord_imports {sc : Strcase} {t : Table} {i : Str} (h : NeedsImport sc t i) : LineWord i := by
  rcases h with rfl | ⟨rfl, _⟩ | ⟨c, _, h⟩ | ⟨rfl, _⟩ | ⟨rfl, _⟩
  · exact lineWord_literal _ (by decide) (by decide)
  · exact lineWord_literal _ (by decide) (by decide)
  · exact (ktImport_java h).2
  · exact lineWord_literal _ (by decide) (by decide)
  · exact lineWord_literal _ (by decide) (by decide)

/-! ### Entities -/

theorem ident_append {a b : Str} (ha : Ident a) (hb : b.all isIdent = true) : Ident (a ++ b) := by
  refine ⟨fun e => ha.1 (List.append_eq_nil_iff.1 e).1, ?_⟩
  rw [List.all_append, ha.2, hb]; rfl

theorem plain_columnProperty {sc : Strcase} {o : KtOption} {s : Schema} (hc : CleanCase sc) (hp : PlainJpa o s) {t : Table} (t' : Table)
    (ht : t ∈ s.tables) {c : Column} (hm : c ∈ t.columns) (hR : Related sc o s c) : PlainProperty (columnProperty sc o s t' c) where
  name := alnum_ident (hc _ (hp.columns t ht c hm).2.1).2
  type := lineWord_type c
  default := by
    intro x hx
    have hx : (if c.notNull then some ((ktDefault c.type).getD []) else none) = some x := hx
    rw [ite_some_iff] at hx
    obtain ⟨rfl, _⟩ := hx
    cases hd : ktDefault c.type with
    | none => exact ⟨.inl rfl, by simp⟩
    | some x => exact ⟨.inr (lineWord_default hd).1, (lineWord_default hd).2⟩
  annotations := plain_annoList hc hp (hp.columns t ht c hm).1 (hp.columns t ht c hm).2.2 hR

theorem plain_keyProperty {sc : Strcase} (hc : CleanCase sc) {c : Column} (h : HasAlnum c.name) : PlainProperty (keyProperty sc c) where
  name := alnum_ident (hc _ h).2
  type := lineWord_type c
  default := by
    intro x hx
    have hx : some (if c.notNull then (ktDefault c.type).getD [] else []) = some x := hx
    rw [Option.some.injEq] at hx
    subst hx
    split
    · cases hd : ktDefault c.type with
      | none => exact ⟨.inl rfl, by simp⟩
      | some x => exact ⟨.inr (lineWord_default hd).1, (lineWord_default hd).2⟩
    · exact ⟨.inl rfl, by simp⟩
  annotations := by intro a ha; cases ha

theorem mem_withNext {α : Type} {l : List α} {p : α × Bool} (h : p ∈ withNext l) : p.1 ∈ l := by
  have := List.mem_map_of_mem (f := Prod.fst) h
  rwa [withNext_fst] at this

theorem mem_withNext_of {α : Type} {l : List α} {a : α} (h : a ∈ l) : ∃ b, (a, b) ∈ withNext l := by
  rw [← withNext_fst l] at h
  obtain ⟨⟨x, b⟩, hm, rfl⟩ := List.mem_map.1 h
  exact ⟨b, hm⟩

theorem flatten_annotations : ∀ l : List Str, (∀ a ∈ l, a = [] ∨ ∃ n, Ident n ∧ a = '@' :: n) →
    (l.flatten = [] ∨ l.flatten.head? = some '@') ∧ '(' ∉ l.flatten ∧ '\n' ∉ l.flatten := by
  intro l
  induction l with
  | nil => intro _; exact ⟨.inl rfl, by simp, by simp⟩
  | cons a l ih =>
    intro h
    have hl := ih fun x hx => h x (List.mem_cons_of_mem _ hx)
    rw [List.flatten_cons]
    rcases h a List.mem_cons_self with rfl | ⟨n, hn, rfl⟩
    · exact hl
    · refine ⟨.inr rfl, ?_, ?_⟩
      · intro hm
        rcases List.mem_append.1 hm with hm | hm
        · rcases List.mem_cons.1 hm with e | hm
          · exact absurd e (by decide)
          · exact ident_not (by decide) hn hm
        · exact hl.2.1 hm
      · intro hm
        rcases List.mem_append.1 hm with hm | hm
        · rcases List.mem_cons.1 hm with e | hm
          · exact absurd e (by decide)
          · exact ident_not (by decide) hn hm
        · exact hl.2.2 hm

theorem plain_entity {sc : Strcase} {o : KtOption} {s : Schema} (hc : CleanCase sc) (hp : PlainJpa o s) {t : Table}
    (ht : t ∈ s.tables) (hR : ∀ c ∈ t.columns, Related sc o s c) : PlainParts (entityParts sc o s t) where
  package := hp.package
  imports i hi := lineWord_imports ((mem_allImports sc o t i).1 (List.mem_append_left _ hi))
  javaImports i hi := lineWord_imports ((mem_allImports sc o t i).1 (List.mem_append_right _ hi))
  annotations := by
    have := flatten_annotations _ (hp.annotations t.group)
    exact ⟨this.1.imp id fun h => ⟨h, this.2.1⟩, this.2.2⟩
  table := (hp.tables t ht).1
  unique := by
    intro x hx
    have hx : (if uniqueColumns t = [] then none else some _) = some x := hx
    by_cases h : uniqueColumns t = []
    · rw [if_pos h] at hx; cases hx
    · rw [if_neg h, Option.some.injEq] at hx
      subst hx
      have h1 := (hp.tables t ht).1
      have h2 := hp.suffix
      refine ⟨⟨?_, ?_, ?_⟩, ?_, ?_⟩
      · intro hm; rcases List.mem_append.1 hm with hm | hm; exacts [h1.1 hm, h2.1 hm]
      · intro hm; rcases List.mem_append.1 hm with hm | hm; exacts [h1.2.1 hm, h2.2.1 hm]
      · intro hm; rcases List.mem_append.1 hm with hm | hm; exacts [h1.2.2 hm, h2.2.2 hm]
      · intro n hn
        obtain ⟨c, hcm, rfl⟩ := List.mem_map.1 hn
        exact plainQuoted_ident (alnum_ident (hc _ (hp.columns t ht c (List.mem_filter.1 hcm).1).2.1).2)
      · simpa using h
  name := ident_ktClassName hc hp ht
  properties := by
    intro p hp'
    obtain ⟨q, hq, rfl⟩ := List.mem_map.1 hp'
    exact plain_columnProperty hc hp t ht (mem_withNext hq) (hR _ (mem_withNext hq))
  separated := separated_withNext _ _ (fun a => Bool.or_true _) t.columns
  super := by
    intro x hx
    have hx : (if Implements sc o t then some (superType o t) else none) = some x := hx
    rw [ite_some_iff] at hx
    obtain ⟨rfl, hi⟩ := hx
    unfold superType
    refine newline_append (newline_append (newline_append ?_ (by decide)) ?_) (by decide)
    · exact newline_ident (hp.idEntity.resolve_left hi.1)
    · cases (keyColumns t).head? with
      | none => exact List.not_mem_nil
      | some c => exact (lineWord_type c).1.newline
  key := by
    intro x hx
    have hx : (if 2 ≤ (keyColumns t).length then some _ else none) = some x := hx
    rw [ite_some_iff] at hx
    obtain ⟨rfl, _⟩ := hx
    refine ⟨ident_append (ident_ktClassName hc hp ht) (by decide), ?_, separated_withNext (keyProperty sc) Prod.snd (fun _ => rfl) _⟩
    intro p hp'
    obtain ⟨q, hq, rfl⟩ := List.mem_map.1 hp'
    exact plain_keyProperty hc (hp.columns t ht _ (List.mem_filter.1 (mem_withNext hq)).1).2.1

theorem ktName_pk {n : Str} (h : KtName n) : KtName (n ++ "PK"ₛ) := by
  refine ⟨ident_append h.1 (by decide), ?_, ?_⟩
  · intro hd
    apply h.2.1
    unfold StartsWithDigit at hd ⊢
    cases n with
    | nil => exact absurd rfl h.1.1
    | cons a n => exact hd
  · intro hk
    have : ∀ k ∈ ktKeywords, k.getLast? ≠ some 'K' := by decide
    apply this _ hk
    rw [show "PK"ₛ = ['P'] ++ ['K'] from rfl, ← List.append_assoc, List.getLast?_concat]

theorem getD_default (type : Str) : some ((ktDefault type).getD []) ≠ some [] ↔ ktDefault type ≠ none := by
  cases h : ktDefault type with
  | none => simp
  | some x =>
    have := ktDefault_ne type
    rw [h] at this
    simpa using this

theorem valid_iff (sc : Strcase) (o : KtOption) (s : Schema) (t : Table) : ValidParts (entityParts sc o s t) ↔ KtTable sc o t := by
  have h1 : (∀ p ∈ (entityParts sc o s t).properties, ValidProperty p.1) ↔ ∀ c ∈ t.columns, KtColumn sc c := by
    have hv : ∀ c, ValidProperty (columnProperty sc o s t c) ↔ KtColumn sc c := by
      intro c
      refine and_congr_right fun _ => ?_
      show (if c.notNull then some ((ktDefault c.type).getD []) else none) ≠ some [] ↔ _
      by_cases h : c.notNull = true
      · rw [if_pos h, getD_default]
        exact ⟨fun h _ => h, fun h' => h' h⟩
      · rw [if_neg h]
        exact ⟨fun _ h' => absurd h' h, fun _ e => by cases e⟩
    constructor
    · intro h c hc
      obtain ⟨b, hb⟩ := mem_withNext_of hc
      exact (hv c).1 (h _ (List.mem_map_of_mem hb))
    · intro h p hp
      obtain ⟨q, hq, rfl⟩ := List.mem_map.1 hp
      exact (hv _).2 (h _ (mem_withNext hq))
  unfold ValidParts KtTable
  rw [h1, and_assoc]
  refine and_congr_right fun hn => and_congr_right fun hcol => ?_
  show (∀ k ∈ (if 2 ≤ (keyColumns t).length then some _ else none), _) ↔ _
  have hv : ∀ c ∈ keyColumns t, ValidProperty (keyProperty sc c) ↔ c.notNull = true ∧ ktDefault c.type ≠ none := by
    intro c hc
    unfold ValidProperty
    show KtName (sc.toLowerCamel c.name) ∧ some (if c.notNull then (ktDefault c.type).getD [] else []) ≠ some [] ↔ _
    have hk := (hcol c (List.mem_filter.1 hc).1).1
    by_cases h : c.notNull = true
    · rw [if_pos h, getD_default]
      exact ⟨fun e => ⟨h, e.2⟩, fun e => ⟨hk, e.2⟩⟩
    · rw [if_neg h]
      exact ⟨fun e => absurd rfl e.2, fun e => absurd e.1 h⟩
  by_cases h : 2 ≤ (keyColumns t).length
  · rw [if_pos h]
    constructor
    · intro hk _ c hc
      obtain ⟨b, hb⟩ := mem_withNext_of hc
      exact (hv c hc).1 ((hk _ rfl).2 _ (List.mem_map_of_mem hb))
    · intro hk x hx
      cases hx
      refine ⟨ktName_pk hn, ?_⟩
      intro p hp
      obtain ⟨q, hq, rfl⟩ := List.mem_map.1 hp
      exact (hv _ (mem_withNext hq)).2 (hk h _ (mem_withNext hq))
  · rw [if_neg h]
    exact ⟨fun _ h' => absurd h' h, fun _ x hx => by cases hx⟩

theorem describes {sc : Strcase} {o : KtOption} {s : Schema} {t : Table} (hR : ∀ c ∈ t.columns, Related sc o s c) (hv : KtTable sc o t) :
    JpaDescribes sc o s t (partsFile (entityParts sc o s t)) where
  package := rfl
  repositories := rfl
  entity := by
    refine ⟨_, _, rfl, rfl, rfl, List.mem_append_right _ (List.mem_singleton.2 rfl), ?_, ?_⟩
    · have e : ((entityParts sc o s t).properties.map Prod.fst) = t.columns.map (columnProperty sc o s t) := by
        show ((withNext t.columns).map _).map Prod.fst = _
        rw [List.map_map]
        conv_rhs => rw [← withNext_fst t.columns]
        rw [List.map_map]
        rfl
      show List.Forall₂ _ t.columns ((entityParts sc o s t).properties.map Prod.fst)
      rw [e, List.forall₂_map_right_iff, List.forall₂_same]
      intro c hc
      refine ⟨rfl, rfl, ?_, propertyAnnotations (hR c hc)⟩
      show (if c.notNull then some ((ktDefault c.type).getD []) else none) = _
      by_cases h : c.notNull = true
      · rw [if_pos h, if_pos h]
        cases hd : ktDefault c.type with
        | none => exact absurd hd ((hv.2.1 c hc).2 h)
        | some x => rfl
      · rw [if_neg h, if_neg h]
    · by_cases h : 2 ≤ (keyColumns t).length
      · have hk : (entityParts sc o s t).key =
            some (ktClassName sc o t ++ "PK"ₛ, (withNext (keyColumns t)).map fun p => (keyProperty sc p.1, p.2)) := if_pos h
        rw [if_pos h]
        show (entityParts sc o s t).key.map Prod.fst = _ ∧ _
        rw [hk]
        refine ⟨rfl, _, rfl, rfl, rfl, rfl, ?_⟩
        show List.Forall₂ _ _ (((withNext (keyColumns t)).map fun p => (keyProperty sc p.1, p.2)).map Prod.fst)
        have e : ((withNext (keyColumns t)).map fun p => (keyProperty sc p.1, p.2)).map Prod.fst = (keyColumns t).map (keyProperty sc) := by
          rw [List.map_map]
          conv_rhs => rw [← withNext_fst (keyColumns t)]
          rw [List.map_map]
          rfl
        rw [e, List.forall₂_map_right_iff, List.forall₂_same]
        intro c hc
        refine ⟨rfl, rfl, ?_, rfl, rfl⟩
        obtain ⟨h1, h2⟩ := hv.2.2 h c hc
        show some (if c.notNull then (ktDefault c.type).getD [] else []) = _
        rw [if_pos h1]
        cases hd : ktDefault c.type with
        | none => exact absurd hd h2
        | some x => rfl
      · have hk : (entityParts sc o s t).key = none := if_neg h
        rw [if_neg h]
        show (entityParts sc o s t).key.map Prod.fst = _ ∧ keyClasses (entityParts sc o s t).key = _
        rw [hk]
        exact ⟨rfl, rfl⟩

end Octo.Jpa
