import Verif.Lemmas.Protobuf
import Verif.Lemmas.DiffTables

/-! Lemmas about the messages of the protobuf generator. -/

namespace Octo
open Spec Protobuf

/-! ### Messages -/

theorem messageName_eq (sc : Strcase) (o : PbOption) (t : Table) : messageName sc o t = protoName sc o t := by
  unfold messageName protoName
  cases o.prefixMapper with
  | none => rfl
  | some m =>
    show (if m.getPrefix t.group ≠ [] then _ else _) = m.getPrefix t.group ++ _
    split
    · rfl
    · rename_i h
      rw [not_not.1 h]; rfl

theorem selected_eq (o : PbOption) (s : Schema) : selected o s = Selected o s := by
  unfold selected Selected
  congr 1
  funext t
  unfold passes
  cases o.tableFilter <;> rfl

theorem isTarget_of {s : Schema} {n : Str} {t : Table} (h : s.tableByName n = some t) : IsTarget s n t := by
  unfold Schema.tableByName at h
  obtain ⟨h1, pre, post, h2, h3⟩ := List.find?_eq_some_iff_append.1 h
  refine ⟨pre, post, h2, by simpa using h1, ?_⟩
  intro u hu
  simpa using h3 u hu

theorem target_of {s : Schema} {n : Str} {t : Table} (h : IsTarget s n t) : s.tableByName n = some t := by
  obtain ⟨pre, post, h1, h2, h3⟩ := h
  unfold Schema.tableByName
  rw [List.find?_eq_some_iff_append]
  exact ⟨by simpa using h2, pre, post, h1, fun u hu => by simpa using h3 u hu⟩

theorem zipIdx_map_fst' {α β : Type} (l : List α) (f : α → β) : l.zipIdx.map (fun p => f p.1) = l.map f := by
  rw [← List.zipIdx_map_fst 0 l, List.map_map]
  simp only [List.zipIdx_map_fst]
  rfl

theorem zipIdx_map_snd' {α β : Type} (l : List α) (f : Nat → β) :
    l.zipIdx.map (fun p => f p.2) = (List.range l.length).map f := by
  rw [List.range_eq_range', ← List.zipIdx_map_snd 0 l, List.map_map]
  rfl

/-- What `newPbMessage` returns. -/
structure MessageFacts (sc : Strcase) (o : PbOption) (s : Schema) (t : Table) (m : PbMessage) : Prop where
  name : m.name = protoName sc o t
  types : m.fields.map (·.type) = t.columns.map fun c => (fieldType c.type).1
  names : m.fields.map (·.name) = t.columns.map (protoFieldName sc)
  tags : m.fields.map (·.tag) = (List.range t.columns.length).map fun i => ((i + 1 : Nat) : Int)
  relations : List.Forall₂ (fun (r : Reference) (f : PbRelation) => ∃ u, IsTarget s r.table u ∧ f.type = protoName sc o u ∧
    f.name = protoRelName sc o u) (tableRefs t) m.relations
  relTags : m.relations.map (·.tag) =
    (List.range (tableRefs t).length).map fun i : Nat => relTagStart o t.columns.length (tableRefs t).length + (i : Int)
  imports : ∀ i, i ∈ m.imports ↔ i ≠ [] ∧ ∃ c ∈ t.columns, i = (fieldType c.type).2

theorem message_facts {sc : Strcase} {o : PbOption} {s : Schema} {t : Table} {m : PbMessage}
    (h : newPbMessage sc s o t = some m) : MessageFacts sc o s t m := by
  unfold newPbMessage at h
  obtain ⟨rels, hr, rfl⟩ := Option.map_eq_some_iff.1 h
  have hf := Ojson.mapM_forall₂ hr
  have hlen : (tableRefs t).length = rels.length := hf.length_eq
  refine ⟨messageName_eq _ _ _, ?_, ?_, ?_, ?_, ?_, ?_⟩
  · dsimp only
    rw [List.map_map]
    exact zipIdx_map_fst' t.columns fun c => (fieldType c.type).1
  · dsimp only
    rw [List.map_map]
    exact zipIdx_map_fst' t.columns (protoFieldName sc)
  · dsimp only
    rw [List.map_map]
    exact zipIdx_map_snd' t.columns fun i => ((i + 1 : Nat) : Int)
  · dsimp only
    have key : ∀ (l : List Reference) (rs : List PbRelation) (k : Nat) (st : Int),
        List.Forall₂ (fun a b => newRelation sc s o a = some b) l rs →
        List.Forall₂ (fun (r : Reference) (f : PbRelation) => ∃ u, IsTarget s r.table u ∧ f.type = protoName sc o u ∧
          f.name = protoRelName sc o u) l ((rs.zipIdx k).map fun p => { p.1 with tag := st + p.2 }) := by
      intro l rs k st hl
      induction hl generalizing k with
      | nil => exact .nil
      | cons h1 _ ih =>
        rw [List.zipIdx_cons, List.map_cons]
        refine .cons ?_ (ih _)
        unfold newRelation at h1
        obtain ⟨u, hu, rfl⟩ := Option.map_eq_some_iff.1 h1
        refine ⟨u, isTarget_of hu, messageName_eq _ _ _, ?_⟩
        show sc.toLowerCamel (messageName sc o u) = _
        rw [messageName_eq]
        rfl
    exact key _ _ 0 _ hf
  · dsimp only
    rw [List.map_map, hlen]
    exact zipIdx_map_snd' rels fun i => relTagStart o t.columns.length rels.length + (i : Int)
  · intro i
    dsimp only
    rw [mem_slice]
    show i ∈ (StringSet.addAll StringSet.empty _).keys ↔ _
    rw [StringSet.mem_addAll, List.mem_filter, List.map_map]
    have e := zipIdx_map_fst' t.columns fun c => (fieldType c.type).2
    rw [show (fun f : PbField => f.imp) ∘ (fun p : Column × Nat => newPbField sc (p.2 + 1) p.1) =
      fun p : Column × Nat => (fieldType p.1.type).2 from rfl, e, List.mem_map]
    simp only [StringSet.empty, List.not_mem_nil, or_false, decide_eq_true_eq, ne_eq]
    constructor
    · rintro ⟨⟨c, hc, rfl⟩, h⟩; exact ⟨h, c, hc, rfl⟩
    · rintro ⟨h, c, hc, rfl⟩; exact ⟨⟨c, hc, rfl⟩, h⟩

/-! ### Types -/

theorem fieldType_fst (t : Str) : (fieldType t).1 = protoTypeOf t := by
  unfold fieldType protoTypeOf
  by_cases h : lower t ∈ protoTypes.map Prod.fst
  · have key : ∀ x ∈ protoTypes.map Prod.fst, ∀ t : Str,
        (if x ∈ ["char"ₛ, "varchar"ₛ, "text8"ₛ, "text16"ₛ, "text24"ₛ, "text32"ₛ] then ("string"ₛ, ([] : Str))
          else if x = "boolean"ₛ then ("bool"ₛ, []) else if x = "int64"ₛ then ("int64"ₛ, [])
          else if x ∈ ["int8"ₛ, "int16"ₛ, "int24"ₛ, "int32"ₛ] then ("int32"ₛ, [])
          else if x = "decimal"ₛ then ("double"ₛ, []) else if x = "float"ₛ then ("float"ₛ, [])
          else if x = "double"ₛ then ("double"ₛ, [])
          else if x = "datetime"ₛ then ("google.protobuf.Timestamp"ₛ, "google/protobuf/timestamp.proto"ₛ)
          else (t, [])).1 = (protoTypes.lookup x).getD t := by
      intro x hx t
      rw [show protoTypes.map Prod.fst = ["char"ₛ, "varchar"ₛ, "text8"ₛ, "text16"ₛ, "text24"ₛ, "text32"ₛ, "boolean"ₛ, "int8"ₛ,
        "int16"ₛ, "int24"ₛ, "int32"ₛ, "int64"ₛ, "decimal"ₛ, "float"ₛ, "double"ₛ, "datetime"ₛ] from rfl] at hx
      simp only [List.mem_cons, List.not_mem_nil, or_false] at hx
      rcases hx with rfl | rfl | rfl | rfl | rfl | rfl | rfl | rfl | rfl | rfl | rfl | rfl | rfl | rfl | rfl | rfl <;> rfl
    exact key _ h t
  · have hn : ∀ x ∈ protoTypes.map Prod.fst, lower t ≠ x := fun x hx e => h (e ▸ hx)
    have hl : protoTypes.lookup (lower t) = none := by
      rw [List.lookup_eq_none_iff]
      intro p hp
      exact bne_iff_ne.2 (hn _ (List.mem_map_of_mem hp))
    rw [hl]
    dsimp only
    have hm : ∀ l : List Str, (∀ x ∈ l, x ∈ protoTypes.map Prod.fst) → lower t ∉ l := fun l hl hm => h (hl _ hm)
    rw [if_neg (hm _ (by decide)), if_neg (hn _ (by decide)), if_neg (hn _ (by decide)), if_neg (hm _ (by decide)),
      if_neg (hn _ (by decide)), if_neg (hn _ (by decide)), if_neg (hn _ (by decide)), if_neg (hn _ (by decide))]
    rfl

theorem fieldType_snd (t : Str) : (fieldType t).2 =
    if lower t = "datetime"ₛ then "google/protobuf/timestamp.proto"ₛ else [] := by
  unfold fieldType
  dsimp only
  by_cases h : lower t = "datetime"ₛ
  · rw [if_pos h, h]; rfl
  · rw [if_neg h]
    repeat' split
    all_goals rfl

/-! ### Files -/

theorem lineWord_type {t : Str} (h : Ident t) : LineWord (protoTypeOf t) := by
  unfold protoTypeOf
  cases e : protoTypes.lookup (lower t) with
  | none => exact lineWord_ident h
  | some x =>
    have hm := Ojson.lookup_mem' e
    have : ∀ p ∈ protoTypes, p.2.all (fun c => !sqlSep c && !isQuote c && c != '(' && c != ')') = true ∧ p.2 ≠ [] := by
      decide +kernel
    exact lineWord_literal _ (this _ hm).1 (this _ hm).2

theorem alnum_protoName {sc : Strcase} {o : PbOption} {s : Schema} (hc : CleanCase sc) (hp : PlainProto o s) {t : Table}
    (ht : t ∈ s.tables) : Alnum (protoName sc o t) := by
  have h1 := (hc _ (hp.tables t ht)).1
  unfold protoName
  refine ⟨?_, ?_⟩
  · intro e; exact h1.1 (List.append_eq_nil_iff.1 e).2
  · rw [List.all_append, h1.2, Bool.and_true]
    cases e : o.prefixMapper with
    | none => rfl
    | some m => exact hp.prefixes m e _

theorem hasAlnum_of {s : Str} (h : Alnum s) : HasAlnum s := by
  cases s with
  | nil => exact absurd rfl h.1
  | cons c s =>
    have := h.2
    rw [List.all_cons, Bool.and_eq_true] at this
    unfold HasAlnum
    rw [List.any_cons, this.1, Bool.true_or]

theorem relTagStart_gt (o : PbOption) (n k : Nat) (hk : 0 < k) : (n : Int) < relTagStart o n k := by
  unfold relTagStart
  split
  · split <;> omega
  · split <;> omega

theorem nat_tags {sc : Strcase} {o : PbOption} {s : Schema} {t : Table} {m : PbMessage} (h : MessageFacts sc o s t m) :
    NatTags m := by
  constructor
  · intro f hf
    have : f.tag ∈ m.fields.map (·.tag) := List.mem_map_of_mem hf
    rw [h.tags] at this
    obtain ⟨i, _, e⟩ := List.mem_map.1 this
    omega
  · intro f hf
    have : f.tag ∈ m.relations.map (·.tag) := List.mem_map_of_mem hf
    rw [h.relTags] at this
    obtain ⟨i, hi, e⟩ := List.mem_map.1 this
    have := relTagStart_gt o t.columns.length (tableRefs t).length (by rw [List.mem_range] at hi; omega)
    omega

theorem forall₂_mem_right {α β : Type} {R : α → β → Prop} {l : List α} {r : List β} (h : List.Forall₂ R l r) :
    ∀ b ∈ r, ∃ a ∈ l, R a b := by
  induction h with
  | nil => intro b hb; cases hb
  | cons h _ ih =>
    intro b hb
    rcases List.mem_cons.1 hb with rfl | hb
    · exact ⟨_, List.mem_cons_self, h⟩
    · obtain ⟨a, ha, h⟩ := ih b hb
      exact ⟨a, List.mem_cons_of_mem _ ha, h⟩

theorem forall₂_mem_left {α β : Type} {R : α → β → Prop} {l : List α} {r : List β} (h : List.Forall₂ R l r) :
    ∀ a ∈ l, ∃ b ∈ r, R a b := by
  induction h with
  | nil => intro b hb; cases hb
  | cons h _ ih =>
    intro b hb
    rcases List.mem_cons.1 hb with rfl | hb
    · exact ⟨_, List.mem_cons_self, h⟩
    · obtain ⟨a, ha, h⟩ := ih b hb
      exact ⟨a, List.mem_cons_of_mem _ ha, h⟩

theorem forall₂_of_maps {α β γ : Type} {f : α → γ} {g : β → γ} {l : List α} {r : List β} (h : l.map f = r.map g) :
    List.Forall₂ (fun a b => f a = g b) l r := by
  rw [← List.forall₂_map_left_iff (R := fun x b => x = g b), h, List.forall₂_map_left_iff]
  exact List.forall₂_same.2 fun _ _ => rfl

theorem describes_of {sc : Strcase} {o : PbOption} {s : Schema} {t : Table} {m : PbMessage} (h : MessageFacts sc o s t m) :
    ProtoDescribes sc o s t (readMessage m) := by
  have hlen : m.fields.length = t.columns.length := by
    have := congrArg List.length h.names
    simpa using this
  refine ⟨h.name, ?_, ?_⟩
  · have e : (readMessage m).fields.take t.columns.length = m.fields.map fun f => ⟨f.type, f.name, f.tag.toNat⟩ := by
      show (m.fields.map _ ++ _).take _ = _
      rw [List.take_append_of_le_length (by simp [hlen]), List.take_of_length_le (by simp [hlen])]
    rw [e, List.forall₂_map_right_iff]
    have h1 := forall₂_of_maps h.names
    have h2 := forall₂_of_maps h.types
    have key : ∀ (l : List PbField) (r : List Column), List.Forall₂ (fun a b => a.name = protoFieldName sc b) l r →
        List.Forall₂ (fun a b => a.type = (fieldType b.type).1) l r →
        List.Forall₂ (fun (c : Column) (f : PbField) => f.name = protoFieldName sc c ∧ f.type = protoTypeOf c.type) r l := by
      intro l r h1 h2
      induction h1 with
      | nil => exact .nil
      | cons h _ ih =>
        cases h2 with
        | cons h2 h3 => exact .cons ⟨h, by rw [h2, fieldType_fst]⟩ (ih h3)
    exact key _ _ h1 h2
  · have e : (readMessage m).fields.drop t.columns.length = m.relations.map fun f => ⟨f.type, f.name, f.tag.toNat⟩ := by
      show (m.fields.map _ ++ _).drop _ = _
      rw [List.drop_append_of_le_length (by simp [hlen]), List.drop_of_length_le (by simp [hlen]), List.nil_append]
    rw [e, List.forall₂_map_right_iff]
    exact h.relations

theorem target_mem {s : Schema} {n : Str} {t : Table} (h : IsTarget s n t) : t ∈ s.tables := by
  obtain ⟨pre, post, e, _⟩ := h
  rw [e]; simp

theorem plain_message {sc : Strcase} {o : PbOption} {s : Schema} (hc : CleanCase sc) (hp : PlainProto o s) {t : Table}
    (ht : t ∈ s.tables) {m : PbMessage} (h : MessageFacts sc o s t m) : PlainMessage (readMessage m) := by
  refine ⟨?_, ?_⟩
  · show LineWord m.name
    rw [h.name]
    exact lineWord_ident (alnum_ident (alnum_protoName hc hp ht))
  · intro f hf
    rcases List.mem_append.1 (show f ∈ m.fields.map _ ++ m.relations.map _ from hf) with hf | hf
    · obtain ⟨x, hx, rfl⟩ := List.mem_map.1 hf
      constructor
      · have : x.type ∈ m.fields.map (·.type) := List.mem_map_of_mem hx
        rw [h.types] at this
        obtain ⟨c, hcm, e⟩ := List.mem_map.1 this
        show LineWord x.type
        rw [← e, fieldType_fst]
        exact lineWord_type (hp.columns t ht c hcm).2
      · have : x.name ∈ m.fields.map (·.name) := List.mem_map_of_mem hx
        rw [h.names] at this
        obtain ⟨c, hcm, e⟩ := List.mem_map.1 this
        show LineWord x.name
        rw [← e]
        exact lineWord_ident (alnum_ident (hc _ (hp.columns t ht c hcm).1).2)
    · obtain ⟨x, hx, rfl⟩ := List.mem_map.1 hf
      have key : ∀ (l : List Reference) (r : List PbRelation),
          List.Forall₂ (fun (r : Reference) (f : PbRelation) => ∃ u, IsTarget s r.table u ∧ f.type = protoName sc o u ∧
            f.name = protoRelName sc o u) l r → ∀ x ∈ r, ∃ u ∈ s.tables, x.type = protoName sc o u ∧ x.name = protoRelName sc o u := by
        intro l r hl
        induction hl with
        | nil => intro x hx; cases hx
        | cons h1 _ ih =>
          intro x hx
          rcases List.mem_cons.1 hx with rfl | hx
          · obtain ⟨u, hu, h2, h3⟩ := h1
            exact ⟨u, target_mem hu, h2, h3⟩
          · exact ih x hx
      obtain ⟨u, hu, h2, h3⟩ := key _ _ h.relations x hx
      have ha := alnum_protoName hc hp hu
      constructor
      · show LineWord x.type
        rw [h2]; exact lineWord_ident (alnum_ident ha)
      · show LineWord x.name
        rw [h3]; exact lineWord_ident (alnum_ident (hc _ (hasAlnum_of ha)).2)

theorem mem_allImports {ms : List PbMessage} {i : Str} : i ∈ allImports ms ↔ ∃ m ∈ ms, i ∈ m.imports := by
  unfold allImports
  rw [mem_slice]
  have key : ∀ (ms : List PbMessage) (s : StringSet), i ∈ (ms.foldl (fun s m => s.addAll m.imports) s).keys ↔
      i ∈ s.keys ∨ ∃ m ∈ ms, i ∈ m.imports := by
    intro ms
    induction ms with
    | nil => intro s; simp
    | cons m ms ih =>
      intro s
      rw [List.foldl_cons, ih, StringSet.mem_addAll]
      simp only [List.mem_cons, exists_eq_or_imp]
      tauto
  rw [key]
  simp [StringSet.empty]

theorem nodup_allImports (ms : List PbMessage) : (allImports ms).Nodup := by
  unfold allImports
  apply sortStrings_nodup
  have key : ∀ (ms : List PbMessage) (s : StringSet), s.keys.Nodup →
      (ms.foldl (fun s m => s.addAll m.imports) s).keys.Nodup := by
    intro ms
    induction ms with
    | nil => intro s h; exact h
    | cons m ms ih => intro s h; exact ih _ (StringSet.nodup_addAll h)
  exact key ms _ List.nodup_nil

/-- A generated file, as read: the messages of the selected tables. -/
theorem read_proto {sc : Strcase} {o : PbOption} {s : Schema} {text : Str} (hc : CleanCase sc) (hp : PlainProto o s)
    (h : generate sc o s = some text) : ∃ ms, List.Forall₂ (MessageFacts sc o s) (Selected o s) ms ∧
      readProto text = some (readFile o ms) := by
  unfold generate at h
  obtain ⟨ms, hm, rfl⟩ := Option.map_eq_some_iff.1 h
  rw [selected_eq] at hm
  have hf := (Ojson.mapM_forall₂ hm).imp fun _ _ h => message_facts h
  have hsel : ∀ t ∈ Selected o s, t ∈ s.tables := fun t ht => (List.mem_filter.1 ht).1
  have hall : ∀ m ∈ ms, ∃ t ∈ s.tables, MessageFacts sc o s t m := by
    intro m hmm
    obtain ⟨t, ht, h⟩ := forall₂_mem_right hf m hmm
    exact ⟨t, hsel t ht, h⟩
  refine ⟨ms, hf, read_protoText hp.package hp.goPackage ?_ ?_ ?_⟩
  · intro i hi
    obtain ⟨m, hmm, hi⟩ := mem_allImports.1 hi
    obtain ⟨t, _, hf⟩ := hall m hmm
    obtain ⟨hne, c, _, rfl⟩ := (hf.imports i).1 hi
    rw [fieldType_snd] at hne ⊢
    split at hne
    · rename_i e
      rw [if_pos e]; decide
    · exact absurd rfl hne
  · intro m hmm
    obtain ⟨t, _, hf⟩ := hall m hmm
    exact nat_tags hf
  · intro m hmm
    obtain ⟨t, ht, hf⟩ := hall m hmm
    exact plain_message hc hp ht hf

end Octo
