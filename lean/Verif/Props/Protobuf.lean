import Verif.Lemmas.ProtobufMessages
import Verif.Lemmas.Strcase

/-! Properties C55-C58 and C78-C82: the protobuf generator. -/

namespace Octo
open Spec Protobuf

/-- The schema of the examples: an order has two references to a user, and a creation time. -/
def protoSchema : Schema :=
  { tables := [
      { name := "user"ₛ, columns := [{ name := "id"ₛ, type := "int64"ₛ }, { name := "user_name"ₛ, type := "varchar"ₛ }] },
      { name := "t_order"ₛ, columns := [
          { name := "id"ₛ, type := "int64"ₛ },
          { name := "buyer"ₛ, type := "int64"ₛ, ref := some ⟨"user"ₛ, "id"ₛ, "n:1"ₛ⟩ },
          { name := "seller"ₛ, type := "int64"ₛ, ref := some ⟨"user"ₛ, "id"ₛ, "1:n"ₛ⟩ },
          { name := "created_at"ₛ, type := "datetime"ₛ }] }] }

/-- The options of the examples. -/
def protoOption : PbOption := ⟨none, none, ["t_"ₛ], "shop"ₛ, "example/shop"ₛ, 20, false⟩

theorem protoSchema_plain (o : PbOption) (h1 : o.removePrefixes = ["t_"ₛ]) (h2 : o.prefixMapper = none)
    (h3 : o.package = "shop"ₛ) (h4 : o.goPackage = "example/shop"ₛ) : PlainProto o protoSchema where
  tables := by rw [h1]; decide +kernel
  prefixes := by rw [h2]; intro m e; cases e
  columns := by decide +kernel
  package := by rw [h3]; right; exact ⟨by decide, by decide⟩
  goPackage := by rw [h4]; decide

/-! ### C55: numbers -/

/-- The numbers of the fields of a message. -/
def numbers (m : ProtoMessage) : List Nat := m.fields.map (·.tag)

theorem numbers_eq {sc : Strcase} {o : PbOption} {s : Schema} {t : Table} {m : PbMessage} (h : MessageFacts sc o s t m) :
    numbers (readMessage m) = (List.range t.columns.length).map (· + 1) ++
      (List.range (tableRefs t).length).map fun i => (relTagStart o t.columns.length (tableRefs t).length).toNat + i := by
  unfold numbers readMessage
  rw [List.map_append, List.map_map, List.map_map]
  congr 1
  · have := congrArg (List.map Int.toNat) h.tags
    rw [List.map_map, List.map_map] at this
    refine this.trans (List.map_congr_left fun i _ => ?_)
    exact Int.toNat_natCast _
  · have := congrArg (List.map Int.toNat) h.relTags
    rw [List.map_map, List.map_map] at this
    refine this.trans (List.map_congr_left fun i hi => ?_)
    have hp := relTagStart_gt o t.columns.length (tableRefs t).length (by rw [List.mem_range] at hi; omega)
    show (relTagStart o _ _ + (i : Int)).toNat = _
    omega

/-- What C55 asks for. -/
structure GoodNumbers (t : Table) (m : ProtoMessage) : Prop where
  count : (numbers m).length = t.columns.length + (tableRefs t).length
  columns : (numbers m).take t.columns.length = (List.range t.columns.length).map (· + 1)
  distinct : (numbers m).Nodup
  positive : ∀ n ∈ numbers m, 0 < n

theorem goodNumbers_of {sc : Strcase} {o : PbOption} {s : Schema} {t : Table} {m : PbMessage} (h : MessageFacts sc o s t m) :
    GoodNumbers t (readMessage m) := by
  have e := numbers_eq h
  have hlt : ∀ i, i ∈ List.range (tableRefs t).length →
      t.columns.length < (relTagStart o t.columns.length (tableRefs t).length).toNat := by
    intro i hi
    have hp := relTagStart_gt o t.columns.length (tableRefs t).length (by rw [List.mem_range] at hi; omega)
    omega
  refine ⟨?_, ?_, ?_, ?_⟩
  · rw [e]; simp
  · rw [e, List.take_append_of_le_length (by simp), List.take_of_length_le (by simp)]
  · rw [e, List.nodup_append]
    refine ⟨List.nodup_range.map fun a b h => by simpa using h, List.nodup_range.map fun a b h => by simpa using h, ?_⟩
    intro a ha b hb
    obtain ⟨i, hi, rfl⟩ := List.mem_map.1 ha
    obtain ⟨j, hj, rfl⟩ := List.mem_map.1 hb
    have := hlt j hj
    rw [List.mem_range] at hi
    omega
  · rw [e]
    intro n hn
    rcases List.mem_append.1 hn with hn | hn
    · obtain ⟨i, _, rfl⟩ := List.mem_map.1 hn; omega
    · obtain ⟨j, hj, rfl⟩ := List.mem_map.1 hn
      have := hlt j hj
      omega

/-- C55: in the generated file the fields of each message are numbered 1, 2, … in column order, and the numbers of the
relations collide neither with these nor with each other, for every library and every option for the relation tags. -/
theorem C55_numbers {sc : Strcase} {o : PbOption} {s : Schema} {text : Str} (hc : CleanCase sc) (hp : PlainProto o s)
    (h : generate sc o s = some text) :
    ∃ f, readProto text = some f ∧ List.Forall₂ GoodNumbers (Selected o s) f.messages := by
  obtain ⟨ms, hm, hr⟩ := read_proto hc hp h
  refine ⟨_, hr, ?_⟩
  show List.Forall₂ _ _ (ms.map readMessage)
  rw [List.forall₂_map_right_iff]
  exact hm.imp fun _ _ h => goodNumbers_of h

/-- C55 for the message itself, without conditions on the names. -/
theorem C55_message {sc : Strcase} {o : PbOption} {s : Schema} {t : Table} {m : PbMessage} (h : newPbMessage sc s o t = some m) :
    (m.fields.map (·.tag) ++ m.relations.map (·.tag)).Nodup ∧
    m.fields.map (·.tag) = (List.range t.columns.length).map (fun i => ((i + 1 : Nat) : Int)) ∧
    ∀ r ∈ m.relations, (t.columns.length : Int) < r.tag := by
  have hf := message_facts h
  have hr : ∀ r ∈ m.relations, (t.columns.length : Int) < r.tag := by
    intro r hr
    have : r.tag ∈ m.relations.map (·.tag) := List.mem_map_of_mem hr
    rw [hf.relTags] at this
    obtain ⟨i, hi, e⟩ := List.mem_map.1 this
    have := relTagStart_gt o t.columns.length (tableRefs t).length (by rw [List.mem_range] at hi; omega)
    omega
  refine ⟨?_, hf.tags, hr⟩
  rw [List.nodup_append]
  refine ⟨?_, ?_, ?_⟩
  · rw [hf.tags]
    exact List.nodup_range.map fun a b h => by first | omega | (dsimp only at h; omega)
  · rw [hf.relTags]
    exact List.nodup_range.map fun a b h => by first | omega | (dsimp only at h; omega)
  · intro a ha b hb
    rw [hf.tags] at ha
    obtain ⟨i, hi, rfl⟩ := List.mem_map.1 ha
    obtain ⟨r, hr', rfl⟩ := List.mem_map.1 hb
    have := hr r hr'
    rw [List.mem_range] at hi
    omega

example : CleanCase strcase ∧ PlainProto protoOption protoSchema ∧ ∃ text, generate strcase protoOption protoSchema = some text ∧
    (readProto text).map (fun f => f.messages.map numbers) = some [[1, 2], [1, 2, 3, 4, 20, 21]] :=
  ⟨strcase_clean, protoSchema_plain _ rfl rfl rfl rfl, _, rfl, by decide +kernel⟩

/-! ### C56: legal numbers -/

/-- C56 is violated by options: a start in the reserved range is used for every table with a reference. -/
theorem C56_violated_option {sc : Strcase} {o : PbOption} {s : Schema} {text : Str} (hc : CleanCase sc) (hp : PlainProto o s)
    (h : generate sc o s = some text) (hd : o.relationTagDecr = false) (hs : 19000 ≤ o.relationTagStart)
    (hs' : o.relationTagStart ≤ 19999) {t : Table} (ht : t ∈ Selected o s) (hr : tableRefs t ≠ [])
    (hn : t.columns.length < o.relationTagStart) :
    ∃ f, readProto text = some f ∧ ∃ m ∈ f.messages, ∃ n ∈ numbers m, ¬LegalTag n := by
  obtain ⟨ms, hm, hr'⟩ := read_proto hc hp h
  obtain ⟨m, hmm, hf⟩ := forall₂_mem_left hm t ht
  refine ⟨_, hr', readMessage m, List.mem_map_of_mem hmm, o.relationTagStart.toNat, ?_, ?_⟩
  · rw [numbers_eq hf]
    refine List.mem_append_right _ (List.mem_map.2 ⟨0, ?_, ?_⟩)
    · rw [List.mem_range]; exact List.length_pos_iff.2 hr
    · unfold relTagStart
      rw [hd, if_neg (by simp), if_neg (by omega)]
      rfl
  · unfold LegalTag; omega

/-- C56 is violated by large tables, with every option. -/
theorem C56_violated_columns {sc : Strcase} {o : PbOption} {s : Schema} {text : Str} (hc : CleanCase sc) (hp : PlainProto o s)
    (h : generate sc o s = some text) {t : Table} (ht : t ∈ Selected o s) (hn : 19000 ≤ t.columns.length) :
    ∃ f, readProto text = some f ∧ ∃ m ∈ f.messages, ∃ n ∈ numbers m, ¬LegalTag n := by
  obtain ⟨ms, hm, hr'⟩ := read_proto hc hp h
  obtain ⟨m, hmm, hf⟩ := forall₂_mem_left hm t ht
  refine ⟨_, hr', readMessage m, List.mem_map_of_mem hmm, 19000, ?_, by decide⟩
  rw [numbers_eq hf]
  exact List.mem_append_left _ (List.mem_map.2 ⟨18999, by rw [List.mem_range]; omega, rfl⟩)

/-- C56 for tables with fewer columns and references, and a start below the reserved range. -/
theorem C56_legal_partial {sc : Strcase} {o : PbOption} {s : Schema} {text : Str} (hc : CleanCase sc) (hp : PlainProto o s)
    (h : generate sc o s = some text)
    (hn : ∀ t ∈ Selected o s, t.columns.length + 2 * (tableRefs t).length < 19000 ∧
      o.relationTagStart + (tableRefs t).length ≤ 19000) :
    ∃ f, readProto text = some f ∧ ∀ m ∈ f.messages, ∀ n ∈ numbers m, LegalTag n := by
  obtain ⟨ms, hm, hr'⟩ := read_proto hc hp h
  refine ⟨_, hr', ?_⟩
  intro m hmm n hnm
  obtain ⟨x, hx, rfl⟩ := List.mem_map.1 hmm
  obtain ⟨t, ht, hf⟩ := forall₂_mem_right hm x hx
  have hpos := (goodNumbers_of hf).positive n hnm
  obtain ⟨h1, h2⟩ := hn t ht
  have : n < 19000 := by
    rw [numbers_eq hf] at hnm
    rcases List.mem_append.1 hnm with hi | hi
    · obtain ⟨i, hi', rfl⟩ := List.mem_map.1 hi
      rw [List.mem_range] at hi'; omega
    · obtain ⟨i, hi', rfl⟩ := List.mem_map.1 hi
      rw [List.mem_range] at hi'
      unfold relTagStart
      split
      · split <;> omega
      · split <;> omega
  unfold LegalTag; omega

example : (∀ t ∈ Selected protoOption protoSchema, t.columns.length + 2 * (tableRefs t).length < 19000 ∧
    protoOption.relationTagStart + (tableRefs t).length ≤ 19000) ∧
    ∃ text, generate strcase { protoOption with relationTagStart := 19500 } protoSchema = some text ∧
    (readProto text).map (fun f => f.messages.map numbers) = some [[1, 2], [1, 2, 3, 4, 19500, 19501]] :=
  ⟨by decide +kernel, _, rfl, by decide +kernel⟩

/-- The conditions of `C56_violated_columns` can be met: a table with as many columns as one likes. -/
example (n : Nat) : ∃ s, PlainProto protoOption s ∧ generate strcase protoOption s ≠ none ∧
    ∃ t ∈ Selected protoOption s, t.columns.length = n := by
  refine ⟨{ tables := [{ name := "a"ₛ, columns := List.replicate n { name := "b"ₛ, type := "int8"ₛ } }] }, ?_, ?_, _,
    List.mem_cons_self, List.length_replicate⟩
  · refine ⟨?_, ?_, ?_, .inr ⟨by decide, by decide⟩, by decide⟩
    · intro t ht
      rw [List.mem_singleton.1 ht]
      show HasAlnum (protoOption.removePrefixes.foldl trimPrefix "a"ₛ)
      decide
    · intro m e; cases e
    intro t ht c hc
    rw [List.mem_singleton.1 ht] at hc
    rw [List.eq_of_mem_replicate hc]
    decide
  · intro h
    unfold generate at h
    rw [Option.map_eq_none_iff, Ojson.mapM_none] at h
    obtain ⟨t, ht, h⟩ := h
    rw [selected_eq] at ht
    have ht := List.mem_singleton.1 (List.mem_filter.1 ht).1
    unfold newPbMessage at h
    rw [Option.map_eq_none_iff, Ojson.mapM_none] at h
    obtain ⟨r, hr, _⟩ := h
    obtain ⟨c, hc, e⟩ := List.mem_filterMap.1 hr
    rw [ht] at hc
    rw [List.eq_of_mem_replicate hc] at e
    cases e

/-! ### C57: types, names and imports -/

/-- C57: the generated file has the package and options, one message per selected table, in order, whose fields describe the
columns and references of the table with the documented types; the timestamp import is present exactly when a selected table
has a column of type `datetime`, and nothing else is imported. -/
theorem C57_types {sc : Strcase} {o : PbOption} {s : Schema} {text : Str} (hc : CleanCase sc) (hp : PlainProto o s)
    (h : generate sc o s = some text) :
    ∃ f, readProto text = some f ∧ List.Forall₂ (ProtoDescribes sc o s) (Selected o s) f.messages ∧
      f.packages = (if o.package = [] then [] else [o.package]) ∧
      f.options = (if o.goPackage = [] then [] else [("go_package"ₛ, o.goPackage)]) ∧
      ((∃ t ∈ Selected o s, ∃ c ∈ t.columns, lower c.type = "datetime"ₛ) → f.imports = ["google/protobuf/timestamp.proto"ₛ]) ∧
      ((¬∃ t ∈ Selected o s, ∃ c ∈ t.columns, lower c.type = "datetime"ₛ) → f.imports = []) := by
  obtain ⟨ms, hm, hr⟩ := read_proto hc hp h
  have himp : ∀ i, i ∈ allImports ms ↔ i = "google/protobuf/timestamp.proto"ₛ ∧
      ∃ t ∈ Selected o s, ∃ c ∈ t.columns, lower c.type = "datetime"ₛ := by
    intro i
    rw [mem_allImports]
    constructor
    · rintro ⟨m, hmm, hi⟩
      obtain ⟨t, ht, hf⟩ := forall₂_mem_right hm m hmm
      obtain ⟨hne, c, hc, rfl⟩ := (hf.imports i).1 hi
      rw [fieldType_snd] at hne ⊢
      by_cases e : lower c.type = "datetime"ₛ
      · rw [if_pos e]; exact ⟨rfl, t, ht, c, hc, e⟩
      · rw [if_neg e] at hne; exact absurd rfl hne
    · rintro ⟨rfl, t, ht, c, hc, e⟩
      obtain ⟨m, hmm, hf⟩ := forall₂_mem_left hm t ht
      refine ⟨m, hmm, (hf.imports _).2 ⟨by decide, c, hc, ?_⟩⟩
      rw [fieldType_snd, if_pos e]
  refine ⟨_, hr, ?_, rfl, rfl, ?_, ?_⟩
  · show List.Forall₂ _ _ (ms.map readMessage)
    rw [List.forall₂_map_right_iff]
    exact hm.imp fun _ _ h => describes_of h
  · intro hex
    show allImports ms = _
    have hnd := nodup_allImports ms
    have h1 : "google/protobuf/timestamp.proto"ₛ ∈ allImports ms := (himp _).2 ⟨rfl, hex⟩
    generalize allImports ms = l at *
    cases l with
    | nil => cases h1
    | cons a l =>
      have ha := ((himp a).1 List.mem_cons_self).1
      cases l with
      | nil => rw [ha]
      | cons b l =>
        have hb := ((himp b).1 (List.mem_cons_of_mem _ List.mem_cons_self)).1
        rw [ha, hb] at hnd
        exact absurd List.mem_cons_self (List.nodup_cons.1 hnd).1
  · intro hex
    show allImports ms = _
    rw [List.eq_nil_iff_forall_not_mem]
    intro i hi
    exact hex ((himp i).1 hi).2

example : ∃ text, generate strcase protoOption protoSchema = some text ∧ readProto text = some
    ⟨["shop"ₛ], [("go_package"ₛ, "example/shop"ₛ)], ["google/protobuf/timestamp.proto"ₛ],
     [⟨"User"ₛ, [⟨"int64"ₛ, "id"ₛ, 1⟩, ⟨"string"ₛ, "userName"ₛ, 2⟩]⟩,
      ⟨"Order"ₛ, [⟨"int64"ₛ, "id"ₛ, 1⟩, ⟨"int64"ₛ, "buyer"ₛ, 2⟩, ⟨"int64"ₛ, "seller"ₛ, 3⟩,
        ⟨"google.protobuf.Timestamp"ₛ, "createdAt"ₛ, 4⟩, ⟨"User"ₛ, "user"ₛ, 20⟩, ⟨"User"ₛ, "user"ₛ, 21⟩]⟩]⟩ :=
  ⟨_, rfl, by decide +kernel⟩

/-! ### C58: names -/

theorem target_unique {s : Schema} {n : Str} {t u : Table} (h : IsTarget s n t) (h' : IsTarget s n u) : t = u :=
  Option.some.inj ((target_of h).symm.trans (target_of h'))

theorem rel_names {sc : Strcase} {o : PbOption} {s : Schema} {t : Table} {m : ProtoMessage} (h : ProtoDescribes sc o s t m) :
    List.Forall₂ (fun (r : Reference) n => ∃ u, IsTarget s r.table u ∧ n = protoRelName sc o u) (tableRefs t)
      ((m.fields.map (·.name)).drop t.columns.length) := by
  rw [← List.map_drop, List.forall₂_map_right_iff]
  exact h.relations.imp fun r f ⟨u, h1, _, h3⟩ => ⟨u, h1, h3⟩

theorem col_names {sc : Strcase} {o : PbOption} {s : Schema} {t : Table} {m : ProtoMessage} (h : ProtoDescribes sc o s t m) :
    (m.fields.map (·.name)).take t.columns.length = t.columns.map (protoFieldName sc) := by
  rw [← List.map_take]
  have := h.columns
  generalize t.columns = l at *
  generalize m.fields.take l.length = r at *
  induction this with
  | nil => rfl
  | cons h1 _ ih => rw [List.map_cons, List.map_cons, h1.1, ih]

/-- C58 is violated: two columns that reference the same table give two fields of the same name, whatever the library does. -/
theorem C58_violated {sc : Strcase} {o : PbOption} {s : Schema} {text : Str} (hc : CleanCase sc) (hp : PlainProto o s)
    (h : generate sc o s = some text) {t : Table} (ht : t ∈ Selected o s)
    (hr : ¬((tableRefs t).map (·.table)).Nodup) :
    ∃ f, readProto text = some f ∧ ∃ m ∈ f.messages, ¬(m.fields.map (·.name)).Nodup := by
  obtain ⟨f, hf, hm, _⟩ := C57_types hc hp h
  obtain ⟨m, hmm, hd⟩ := forall₂_mem_left hm t ht
  refine ⟨f, hf, m, hmm, fun hnd => hr ?_⟩
  have hn := rel_names hd
  have hnd' := hnd.sublist (List.drop_sublist t.columns.length _)
  generalize tableRefs t = l at hn hr
  generalize List.drop t.columns.length (m.fields.map (·.name)) = ns at hn hnd'
  clear hr
  induction hn with
  | nil => exact List.nodup_nil
  | @cons r n l ns h1 h2 ih =>
    rw [List.nodup_cons] at hnd'
    rw [List.map_cons, List.nodup_cons]
    refine ⟨?_, ih hnd'.2⟩
    intro hmem
    obtain ⟨r', hr', e⟩ := List.mem_map.1 hmem
    obtain ⟨n', hn', u', hu', e'⟩ := forall₂_mem_left h2 r' hr'
    obtain ⟨u, hu, e1⟩ := h1
    rw [e] at hu'
    rw [target_unique hu hu'] at e1
    rw [e1, ← e'] at hnd'
    exact hnd'.1 hn'

/-- C58 for a table whose columns, and the tables it references, have different names in camel case. -/
theorem C58_names_partial {sc : Strcase} {o : PbOption} {s : Schema} {text : Str} (hc : CleanCase sc) (hp : PlainProto o s)
    (h : generate sc o s = some text)
    (hn : ∀ t ∈ Selected o s, (t.columns.map (protoFieldName sc)).Nodup ∧ ((tableRefs t).map (·.table)).Nodup ∧
      (∀ r ∈ tableRefs t, ∀ u, IsTarget s r.table u → protoRelName sc o u ∉ t.columns.map (protoFieldName sc)) ∧
      ∀ r ∈ tableRefs t, ∀ r' ∈ tableRefs t, ∀ u u', IsTarget s r.table u → IsTarget s r'.table u' →
        protoRelName sc o u = protoRelName sc o u' → u.name = u'.name) :
    ∃ f, readProto text = some f ∧ ∀ m ∈ f.messages, (m.fields.map (·.name)).Nodup := by
  obtain ⟨f, hf, hm, _⟩ := C57_types hc hp h
  refine ⟨f, hf, ?_⟩
  intro m hmm
  obtain ⟨t, ht, hd⟩ := forall₂_mem_right hm m hmm
  obtain ⟨h1, h2, h3, h4⟩ := hn t ht
  have hrel := rel_names hd
  rw [← List.take_append_drop t.columns.length (m.fields.map (·.name)), col_names hd, List.nodup_append]
  refine ⟨h1, ?_, ?_⟩
  · generalize tableRefs t = l at *
    generalize List.drop t.columns.length (m.fields.map (·.name)) = ns at *
    clear h3
    induction hrel with
    | nil => exact List.nodup_nil
    | @cons r n l ns g1 g2 ih =>
      rw [List.map_cons, List.nodup_cons] at h2
      rw [List.nodup_cons]
      refine ⟨?_, ih h2.2 fun r hr r' hr' => h4 r (List.mem_cons_of_mem _ hr) r' (List.mem_cons_of_mem _ hr')⟩
      intro hmem
      obtain ⟨r', hr', u', hu', e'⟩ := forall₂_mem_right g2 n hmem
      obtain ⟨u, hu, e⟩ := g1
      have := h4 r List.mem_cons_self r' (List.mem_cons_of_mem _ hr') u u' hu hu' (e.symm.trans e')
      have hname : ∀ {n : Str} {v : Table}, IsTarget s n v → v.name = n := fun ⟨_, _, _, h, _⟩ => h
      rw [hname hu, hname hu'] at this
      exact h2.1 (this ▸ List.mem_map_of_mem hr')
  · intro a ha b hb e
    obtain ⟨r, hr, u, hu, e'⟩ := forall₂_mem_right hrel b hb
    exact h3 r hr u hu (e' ▸ e ▸ ha)

example : ∃ t ∈ Selected protoOption protoSchema, ¬((tableRefs t).map (·.table)).Nodup := by decide +kernel

/-- A schema with one reference meets the condition of `C58_names_partial`. -/
example : let s : Schema := { tables := [
      { name := "user"ₛ, columns := [{ name := "id"ₛ, type := "int64"ₛ }] },
      { name := "order"ₛ, columns := [{ name := "id"ₛ, type := "int64"ₛ },
        { name := "user_id"ₛ, type := "int64"ₛ, ref := some ⟨"user"ₛ, "id"ₛ, "n:1"ₛ⟩ }] }] }
    ∀ t ∈ Selected protoOption s, (t.columns.map (protoFieldName strcase)).Nodup ∧ ((tableRefs t).map (·.table)).Nodup ∧
      (∀ r ∈ tableRefs t, ∀ u, IsTarget s r.table u → protoRelName strcase protoOption u ∉ t.columns.map (protoFieldName strcase)) ∧
      ∀ r ∈ tableRefs t, ∀ r' ∈ tableRefs t, ∀ u u', IsTarget s r.table u → IsTarget s r'.table u' →
        protoRelName strcase protoOption u = protoRelName strcase protoOption u' → u.name = u'.name := by
  intro s t ht
  have key : ∀ t ∈ Selected protoOption s, (t.columns.map (protoFieldName strcase)).Nodup ∧ ((tableRefs t).map (·.table)).Nodup ∧
      (∀ r ∈ tableRefs t, ∀ u, s.tableByName r.table = some u →
        protoRelName strcase protoOption u ∉ t.columns.map (protoFieldName strcase)) ∧
      ∀ r ∈ tableRefs t, ∀ r' ∈ tableRefs t, r.table = r'.table := by
    have : ∀ t ∈ Selected protoOption s, (t.columns.map (protoFieldName strcase)).Nodup ∧ ((tableRefs t).map (·.table)).Nodup ∧
      (∀ r ∈ tableRefs t, ∀ u ∈ (s.tableByName r.table).toList,
        protoRelName strcase protoOption u ∉ t.columns.map (protoFieldName strcase)) ∧
      ∀ r ∈ tableRefs t, ∀ r' ∈ tableRefs t, r.table = r'.table := by decide +kernel
    intro t ht
    obtain ⟨h1, h2, h3, h4⟩ := this t ht
    exact ⟨h1, h2, fun r hr u hu => h3 r hr u (by rw [hu]; exact List.mem_singleton_self _), h4⟩
  obtain ⟨h1, h2, h3, h4⟩ := key t ht
  refine ⟨h1, h2, fun r hr u hu => h3 r hr u (target_of hu), ?_⟩
  rintro r hr r' hr' u u' ⟨_, _, _, hu, _⟩ ⟨_, _, _, hu', _⟩ _
  rw [hu, hu', h4 r hr r' hr']

/-! ### C78: the flags for relation tags -/

/-- C78 is violated: with decreasing tags, the numbers of the relations of a table with two or more references increase, for
every start. -/
theorem C78_violated_decr {sc : Strcase} {o : PbOption} {s : Schema} {text : Str} (hc : CleanCase sc) (hp : PlainProto o s)
    (h : generate sc o s = some text) {t : Table} (ht : t ∈ Selected o s) (hr : 2 ≤ (tableRefs t).length) :
    ∃ f, readProto text = some f ∧ ∃ m ∈ f.messages, ∃ k,
      (numbers m).drop t.columns.length = (List.range (tableRefs t).length).map (k + ·) ∧
      (numbers m).drop t.columns.length ≠ (List.range (tableRefs t).length).map (k - ·) := by
  obtain ⟨ms, hm, hr'⟩ := read_proto hc hp h
  obtain ⟨m, hmm, hf⟩ := forall₂_mem_left hm t ht
  have e : (numbers (readMessage m)).drop t.columns.length = (List.range (tableRefs t).length).map
      ((relTagStart o t.columns.length (tableRefs t).length).toNat + ·) := by
    rw [numbers_eq hf, List.drop_append_of_le_length (by simp), List.drop_of_length_le (by simp), List.nil_append]
  refine ⟨_, hr', readMessage m, List.mem_map_of_mem hmm, _, e, ?_⟩
  rw [e]
  intro h
  have := (List.map_inj_left.1 h) 1 (by rw [List.mem_range]; omega)
  omega

/-- C78 is violated: the command line flags for relation tags have no effect. -/
theorem C78_violated_cli (prefixes groups removePrefixes package goPackage start start' : Str) (decr decr' : Bool) :
    cliOption prefixes groups removePrefixes package goPackage start decr =
      cliOption prefixes groups removePrefixes package goPackage start' decr' := rfl

example : ∃ text, generate strcase { protoOption with relationTagDecr := true } protoSchema = some text ∧
    (readProto text).map (fun f => f.messages.map numbers) = some [[1, 2], [1, 2, 3, 4, 20, 21]] ∧
    ∃ t ∈ Selected { protoOption with relationTagDecr := true } protoSchema, 2 ≤ (tableRefs t).length :=
  ⟨_, rfl, by decide +kernel, by decide +kernel⟩

/-! ### C79: types are defined -/

/-- Without a filter, a reference leads to a selected table. -/
theorem C79_defined_partial {sc : Strcase} {o : PbOption} {s : Schema} {text : Str} (hc : CleanCase sc) (hp : PlainProto o s)
    (h : generate sc o s = some text) (hf : o.tableFilter = none)
    (ht : ∀ t ∈ s.tables, ∀ c ∈ t.columns, lower c.type ∈ protoTypes.map Prod.fst) :
    ∃ f, readProto text = some f ∧ TypesDefined f := by
  obtain ⟨f, hr, hm, _, _, himp, _⟩ := C57_types hc hp h
  refine ⟨f, hr, ?_⟩
  intro m hmm x hx
  obtain ⟨t, htm, hd⟩ := forall₂_mem_right hm m hmm
  have hts : t ∈ s.tables := (List.mem_filter.1 htm).1
  rw [← List.take_append_drop t.columns.length m.fields] at hx
  rcases List.mem_append.1 hx with hx | hx
  · obtain ⟨c, hcm, _, e⟩ := forall₂_mem_right hd.columns x hx
    have hct := ht t hts c hcm
    unfold protoTypeOf at e
    cases el : protoTypes.lookup (lower c.type) with
    | none =>
      rw [List.lookup_eq_none_iff] at el
      obtain ⟨p, hp', e'⟩ := List.mem_map.1 hct
      exact absurd e'.symm (bne_iff_ne.1 (el p hp'))
    | some ty =>
      rw [el] at e
      have key : ∀ p ∈ protoTypes, p.2 ∈ protoScalars ∨ (p.2 = "google.protobuf.Timestamp"ₛ ∧ p.1 = "datetime"ₛ) := by
        decide +kernel
      rcases key _ (Ojson.lookup_mem' el) with hk | hk
      · left; rw [e]; exact hk
      · right; left
        refine ⟨e.trans hk.1, ?_⟩
        rw [himp ⟨t, htm, c, hcm, hk.2⟩]
        exact List.mem_singleton_self _
  · obtain ⟨r, _, u, hu, e, _⟩ := forall₂_mem_right hd.relations x hx
    right; right
    have hus : u ∈ Selected o s := by
      unfold Selected
      rw [hf]
      exact List.mem_filter.2 ⟨target_mem hu, rfl⟩
    obtain ⟨n, hn, hdn⟩ := forall₂_mem_left hm u hus
    exact ⟨n, hn, hdn.name.trans e.symm⟩

/-- C79 is violated by column types that the generator does not know: they are taken over, for example `date`. -/
theorem C79_violated_type {sc : Strcase} {o : PbOption} {s : Schema} {text : Str} (hc : CleanCase sc) (hp : PlainProto o s)
    (h : generate sc o s = some text) {t : Table} (ht : t ∈ Selected o s) {c : Column} (hcm : c ∈ t.columns)
    (hk : lower c.type ∉ protoTypes.map Prod.fst) (hs : c.type ∉ protoScalars)
    (hn : ∀ u ∈ Selected o s, protoName sc o u ≠ c.type) :
    ∃ f, readProto text = some f ∧ ¬TypesDefined f := by
  obtain ⟨f, hr, hm, _⟩ := C57_types hc hp h
  refine ⟨f, hr, ?_⟩
  intro hdef
  obtain ⟨m, hmm, hd⟩ := forall₂_mem_left hm t ht
  obtain ⟨x, hx, _, e⟩ := forall₂_mem_left hd.columns c hcm
  have el : protoTypes.lookup (lower c.type) = none := by
    rw [List.lookup_eq_none_iff]
    intro p hp
    exact bne_iff_ne.2 fun e => hk (e ▸ List.mem_map_of_mem hp)
  unfold protoTypeOf at e
  rw [el] at e
  have e : x.type = c.type := e
  rcases hdef m hmm x (List.mem_of_mem_take hx) with h | h | ⟨n, hn', e'⟩
  · exact hs (e ▸ h)
  · have hi := (hp.columns t (List.mem_filter.1 ht).1 c hcm).2
    rw [← e, h.1] at hi
    exact absurd hi (by decide)
  · obtain ⟨u, hu, hdu⟩ := forall₂_mem_right hm n hn'
    exact hn u hu (hdu.name.symm.trans (e'.trans e))

/-- C79 is violated by every filter that drops a referenced table. -/
theorem C79_violated_filter {sc : Strcase} {o : PbOption} {s : Schema} {text : Str} (hc : CleanCase sc) (hp : PlainProto o s)
    (h : generate sc o s = some text) {t : Table} (ht : t ∈ Selected o s) {r : Reference} (hrm : r ∈ tableRefs t)
    {u : Table} (hu : IsTarget s r.table u) (hs : protoName sc o u ∉ protoScalars)
    (hn : ∀ v ∈ Selected o s, protoName sc o v ≠ protoName sc o u) :
    ∃ f, readProto text = some f ∧ ¬TypesDefined f := by
  obtain ⟨f, hr, hm, _⟩ := C57_types hc hp h
  refine ⟨f, hr, ?_⟩
  intro hdef
  obtain ⟨m, hmm, hd⟩ := forall₂_mem_left hm t ht
  obtain ⟨x, hx, u', hu', e, _⟩ := forall₂_mem_left hd.relations r hrm
  rw [target_unique hu' hu] at e
  rcases hdef m hmm x (List.mem_of_mem_drop hx) with h | h | ⟨n, hn', e'⟩
  · exact hs (e ▸ h)
  · have hi := alnum_ident (alnum_protoName hc hp (target_mem hu))
    rw [← e, h.1] at hi
    exact absurd hi (by decide)
  · obtain ⟨v, hv, hdv⟩ := forall₂_mem_right hm n hn'
    exact hn v hv (hdv.name.symm.trans (e'.trans e))

example : protoOption.tableFilter = none ∧
    ∀ t ∈ protoSchema.tables, ∀ c ∈ t.columns, lower c.type ∈ protoTypes.map Prod.fst := by decide +kernel

/-- The documented column types that the generator does not know. -/
example : ∀ ty ∈ ["date"ₛ, "time"ₛ, "year"ₛ, "json"ₛ, "enum"ₛ, "set"ₛ, "blob8"ₛ, "blob16"ₛ, "blob24"ₛ, "blob32"ₛ, "binary"ₛ, "varbinary"ₛ, "bit"ₛ,
    "point"ₛ, "geometry"ₛ], ty ∈ colTypes ∧ lower ty ∉ protoTypes.map Prod.fst ∧ ty ∉ protoScalars ∧
    ∀ u ∈ Selected protoOption protoSchema, protoName strcase protoOption u ≠ ty := by decide +kernel

/-- A filter that keeps the orders only. -/
example : let o := { protoOption with tableFilter := some fun t => t.name == "t_order"ₛ }
    ∃ t ∈ Selected o protoSchema, ∃ r ∈ tableRefs t, ∃ u ∈ protoSchema.tableByName r.table, protoName strcase o u ∉ protoScalars ∧
      ∀ v ∈ Selected o protoSchema, protoName strcase o v ≠ protoName strcase o u := by
  refine ⟨protoSchema.tables[1], by decide +kernel, ⟨"user"ₛ, "id"ₛ, "n:1"ₛ⟩, by decide +kernel, protoSchema.tables[0], rfl, by decide +kernel,
    by decide +kernel⟩

/-! ### C80: crashes -/

/-- C80: the generator crashes exactly when a selected table has a reference to a table that does not exist. -/
theorem C80_panics_iff (sc : Strcase) (o : PbOption) (s : Schema) : generate sc o s = none ↔
    ∃ t ∈ Selected o s, ∃ r ∈ tableRefs t, ∀ u ∈ s.tables, u.name ≠ r.table := by
  have hrel : ∀ r : Reference, newRelation sc s o r = none ↔ ∀ u ∈ s.tables, u.name ≠ r.table := by
    intro r
    unfold newRelation Schema.tableByName
    rw [Option.map_eq_none_iff, List.find?_eq_none]
    simp
  have hmsg : ∀ t : Table, newPbMessage sc s o t = none ↔ ∃ r ∈ tableRefs t, ∀ u ∈ s.tables, u.name ≠ r.table := by
    intro t
    unfold newPbMessage
    rw [Option.map_eq_none_iff, Ojson.mapM_none]
    simp only [hrel]
    rfl
  unfold generate
  rw [Option.map_eq_none_iff, Ojson.mapM_none, selected_eq]
  simp only [hmsg]

/-- C80 is violated: such a schema crashes the generator. -/
theorem C80_violated (sc : Strcase) (o : PbOption) (s : Schema) {t : Table} (ht : t ∈ Selected o s) {r : Reference} (hr : r ∈ tableRefs t)
    (hu : ∀ u ∈ s.tables, u.name ≠ r.table) : generate sc o s = none :=
  (C80_panics_iff sc o s).2 ⟨t, ht, r, hr, hu⟩

example : ∃ s : Schema, ∃ t ∈ Selected protoOption s, ∃ r ∈ tableRefs t, ∀ u ∈ s.tables, u.name ≠ r.table :=
  ⟨{ tables := [{ name := "a"ₛ, columns := [{ name := "b"ₛ, type := "int8"ₛ, ref := some ⟨"x"ₛ, "y"ₛ, "n:1"ₛ⟩ }] }] }, by decide +kernel⟩

/-! ### C81: relationships -/

/-- A column with the relationship of its reference changed. -/
def withRelationship (f : Str → Str) (c : Column) : Column :=
  { c with ref := c.ref.map fun r => { r with relationship := f r.relationship } }

/-- A schema with the relationships of all references changed. -/
def changeRelationships (f : Str → Str) (s : Schema) : Schema :=
  { s with tables := s.tables.map fun t => { t with columns := t.columns.map (withRelationship f) } }

/-- A message without the marks of repeated relations. -/
def withoutRepeated (m : PbMessage) : PbMessage := { m with relations := m.relations.map fun r => { r with repeated := false } }

theorem text_withoutRepeated (o : PbOption) (ms : List PbMessage) : protoText o (ms.map withoutRepeated) = protoText o ms := by
  have h1 : ∀ m, messageText (withoutRepeated m) = messageText m := by
    intro m
    unfold messageText withoutRepeated
    dsimp only
    rw [List.flatMap_map]
  have h2 : ∀ (ms : List PbMessage) (s : StringSet), (ms.map withoutRepeated).foldl (fun s m => s.addAll m.imports) s =
      ms.foldl (fun s m => s.addAll m.imports) s := by
    intro ms s
    rw [List.foldl_map]
    rfl
  unfold protoText
  rw [h2, List.flatMap_map]
  simp only [h1]

theorem mapM_map_congr {α β γ δ ε : Type} {F : α → Option β} {F' : γ → Option δ} {g : α → γ} {h : β → ε} {h' : δ → ε}
    (e : ∀ a, (F' (g a)).map h' = (F a).map h) (l : List α) :
    ((l.map g).mapM F').map (List.map h') = (l.mapM F).map (List.map h) := by
  induction l with
  | nil => rfl
  | cons a l ih =>
    rw [List.map_cons, List.mapM_cons, List.mapM_cons]
    have ea := e a
    cases h1 : F' (g a) <;> cases h2 : F a <;> rw [h1, h2] at ea
    · rfl
    · cases ea
    · cases ea
    · have ea := Option.some.inj ea
      cases h3 : ((l.map g).mapM F' : Option _) <;> cases h4 : (l.mapM F : Option _) <;> rw [h3, h4] at ih
      · rfl
      · cases ih
      · cases ih
      · show some (_ :: _) = some (_ :: _)
        rw [ea, Option.some.inj ih]

theorem change_relation (f : Str → Str) (sc : Strcase) (o : PbOption) (s : Schema) (r : Reference) :
    (newRelation sc (changeRelationships f s) o { r with relationship := f r.relationship }).map (fun r => { r with repeated := false }) =
      (newRelation sc s o r).map (fun r => { r with repeated := false }) := by
  unfold newRelation
  have : (changeRelationships f s).tableByName r.table =
      (s.tableByName r.table).map fun t => { t with columns := t.columns.map (withRelationship f) } := by
    unfold Schema.tableByName changeRelationships
    dsimp only
    rw [List.find?_map]
    rfl
  dsimp only
  rw [this]
  cases s.tableByName r.table <;> rfl

theorem change_message (f : Str → Str) (sc : Strcase) (o : PbOption) (s : Schema) (t : Table) :
    (newPbMessage sc (changeRelationships f s) o { t with columns := t.columns.map (withRelationship f) }).map withoutRepeated =
      (newPbMessage sc s o t).map withoutRepeated := by
  unfold newPbMessage
  dsimp only
  have e : (t.columns.map (withRelationship f)).filterMap (·.ref) =
      (t.columns.filterMap (·.ref)).map fun r => { r with relationship := f r.relationship } := by
    rw [List.filterMap_map, List.map_filterMap]
    rfl
  have ef : (t.columns.map (withRelationship f)).zipIdx.map (fun p => newPbField sc (p.2 + 1) p.1) =
      t.columns.zipIdx.map fun p => newPbField sc (p.2 + 1) p.1 := by
    rw [List.zipIdx_map, List.map_map]
    rfl
  have hm := mapM_map_congr (change_relation f sc o s) (t.columns.filterMap (·.ref))
  rw [e, ef, List.length_map]
  cases h1 : ((((t.columns.filterMap (·.ref)).map fun r => { r with relationship := f r.relationship }).mapM
      (newRelation sc (changeRelationships f s) o) : Option _)) <;>
    cases h2 : ((t.columns.filterMap (·.ref)).mapM (newRelation sc s o) : Option _) <;> rw [h1, h2] at hm
  · rfl
  · cases hm
  · cases hm
  · rename_i a b
    have hm := Option.some.inj hm
    have hl : a.length = b.length := by simpa using congrArg List.length hm
    rw [Option.map_some, Option.map_some, Option.map_some, Option.map_some]
    unfold withoutRepeated
    dsimp only
    rw [hl]
    have hz : ∀ (l : List PbRelation) (k : Nat) (st : Int), (l.zipIdx k).map ((fun r : PbRelation => (⟨r.type, r.name, r.tag, false⟩ : PbRelation)) ∘
        fun p => ⟨p.1.type, p.1.name, st + (p.2 : Int), p.1.repeated⟩) =
        ((l.map fun r => (⟨r.type, r.name, r.tag, false⟩ : PbRelation)).zipIdx k).map fun p => ⟨p.1.type, p.1.name, st + (p.2 : Int), p.1.repeated⟩ := by
      intro l k st
      rw [List.zipIdx_map, List.map_map]
      rfl
    have hz1 := hz a 0 (relTagStart o t.columns.length b.length)
    have hz2 := hz b 0 (relTagStart o t.columns.length b.length)
    rw [hm] at hz1
    have := hz1.trans hz2.symm
    rw [← List.map_map, ← List.map_map] at this
    congr 2

/-- C81 is violated: the relationship of a reference has no effect on the generated text, so `1:n` gives the same field as `n:1`.
The filter may not look at relationships; the one of the command line looks at groups only. -/
theorem C81_violated (f : Str → Str) (sc : Strcase) (o : PbOption) (s : Schema)
    (ho : ∀ t, passes o.tableFilter { t with columns := t.columns.map (withRelationship f) } = passes o.tableFilter t) :
    generate sc o (changeRelationships f s) = generate sc o s := by
  unfold generate
  have es : selected o (changeRelationships f s) = (selected o s).map fun t => { t with columns := t.columns.map (withRelationship f) } := by
    unfold selected changeRelationships
    dsimp only
    rw [List.filter_map]
    congr 2
    funext t
    exact ho t
  have hm := mapM_map_congr (change_message f sc o s) (selected o s)
  have ht : protoText o = protoText o ∘ List.map withoutRepeated := by
    funext ms
    exact (text_withoutRepeated o ms).symm
  rw [es, ht, ← Option.map_map, ← Option.map_map, hm]

example : changeRelationships (fun _ => "1:n"ₛ) protoSchema ≠ protoSchema ∧
    ∀ t, passes protoOption.tableFilter { t with columns := t.columns.map (withRelationship fun _ => "1:n"ₛ) } =
      passes protoOption.tableFilter t := ⟨by decide +kernel, fun _ => rfl⟩

/-! ### C82: identifiers -/

/-- C82 is violated: the library takes over a digit at the start of a column name, and protobuf identifiers start with a letter. -/
theorem C82_violated {o : PbOption} {s : Schema} {text : Str} (hp : PlainProto o s)
    (h : generate strcase o s = some text) {t : Table} (ht : t ∈ Selected o s) {c : Column} (hcm : c ∈ t.columns)
    (hn : ¬StartsWithLetter c.name) :
    ∃ f, readProto text = some f ∧ ∃ m ∈ f.messages, ∃ x ∈ m.fields, ¬ProtoIdent x.name := by
  obtain ⟨f, hr, hm, _⟩ := C57_types strcase_clean hp h
  obtain ⟨m, hmm, hdm⟩ := forall₂_mem_left hm t ht
  obtain ⟨x, hx, e, _⟩ := forall₂_mem_left hdm.columns c hcm
  refine ⟨f, hr, m, hmm, x, List.mem_of_mem_take hx, ?_⟩
  rw [e]
  exact fun h => hn ((camelInitCase_ident false).1 h)

theorem protoIdent_name {o : PbOption} {s : Schema} (hpre : ∀ m, o.prefixMapper = some m → ∀ g, (m.getPrefix g).all isAlpha = true)
    (ht : ∀ t ∈ s.tables, StartsWithLetter (o.removePrefixes.foldl trimPrefix t.name)) {t : Table} (h : t ∈ s.tables) :
    ProtoIdent (protoName strcase o t) := by
  have h1 : ProtoIdent (strcase.toCamel (o.removePrefixes.foldl trimPrefix t.name)) := (camelInitCase_ident true).2 (ht t h)
  have key : ∀ p q : Str, p.all isAlpha = true → ProtoIdent q → ProtoIdent (p ++ q) := by
    intro p q hp hq
    cases p with
    | nil => exact hq
    | cons c p =>
      rw [List.all_cons, Bool.and_eq_true] at hp
      refine ⟨hp.1, ?_⟩
      rw [List.all_append, hq.2, Bool.and_true, List.all_eq_true]
      intro d hd
      have : isAlpha d = true := by
        rcases List.mem_cons.1 hd with rfl | hd
        · exact hp.1
        · exact List.all_eq_true.1 hp.2 d hd
      unfold isAlnum
      rw [this]; rfl
  unfold protoName
  apply key _ _ ?_ h1
  cases e : o.prefixMapper with
  | none => rfl
  | some m => exact hpre m e _

/-- C82 when the first letter or digit of each table and column name is a letter: all names are protobuf identifiers. -/
theorem C82_identifiers_partial {o : PbOption} {s : Schema} {text : Str} (hp : PlainProto o s)
    (h : generate strcase o s = some text) (hpre : ∀ m, o.prefixMapper = some m → ∀ g, (m.getPrefix g).all isAlpha = true)
    (ht : ∀ t ∈ s.tables, StartsWithLetter (o.removePrefixes.foldl trimPrefix t.name) ∧ ∀ c ∈ t.columns, StartsWithLetter c.name) :
    ∃ f, readProto text = some f ∧ ∀ m ∈ f.messages, ProtoIdent m.name ∧ ∀ x ∈ m.fields, ProtoIdent x.name := by
  obtain ⟨f, hr, hm, _⟩ := C57_types strcase_clean hp h
  refine ⟨f, hr, ?_⟩
  intro m hmm
  obtain ⟨t, htm, hd⟩ := forall₂_mem_right hm m hmm
  have hts : t ∈ s.tables := (List.mem_filter.1 htm).1
  have hname : ∀ u ∈ s.tables, ProtoIdent (protoName strcase o u) := fun u hu => protoIdent_name hpre (fun t h => (ht t h).1) hu
  refine ⟨hd.name ▸ hname t hts, ?_⟩
  intro x hx
  rw [← List.take_append_drop t.columns.length m.fields] at hx
  rcases List.mem_append.1 hx with hx | hx
  · obtain ⟨c, hcm, e, _⟩ := forall₂_mem_right hd.columns x hx
    rw [e]
    exact (camelInitCase_ident false).2 ((ht t hts).2 c hcm)
  · obtain ⟨r, _, u, hu, _, e⟩ := forall₂_mem_right hd.relations x hx
    rw [e]
    refine (camelInitCase_ident false).2 ?_
    have := hname u (target_mem hu)
    obtain ⟨h1, _⟩ := this
    cases ep : protoName strcase o u with
    | nil => rw [ep] at h1; cases h1
    | cons c r =>
      rw [ep] at h1
      have h1 : isAlpha c = true := h1
      unfold StartsWithLetter
      rw [List.find?_cons_of_pos (by unfold isAlnum; rw [h1]; rfl)]
      exact h1

example : ∀ t ∈ protoSchema.tables, StartsWithLetter (protoOption.removePrefixes.foldl trimPrefix t.name) ∧
    ∀ c ∈ t.columns, StartsWithLetter c.name := by decide +kernel

/-- A column name of the tests of /repo, format/protobuf/generator_test.go. -/
example : ¬StartsWithLetter "1_decimal"ₛ ∧ strcase.toLowerCamel "1_decimal"ₛ = "1Decimal"ₛ := by decide +kernel

end Octo
