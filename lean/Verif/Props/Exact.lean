import Verif.Props.Octopus
import Verif.Props.Util
import Verif.Props.Protobuf
import Verif.Props.Gorm
import Verif.Lemmas.TypeText

/-! Properties that hold only under conditions: theorems that say exactly when they hold. -/

namespace Octo
open Spec

/-! ### C05: loaded schemas -/

/-- A column that is not accepted is still not acceptable after validation. -/
theorem validate_invalid {c : Column} (h : ¬ValidColumn c) : ¬ValidColumn (Column.validate true c.normalizeType).1 := by
  obtain ⟨e, he⟩ := (validate_normalizeType c).2 h
  have hk : (Column.validate true c.normalizeType).1.name = c.name ∧
      (Column.validate true c.normalizeType).1.type = canon c.type ∧
      (Column.validate true c.normalizeType).1.values = c.values := by
    have hT := normalizeType_type c
    have key : ∀ d : Column, (Column.validate true d).1.name = d.name ∧ (Column.validate true d).1.type = d.type ∧
        (Column.validate true d).1.values = d.values := by
      intro d
      unfold Column.validate
      split_ifs <;> first | exact ⟨rfl, rfl, rfl⟩ | (dsimp only; split_ifs <;> exact ⟨rfl, rfl, rfl⟩)
    obtain ⟨h1, h2, h3⟩ := key c.normalizeType
    exact ⟨h1, h2.trans hT, h3⟩
  obtain ⟨h1, h2, h3⟩ := hk
  intro hv
  refine h ⟨h1 ▸ hv.named, ?_, ?_, ?_⟩
  · have := hv.supported
    rwa [h2, canon_canon] at this
  · intro hs
    have := hv.setValues (by rw [h2, canon_canon]; exact hs)
    rwa [h3] at this
  · intro hs
    have := hv.enumValues (by rw [h2, canon_canon]; exact hs)
    rwa [h3] at this

theorem normCols_invalid {cs : List Column} (h : ¬∀ c ∈ cs, ValidColumn c) : ¬∀ c ∈ (normCols cs).1, ValidColumn c := by
  induction cs with
  | nil => exact absurd (fun _ h => nomatch h) h
  | cons c cs ih =>
    by_cases hc : ValidColumn c
    · have h2 : ¬∀ d ∈ cs, ValidColumn d := fun h' => h fun d hd => by
        rcases List.mem_cons.1 hd with rfl | hd
        · exact hc
        · exact h' d hd
      rw [normCols, (validate_normalizeType c).1 hc]
      exact fun h' => ih h2 fun d hd => h' d (List.mem_cons_of_mem _ hd)
    · obtain ⟨e, he⟩ := (validate_normalizeType c).2 hc
      have : Column.validate true c.normalizeType = ((Column.validate true c.normalizeType).1, some e) := by rw [← he]
      rw [normCols, this]
      exact fun h' => validate_invalid hc (h' _ List.mem_cons_self)

theorem normTables_invalid {ts : List Table} (h : ¬∀ t ∈ ts, ValidTable t) : ¬∀ t ∈ (normTables ts).1, ValidTable t := by
  induction ts with
  | nil => exact absurd (fun _ h => nomatch h) h
  | cons t ts ih =>
    by_cases ht : ValidTable t
    · have h2 : ¬∀ u ∈ ts, ValidTable u := fun h' => h fun d hd => by
        rcases List.mem_cons.1 hd with rfl | hd
        · exact ht
        · exact h' d hd
      rw [normTables, normCols_ok ht]
      exact fun h' => ih h2 fun d hd => h' d (List.mem_cons_of_mem _ hd)
    · have hi := normCols_invalid ht
      obtain ⟨e, he⟩ := normCols_err (cs := t.columns) ht
      have : normCols t.columns = ((normCols t.columns).1, some e) := by rw [← he]
      rw [normTables, this]
      exact fun h' => hi (h' _ List.mem_cons_self)

/-- C05, exactly: what is loaded is validated if and only if every column of the file was acceptable. -/
theorem C05_exact (sorter : List Table → List Table) (hs : SortSpec sorter) (s r : Schema)
    (h : loadSchema sorter true (some s) = some r) :
    (∀ t ∈ r.tables, ∀ c ∈ t.columns, ValidColumn c ∧ c.type ∈ supportedTypes) ↔
    ∀ t ∈ s.tables, ∀ c ∈ t.columns, ValidColumn c := by
  refine ⟨fun hr => ?_, fun hv => C05_load_partial sorter hs s r hv h⟩
  by_contra hn
  have h1 : ¬∀ t ∈ sorter s.tables, ValidTable t := fun h' => hn fun t ht => h' t ((hs _).1.mem_iff.2 ht)
  refine normTables_invalid h1 fun t ht c hc => ?_
  have e : r = (s.normalize sorter).1 := (Option.some.inj h).symm
  refine (hr t ?_ c hc).1
  rw [e]
  exact ht

example : (loadSchema tableSort true (some exBad)).isSome = true ∧ ¬∀ t ∈ exBad.tables, ∀ c ∈ t.columns, ValidColumn c := by
  refine ⟨rfl, fun h => ?_⟩
  have := (C04_accepts_iff tableSort tableSort_spec exBad).2 h
  revert this
  decide +kernel

/-! ### C14: type texts -/

/-- C14, exactly: a written type with size is read back if and only if its name consists of letters; without size, if and only if
there is no scale either and the name does not contain a size itself. -/
theorem C14_exact (c : Column) :
    parseType c.format = (c.type, c.size, c.scale) ↔
      if c.size = 0 then c.scale = 0 ∧ ¬SizedText c.type else c.type ≠ [] ∧ ∀ x ∈ c.type, isAlpha x = true := by
  by_cases hs : c.size = 0
  · rw [if_pos hs]
    have : c.format = c.type := by simp [Column.format, hs]
    rw [this, parseType, hs, ← typeMatch_none_iff]
    cases hm : typeMatch c.type with
    | none =>
      constructor
      · intro e
        exact ⟨(congrArg (fun p => p.2.2) e).symm, rfl⟩
      · intro e
        rw [e.1]
    | some m =>
      obtain ⟨n, d1, d2⟩ := m
      constructor
      · intro e
        have e : n = c.type := congrArg (fun p : Str × UInt16 × UInt16 => p.1) e
        have := (typeMatch_letters hm).2.2
        rw [e] at this
        omega
      · intro e; cases e.2
  · rw [if_neg hs]
    refine ⟨fun e => ?_, fun ⟨h1, h2⟩ => C14_round_trip_partial c h2 h1 (fun h0 => absurd h0 hs)⟩
    rw [parseType] at e
    cases hm : typeMatch c.format with
    | none => rw [hm] at e; exact absurd (congrArg (fun p => p.2.1) e).symm hs
    | some m =>
      obtain ⟨n, d1, d2⟩ := m
      rw [hm] at e
      have e : n = c.type := congrArg (fun p : Str × UInt16 × UInt16 => p.1) e
      rw [← e]
      exact ⟨(typeMatch_letters hm).1, (typeMatch_letters hm).2.1⟩

example : parseType ({ name := "a"ₛ, type := "int8"ₛ, size := 3 } : Column).format ≠ ("int8"ₛ, 3, 0) :=
  fun h => absurd ((C14_exact { name := "a"ₛ, type := "int8"ₛ, size := 3 }).1 h) (by decide)

example : parseType ({ name := "a"ₛ, type := "enum('x')"ₛ } : Column).format = ("enum('x')"ₛ, 0, 0) :=
  (C14_exact { name := "a"ₛ, type := "enum('x')"ₛ }).2 (by decide)

example : parseType ({ name := "a"ₛ, type := "char(3)"ₛ } : Column).format ≠ ("char(3)"ₛ, 0, 0) :=
  fun h => absurd ((C14_exact { name := "a"ₛ, type := "char(3)"ₛ }).1 h) (by decide)

/-! ### C56, C58, C79 and C82: protocol buffers -/

open Protobuf in
/-- C56, exactly, when relation tags count up: with `n` columns and `r` references, all numbers of the message are legal if and
only if `n` is less than 19000 and the references, numbered from the given start or from `n + 1` if that is too small, stay below or
above the reserved range. -/
theorem C56_exact {sc : Strcase} {o : PbOption} {s : Schema} {text : Str} (hc : CleanCase sc) (hp : PlainProto o s)
    (h : generate sc o s = some text) (hd : o.relationTagDecr = false) :
    ∃ f, readProto text = some f ∧ List.Forall₂ (fun t m => (∀ n ∈ numbers m, LegalTag n) ↔
      t.columns.length < 19000 ∧ (tableRefs t = [] ∨
        ∃ first, (if o.relationTagStart ≤ t.columns.length then first = t.columns.length + 1 else (first : Int) = o.relationTagStart) ∧
          (first + (tableRefs t).length ≤ 19000 ∨ 20000 ≤ first ∧ first + (tableRefs t).length ≤ 536870912)))
      (Selected o s) f.messages := by
  obtain ⟨ms, hm, hr'⟩ := read_proto hc hp h
  refine ⟨_, hr', ?_⟩
  show List.Forall₂ _ _ (ms.map readMessage)
  rw [List.forall₂_map_right_iff]
  refine hm.imp fun t m hf => ?_
  rw [numbers_eq hf]
  have hk : ∃ k : Nat, (relTagStart o t.columns.length (tableRefs t).length).toNat = k ∧ t.columns.length < k ∧
      (if o.relationTagStart ≤ t.columns.length then k = t.columns.length + 1 else (k : Int) = o.relationTagStart) := by
    unfold relTagStart
    rw [hd, if_neg (by simp)]
    by_cases hle : o.relationTagStart ≤ t.columns.length
    · rw [if_pos (Or.inr hle)]
      exact ⟨t.columns.length + 1, by omega, by omega, by rw [if_pos hle]⟩
    · rw [if_neg (by omega)]
      exact ⟨o.relationTagStart.toNat, rfl, by omega, by rw [if_neg hle]; omega⟩
  obtain ⟨k, hk1, hk2, hk3⟩ := hk
  rw [hk1]
  constructor
  · intro hl
    have hcols : t.columns.length < 19000 := by
      by_contra hge
      have := hl 19000 (List.mem_append_left _ (List.mem_map.2 ⟨18999, by rw [List.mem_range]; omega, rfl⟩))
      exact absurd this (by decide)
    refine ⟨hcols, ?_⟩
    by_cases hr : tableRefs t = []
    · exact Or.inl hr
    · refine Or.inr ⟨k, hk3, ?_⟩
      have hpos : 0 < (tableRefs t).length := List.length_pos_iff.2 hr
      have hi : ∀ i, i < (tableRefs t).length → LegalTag (k + i) := fun i hi =>
        hl _ (List.mem_append_right _ (List.mem_map.2 ⟨i, List.mem_range.2 hi, rfl⟩))
      by_contra hbad
      rw [not_or, not_and_or] at hbad
      obtain ⟨hb1, hb2⟩ := hbad
      have h0 := hi 0 hpos
      have hlast := hi ((tableRefs t).length - 1) (by omega)
      unfold LegalTag at h0 hlast
      by_cases hk0 : k < 19000
      · have := hi (19000 - k) (by omega)
        unfold LegalTag at this
        omega
      · omega
  · rintro ⟨h1, h2⟩ n hn
    rcases List.mem_append.1 hn with hn | hn
    · obtain ⟨i, hi, rfl⟩ := List.mem_map.1 hn
      rw [List.mem_range] at hi
      unfold LegalTag
      omega
    · obtain ⟨i, hi, rfl⟩ := List.mem_map.1 hn
      rw [List.mem_range] at hi
      rcases h2 with h2 | ⟨k', hk', h2⟩
      · rw [h2] at hi; exact absurd hi (Nat.not_lt_zero _)
      · have : k' = k := by
          by_cases hle : o.relationTagStart ≤ t.columns.length
          · rw [if_pos hle] at hk' hk3; omega
          · rw [if_neg hle] at hk' hk3; omega
        unfold LegalTag
        omega

open Protobuf in
/-- C58, exactly: the fields of a message have different names if and only if the names of the columns in camel case and the names
of the referenced tables, one for each reference, are all different. -/
theorem C58_exact {sc : Strcase} {o : PbOption} {s : Schema} {text : Str} (hc : CleanCase sc) (hp : PlainProto o s)
    (h : generate sc o s = some text) :
    ∃ f, readProto text = some f ∧ List.Forall₂ (fun t m => (m.fields.map (·.name)).Nodup ↔
      ∃ us, List.Forall₂ (fun (r : Reference) u => IsTarget s r.table u) (tableRefs t) us ∧
        (t.columns.map (protoFieldName sc) ++ us.map (protoRelName sc o)).Nodup) (Selected o s) f.messages := by
  obtain ⟨f, hf, hm, _⟩ := C57_types hc hp h
  refine ⟨f, hf, hm.imp fun t m hd => ?_⟩
  have hrel := rel_names hd
  have hall : ∃ us, List.Forall₂ (fun (r : Reference) u => IsTarget s r.table u) (tableRefs t) us ∧
      (m.fields.map (·.name)).drop t.columns.length = us.map (protoRelName sc o) := by
    generalize tableRefs t = l at hrel
    generalize List.drop t.columns.length (m.fields.map (·.name)) = ns at hrel
    induction hrel with
    | nil => exact ⟨[], .nil, rfl⟩
    | cons h1 _ ih =>
      obtain ⟨u, hu, rfl⟩ := h1
      obtain ⟨us, h2, h3⟩ := ih
      exact ⟨u :: us, .cons hu h2, by rw [List.map_cons, h3]⟩
  obtain ⟨us, h1, h2⟩ := hall
  have he : m.fields.map (·.name) = t.columns.map (protoFieldName sc) ++ us.map (protoRelName sc o) := by
    rw [← List.take_append_drop t.columns.length (m.fields.map (·.name)), col_names hd, h2]
  constructor
  · intro hn
    exact ⟨us, h1, he ▸ hn⟩
  · rintro ⟨us', h3, h4⟩
    have : us' = us := by
      clear h2 he h4 hrel hd
      generalize tableRefs t = l at h1 h3
      induction h1 generalizing us' with
      | nil => cases h3; rfl
      | cons g1 _ ih =>
        cases h3 with
        | cons g2 g3 => rw [target_unique g1 g2, ih _ g3]
    rw [he, ← this]
    exact h4

open Protobuf in
/-- C79, exactly: every type in the file is defined if and only if the type of every column of a selected table is known, or is by
chance a scalar type or a message of the file, and every referenced table has the message name of a selected table, or by chance a
name of a scalar type. -/
theorem C79_exact {sc : Strcase} {o : PbOption} {s : Schema} {text : Str} (hc : CleanCase sc) (hp : PlainProto o s)
    (h : generate sc o s = some text) :
    ∃ f, readProto text = some f ∧ (TypesDefined f ↔ ∀ t ∈ Selected o s,
      (∀ c ∈ t.columns, lower c.type ∈ protoTypes.map Prod.fst ∨ c.type ∈ protoScalars ∨ ∃ v ∈ Selected o s, protoName sc o v = c.type) ∧
      (∀ r ∈ tableRefs t, ∀ u, IsTarget s r.table u →
        protoName sc o u ∈ protoScalars ∨ ∃ v ∈ Selected o s, protoName sc o v = protoName sc o u)) := by
  obtain ⟨f, hr, hm, _, _, himp, himp'⟩ := C57_types hc hp h
  refine ⟨f, hr, ?_⟩
  have hdot : '.' ∈ "google.protobuf.Timestamp"ₛ := by decide
  have hmsg : ∀ n : Str, (∃ g ∈ f.messages, g.name = n) ↔ ∃ v ∈ Selected o s, protoName sc o v = n := by
    intro n
    constructor
    · rintro ⟨g, hg, e⟩
      obtain ⟨v, hv, hd⟩ := forall₂_mem_right hm g hg
      exact ⟨v, hv, hd.name.symm.trans e⟩
    · rintro ⟨v, hv, e⟩
      obtain ⟨g, hg, hd⟩ := forall₂_mem_left hm v hv
      exact ⟨g, hg, hd.name.trans e⟩
  have hname : ∀ u ∈ s.tables, protoName sc o u ≠ "google.protobuf.Timestamp"ₛ := by
    intro u hu e
    rw [← e] at hdot
    have h1 := (hc _ (hp.tables u hu)).1.2
    unfold protoName at hdot
    rcases List.mem_append.1 hdot with hd | hd
    · cases em : o.prefixMapper with
      | none => rw [em] at hd; cases hd
      | some mp =>
        rw [em] at hd
        have := List.all_eq_true.1 (hp.prefixes mp em u.group) _ hd
        revert this; decide
    · have := List.all_eq_true.1 h1 _ hd
      revert this; decide
  have hcol : ∀ t ∈ Selected o s, ∀ c ∈ t.columns, ((protoTypeOf c.type ∈ protoScalars ∨
        (protoTypeOf c.type = "google.protobuf.Timestamp"ₛ ∧ "google/protobuf/timestamp.proto"ₛ ∈ f.imports) ∨
        ∃ n ∈ f.messages, n.name = protoTypeOf c.type) ↔
      lower c.type ∈ protoTypes.map Prod.fst ∨ c.type ∈ protoScalars ∨ ∃ v ∈ Selected o s, protoName sc o v = c.type) := by
    intro t ht c hcm
    cases el : protoTypes.lookup (lower c.type) with
    | none =>
      have e : protoTypeOf c.type = c.type := by unfold protoTypeOf; rw [el]; rfl
      have hk : lower c.type ∉ protoTypes.map Prod.fst := by
        rw [List.lookup_eq_none_iff] at el
        intro hk
        obtain ⟨p, hp', e'⟩ := List.mem_map.1 hk
        exact absurd e'.symm (bne_iff_ne.1 (el p hp'))
      have hne : c.type ≠ "google.protobuf.Timestamp"ₛ := by
        intro e
        have := List.all_eq_true.1 (hp.columns t (List.mem_filter.1 ht).1 c hcm).2.2 '.' (by rw [e]; exact hdot)
        revert this; decide
      rw [e, hmsg]
      constructor
      · rintro (h | h | h)
        · exact Or.inr (Or.inl h)
        · exact absurd h.1 hne
        · exact Or.inr (Or.inr h)
      · rintro (h | h | h)
        · exact absurd h hk
        · exact Or.inl h
        · exact Or.inr (Or.inr h)
    | some ty =>
      have e : protoTypeOf c.type = ty := by unfold protoTypeOf; rw [el]; rfl
      have key : ∀ p ∈ protoTypes, p.2 ∈ protoScalars ∨ (p.2 = "google.protobuf.Timestamp"ₛ ∧ p.1 = "datetime"ₛ) := by
        decide +kernel
      have hmem := Ojson.lookup_mem' el
      refine ⟨fun _ => Or.inl (List.mem_map.2 ⟨_, hmem, rfl⟩), fun _ => ?_⟩
      rcases key _ hmem with hk | hk
      · left; rw [e]; exact hk
      · right; left
        refine ⟨e.trans hk.1, ?_⟩
        rw [himp ⟨t, ht, c, hcm, hk.2⟩]
        exact List.mem_singleton_self _
  have hrel : ∀ u ∈ s.tables, ((protoName sc o u ∈ protoScalars ∨
        (protoName sc o u = "google.protobuf.Timestamp"ₛ ∧ "google/protobuf/timestamp.proto"ₛ ∈ f.imports) ∨
        ∃ n ∈ f.messages, n.name = protoName sc o u) ↔
      protoName sc o u ∈ protoScalars ∨ ∃ v ∈ Selected o s, protoName sc o v = protoName sc o u) := by
    intro u hu
    rw [hmsg]
    constructor
    · rintro (h | h | h)
      · exact Or.inl h
      · exact absurd h.1 (hname u hu)
      · exact Or.inr h
    · rintro (h | h)
      · exact Or.inl h
      · exact Or.inr (Or.inr h)
  constructor
  · intro hdef t ht
    obtain ⟨m, hmm, hd⟩ := forall₂_mem_left hm t ht
    refine ⟨fun c hcm => ?_, fun r hrm u hu => ?_⟩
    · obtain ⟨x, hx, _, e⟩ := forall₂_mem_left hd.columns c hcm
      have := hdef m hmm x (List.mem_of_mem_take hx)
      rw [e] at this
      exact (hcol t ht c hcm).1 this
    · obtain ⟨x, hx, u', hu', e, _⟩ := forall₂_mem_left hd.relations r hrm
      rw [target_unique hu' hu] at e
      have := hdef m hmm x (List.mem_of_mem_drop hx)
      rw [e] at this
      exact (hrel u (target_mem hu)).1 this
  · intro hall m hmm x hx
    obtain ⟨t, ht, hd⟩ := forall₂_mem_right hm m hmm
    obtain ⟨h1, h2⟩ := hall t ht
    rw [← List.take_append_drop t.columns.length m.fields] at hx
    rcases List.mem_append.1 hx with hx | hx
    · obtain ⟨c, hcm, _, e⟩ := forall₂_mem_right hd.columns x hx
      rw [e]
      exact (hcol t ht c hcm).2 (h1 c hcm)
    · obtain ⟨r, hrm, u, hu, e, _⟩ := forall₂_mem_right hd.relations x hx
      rw [e]
      exact (hrel u (target_mem hu)).2 (h2 r hrm u hu)

/-- The text from which the name of a message is made: the prefix of the group, and the name without the prefixes to remove. -/
def protoSource (o : Protobuf.PbOption) (t : Table) : Str :=
  (o.prefixMapper.map fun m => m.getPrefix t.group).getD [] ++ o.removePrefixes.foldl trimPrefix t.name

theorem startsWithLetter_alnum {s : Str} (h : Alnum s) : StartsWithLetter s ↔ ProtoIdent s := by
  obtain ⟨h1, h2⟩ := h
  cases s with
  | nil => exact absurd rfl h1
  | cons c r =>
    have hc : isAlnum c = true := (List.all_eq_true.1 h2) c List.mem_cons_self
    unfold StartsWithLetter ProtoIdent
    rw [List.find?_cons_of_pos hc]
    refine ⟨fun h => ⟨h, ?_⟩, fun h => h.1⟩
    rw [List.all_eq_true] at h2 ⊢
    intro d hd
    rw [h2 d hd]; rfl

open Protobuf in
theorem protoIdent_iff {o : PbOption} {s : Schema} (hp : PlainProto o s) {t : Table} (h : t ∈ s.tables) :
    (ProtoIdent (protoName strcase o t) ↔ StartsWithLetter (protoSource o t)) ∧ Alnum (protoName strcase o t) := by
  have h0 := (strcase_clean _ (hp.tables t h)).1
  have hpre : ((o.prefixMapper.map fun m => m.getPrefix t.group).getD []).all isAlnum = true := by
    cases e : o.prefixMapper with
    | none => rfl
    | some m => exact hp.prefixes m e _
  have ha : Alnum (protoName strcase o t) := by
    unfold protoName
    refine ⟨fun e => h0.1 (List.append_eq_nil_iff.1 e).2, ?_⟩
    rw [List.all_append, hpre, h0.2]; rfl
  refine ⟨?_, ha⟩
  rw [← startsWithLetter_alnum ha]
  unfold protoName protoSource
  generalize (o.prefixMapper.map fun m => m.getPrefix t.group).getD [] = p at *
  cases p with
  | nil =>
    rw [List.nil_append, List.nil_append, startsWithLetter_alnum h0]
    exact camelInitCase_ident true
  | cons c r =>
    have hc : isAlnum c = true := (List.all_eq_true.1 hpre) c List.mem_cons_self
    unfold StartsWithLetter
    rw [List.cons_append, List.cons_append, List.find?_cons_of_pos hc, List.find?_cons_of_pos hc]

open Protobuf in
/-- C82, exactly: all names in the file are protobuf identifiers if and only if the first letter or digit of each column of a
selected table is a letter, and that of each selected or referenced table with its prefix as well. -/
theorem C82_exact {o : PbOption} {s : Schema} {text : Str} (hp : PlainProto o s) (h : generate strcase o s = some text) :
    ∃ f, readProto text = some f ∧ ((∀ m ∈ f.messages, ProtoIdent m.name ∧ ∀ x ∈ m.fields, ProtoIdent x.name) ↔
      ∀ t ∈ Selected o s, StartsWithLetter (protoSource o t) ∧ (∀ c ∈ t.columns, StartsWithLetter c.name) ∧
        ∀ r ∈ tableRefs t, ∀ u, IsTarget s r.table u → StartsWithLetter (protoSource o u)) := by
  obtain ⟨f, hr, hm, _⟩ := C57_types strcase_clean hp h
  have hrel : ∀ u ∈ s.tables, ProtoIdent (protoRelName strcase o u) ↔ StartsWithLetter (protoSource o u) := by
    intro u hu
    obtain ⟨h1, h2⟩ := protoIdent_iff hp hu
    rw [← h1, ← startsWithLetter_alnum h2]
    exact camelInitCase_ident false
  refine ⟨f, hr, ?_, ?_⟩
  · intro hall t ht
    obtain ⟨m, hmm, hd⟩ := forall₂_mem_left hm t ht
    obtain ⟨h1, h2⟩ := hall m hmm
    refine ⟨(protoIdent_iff hp (List.mem_filter.1 ht).1).1.1 (hd.name ▸ h1), fun c hcm => ?_, fun r hrm u hu => ?_⟩
    · obtain ⟨x, hx, e, _⟩ := forall₂_mem_left hd.columns c hcm
      have := h2 x (List.mem_of_mem_take hx)
      rw [e] at this
      exact (camelInitCase_ident false).1 this
    · obtain ⟨x, hx, u', hu', _, e⟩ := forall₂_mem_left hd.relations r hrm
      have := h2 x (List.mem_of_mem_drop hx)
      rw [e, target_unique hu' hu] at this
      exact (hrel u (target_mem hu)).1 this
  · intro hall m hmm
    obtain ⟨t, ht, hd⟩ := forall₂_mem_right hm m hmm
    obtain ⟨h1, h2, h3⟩ := hall t ht
    refine ⟨hd.name ▸ (protoIdent_iff hp (List.mem_filter.1 ht).1).1.2 h1, fun x hx => ?_⟩
    rw [← List.take_append_drop t.columns.length m.fields] at hx
    rcases List.mem_append.1 hx with hx | hx
    · obtain ⟨c, hcm, e, _⟩ := forall₂_mem_right hd.columns x hx
      rw [e]
      exact (camelInitCase_ident false).2 (h2 c hcm)
    · obtain ⟨r, hrm, u, hu, _, e⟩ := forall₂_mem_right hd.relations x hx
      rw [e]
      exact (hrel u (target_mem hu)).2 (h3 r hrm u hu)

/-- The example schema meets the hypotheses of these four theorems, and the conditions of C56 and C82; it does not meet those of C58. -/
example : CleanCase strcase ∧ PlainProto protoOption protoSchema ∧ (∃ text, Protobuf.generate strcase protoOption protoSchema = some text) ∧
    protoOption.relationTagDecr = false ∧
    (∀ t ∈ Selected protoOption protoSchema, t.columns.length < 19000 ∧ 20 + (tableRefs t).length ≤ 19000 ∧
      StartsWithLetter (protoSource protoOption t) ∧ ∀ c ∈ t.columns, StartsWithLetter c.name) ∧
    ∃ t ∈ Selected protoOption protoSchema, ¬((tableRefs t).map (·.table)).Nodup :=
  ⟨strcase_clean, protoSchema_plain _ rfl rfl rfl rfl, ⟨_, rfl⟩, rfl, by decide +kernel, by decide +kernel⟩

/-! ### C85 and C86: GORM -/

open Gorm in
theorem own_names {sc : Strcase} {o : GormOption} {t : Table} {cs : List Column} {fs : List GoFieldDecl}
    (h : List.Forall₂ (fun (c : Column) (f : GoFieldDecl) => f.name = goFieldName sc c.name ∧ f.type = goTypeOf c ∧ GormTags sc o t c f.tags)
      cs fs) : fs.map (·.name) = cs.map fun c => goFieldName sc c.name := by
  induction h with
  | nil => rfl
  | cons h _ ih => rw [List.map_cons, List.map_cons, ih, h.1]

open Gorm in
theorem link_names {sc : Strcase} {o : GormOption} {ls : List (Column × Reference × Table × Column)} {fs : List GoFieldDecl}
    (h : List.Forall₂ (GormLink sc o) ls fs) : fs.map (·.name) = ls.map fun x => goStructName sc o x.2.2.1 := by
  induction h with
  | nil => rfl
  | cons h _ ih => rw [List.map_cons, List.map_cons, ih, h.name]

open Gorm in
/-- C85, exactly: the members of a struct are different if and only if the names of the embedded structs, the field names of the
columns that these do not have, and the struct names of the referenced tables, one for each reference, are all different. -/
theorem C85_exact {sc : Strcase} {o : GormOption} {s : Schema} {ords : Nat → (Models → Models) × (Models → Models)}
    {models : Models} (hc : CleanCase sc) (hp : PlainGorm o s) (ho : Schedules ords) (hm : Registered models) :
    ∃ f, readGo (generate sc ords models o s).1 = some f ∧ List.Forall₂ (fun t d =>
      ∃ chosen, Embeds (register models o.embed) (t.columns.map (·.name)) chosen ∧ d.embedded = chosen.map Prod.fst ∧
        ((goMembers d).Nodup ↔ (chosen.map (fun m => embeddedName m.1) ++ ((ownColumns chosen t).map (fun c => goFieldName sc c.name) ++
          (links s t).map fun x => goStructName sc o x.2.2.1)).Nodup)) (GormSelected o s) f.structs := by
  obtain ⟨f, hr, hd, _⟩ := C59_columns hc hp ho hm
  refine ⟨f, hr, hd.imp ?_⟩
  rintro t d ⟨_, chosen, he, hemb, hf, hl⟩
  refine ⟨chosen, he, hemb, ?_⟩
  have : goMembers d = chosen.map (fun m => embeddedName m.1) ++ ((ownColumns chosen t).map (fun c => goFieldName sc c.name) ++
      (links s t).map fun x => goStructName sc o x.2.2.1) := by
    unfold goMembers
    rw [hemb, List.map_map, ← own_names hf, ← link_names hl, ← List.map_append, List.take_append_drop]
    rfl
  rw [this]

open Gorm in
/-- C85 is violated: a column `model` beside the columns of `gorm.Model` gives two members `Model`, whatever the order in which
structs are considered. -/
theorem C85_violated_embedded {ords : Nat → (Models → Models) × (Models → Models)} (ho : Schedules ords) :
    ∃ (o : GormOption) (s : Schema) (f : GoFile), PlainGorm o s ∧ readGo (generate strcase ords defaultModels o s).1 = some f ∧
      ∃ d ∈ f.structs, ¬(goMembers d).Nodup := by
  let s : Schema := { tables := [{ name := "car"ₛ, columns := [
    { name := "id"ₛ, type := "int64"ₛ }, { name := "created_at"ₛ, type := "datetime"ₛ }, { name := "updated_at"ₛ, type := "datetime"ₛ },
    { name := "deleted_at"ₛ, type := "datetime"ₛ }, { name := "model"ₛ, type := "varchar"ₛ, size := 20 }] }] }
  have hp : PlainGorm gormOption s := gormOption_plain rfl rfl rfl rfl (by decide +kernel) (by decide +kernel) (by decide +kernel)
  obtain ⟨f, hr, hd⟩ := C85_exact strcase_clean hp ho defaultModels_registered
  refine ⟨gormOption, s, f, hp, hr, ?_⟩
  have hsel : GormSelected gormOption s = s.tables := by decide +kernel
  rw [hsel] at hd
  obtain ⟨d, hdm, chosen, he, _, hiff⟩ := forall₂_mem_left hd _ List.mem_cons_self
  refine ⟨d, hdm, fun hn => ?_⟩
  have hnd := hiff.1 hn
  have hreg : register defaultModels gormOption.embed = defaultModels := rfl
  rw [hreg] at he
  have hmodel : ("gorm.Model"ₛ, ["id"ₛ, "created_at"ₛ, "updated_at"ₛ, "deleted_at"ₛ]) ∈ chosen := by
    rcases he.maximal _ List.mem_cons_self (by decide +kernel) with h | ⟨c, _, m', hm', _⟩
    · exact h
    · have := List.mem_singleton.1 (he.known m' hm')
      exact this ▸ hm'
  have hown : ({ name := "model"ₛ, type := "varchar"ₛ, size := 20 } : Column) ∈ ownColumns chosen
      { name := "car"ₛ, columns := [
        { name := "id"ₛ, type := "int64"ₛ }, { name := "created_at"ₛ, type := "datetime"ₛ }, { name := "updated_at"ₛ, type := "datetime"ₛ },
        { name := "deleted_at"ₛ, type := "datetime"ₛ }, { name := "model"ₛ, type := "varchar"ₛ, size := 20 }] } := by
    refine List.mem_filter.2 ⟨by decide +kernel, ?_⟩
    rw [List.all_eq_true]
    intro m hm
    rw [List.mem_singleton.1 (he.known m hm)]
    decide +kernel
  have h1 : "Model"ₛ ∈ chosen.map fun m => embeddedName m.1 := List.mem_map.2 ⟨_, hmodel, by decide +kernel⟩
  have h2 : "Model"ₛ = goFieldName strcase "model"ₛ := by decide +kernel
  refine (List.nodup_append.1 hnd).2.2 _ h1 _ (List.mem_append_left _ (List.mem_map.2 ⟨_, hown, rfl⟩)) h2

/-- The field of a column is exported if and only if the first letter or digit of the column name is a letter. -/
theorem exported_field_iff {n : Str} (hi : Ident n) (ha : HasAlnum n) : Exported (goFieldName strcase n) ↔ StartsWithLetter n := by
  refine ⟨fun h => ?_, exported_field hi.2⟩
  by_contra hl
  have hhead := camelInitCase_head n true
  have hfind : ∃ c, n.find? isAlnum = some c := by
    rw [← Option.isSome_iff_exists, List.find?_isSome]
    exact List.any_eq_true.1 ha
  obtain ⟨c, hc⟩ := hfind
  have hca : isAlpha c = false := by
    unfold StartsWithLetter at hl
    rw [hc] at hl
    simpa using hl
  rw [hc] at hhead
  -- the camel-case name starts with a character that is no letter
  have h1 : Exported (Strcase.camelInitCase n true) := by
    unfold goFieldName at h
    split at h
    · exact absurd h (by unfold Exported; rw [List.head?_cons]; decide)
    · unfold goBaseName at h
      rw [← Gorm.idSuffix_eq] at h
      unfold Gorm.idSuffix at h
      split at h
      · rename_i hs
        obtain ⟨r, hr⟩ := (Gorm.hasSuffix_Id _).1 hs
        show Exported (strcase.toCamel n)
        rw [hr] at h ⊢
        rw [List.take_left' (by simp)] at h
        cases r with
        | nil => decide
        | cons c r => exact h
      · exact h
  cases hcam : (Strcase.camelInitCase n true).head? with
  | none => rw [hcam] at hhead; cases hhead
  | some d =>
    rw [hcam] at hhead
    have hd : isAlpha d = false := by
      have : isAlpha d = isAlpha c := Option.some.inj hhead
      rw [this, hca]
    unfold Exported at h1
    rw [hcam] at h1
    have h2 : (decide ('A' ≤ d) && decide (d ≤ 'Z')) = true := h1
    unfold isAlpha at hd
    rw [Bool.and_eq_true, decide_eq_true_eq, decide_eq_true_eq] at h2
    simp only [Bool.or_eq_false_iff, Bool.and_eq_false_iff, decide_eq_false_iff_not] at hd
    rcases hd.1 with h3 | h3
    · exact h3 h2.1
    · exact h3 h2.2

open Gorm in
/-- C86, exactly: the struct of a table and its fields are exported if and only if the struct name is, the first letter or digit of
every column that is not in an embedded struct is a letter, and the struct names of the referenced tables are exported. -/
theorem C86_exact {o : GormOption} {s : Schema} {ords : Nat → (Models → Models) × (Models → Models)} {models : Models}
    (hp : PlainGorm o s) (ho : Schedules ords) (hm : Registered models) :
    ∃ f, readGo (generate strcase ords models o s).1 = some f ∧ List.Forall₂ (fun t d =>
      ∃ chosen, Embeds (register models o.embed) (t.columns.map (·.name)) chosen ∧ d.embedded = chosen.map Prod.fst ∧
        ((Exported d.name ∧ ∀ x ∈ d.fields, Exported x.name) ↔ Exported (goStructName strcase o t) ∧
          (∀ c ∈ ownColumns chosen t, StartsWithLetter c.name) ∧ ∀ x ∈ links s t, Exported (goStructName strcase o x.2.2.1)))
      (GormSelected o s) f.structs := by
  obtain ⟨f, hr, hd, _⟩ := C59_columns strcase_clean hp ho hm
  refine ⟨f, hr, ?_⟩
  have hd' : List.Forall₂ (fun t d => t ∈ s.tables ∧ GormDescribes strcase o s (register models o.embed) t d) (GormSelected o s) f.structs := by
    have hsub : ∀ t ∈ GormSelected o s, t ∈ s.tables := fun t ht => (List.mem_filter.1 ht).1
    clear hr
    generalize GormSelected o s = ts at hd hsub
    generalize f.structs = ds at hd
    induction hd with
    | nil => exact .nil
    | cons h _ ih => exact .cons ⟨hsub _ List.mem_cons_self, h⟩ (ih fun t ht => hsub t (List.mem_cons_of_mem _ ht))
  refine hd'.imp ?_
  rintro t d ⟨hts, hn, chosen, he, hemb, hf, hl⟩
  refine ⟨chosen, he, hemb, ?_⟩
  have hcols : ∀ c ∈ ownColumns chosen t, Exported (goFieldName strcase c.name) ↔ StartsWithLetter c.name := fun c hcm =>
    exported_field_iff (hp.columns t hts c (List.mem_filter.1 hcm).1).1 (hp.columns t hts c (List.mem_filter.1 hcm).1).2
  rw [hn]
  constructor
  · rintro ⟨h1, h2⟩
    refine ⟨h1, fun c hcm => ?_, fun x hx => ?_⟩
    · obtain ⟨x, hx, e, _⟩ := forall₂_mem_left hf c hcm
      exact (hcols c hcm).1 (e ▸ h2 x (List.mem_of_mem_take hx))
    · obtain ⟨y, hy, e⟩ := forall₂_mem_left hl x hx
      exact e.name ▸ h2 y (List.mem_of_mem_drop hy)
  · rintro ⟨h1, h2, h3⟩
    refine ⟨h1, fun x hx => ?_⟩
    rw [← List.take_append_drop (ownColumns chosen t).length d.fields] at hx
    rcases List.mem_append.1 hx with hx | hx
    · obtain ⟨c, hcm, e, _⟩ := forall₂_mem_right hf x hx
      rw [e]
      exact (hcols c hcm).2 (h2 c hcm)
    · obtain ⟨l, hlm, e⟩ := forall₂_mem_right hl x hx
      rw [e.name]
      exact h3 l hlm

open Gorm in
/-- The example schema meets the hypotheses. -/
example : CleanCase strcase ∧ PlainGorm gormOption gormSchema ∧ Schedules gormOrds ∧ Registered defaultModels :=
  ⟨strcase_clean, gormSchema_plain rfl rfl rfl rfl, gormOrds_schedules, defaultModels_registered⟩

/-- C79: every type in the file of the demo is defined. -/
example := C79_exact (o := protoOption) (text := (Protobuf.generate strcase protoOption protoSchema).getD []) strcase_clean
  (protoSchema_plain _ rfl rfl rfl rfl) rfl

/-- C85: the demo, and the order in which maps are iterated there. -/
example := C85_exact (o := gormOption) strcase_clean (gormSchema_plain rfl rfl rfl rfl) gormOrds_schedules defaultModels_registered

example := C85_violated_embedded gormOrds_schedules

end Octo
