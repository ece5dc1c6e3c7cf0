import Verif.Spec.JsonNull
import Verif.Props.Octopus

/-! Property C135: null among the elements of the arrays of a schema. -/

namespace Octo
open Spec

/-! ### Decoding -/

theorem toElem_some {α : Type} {f : Json → Option α} (hf : f .null = none) (j : Json) (a : α) :
    Ptr.toElem f j = some (some a) ↔ f j = some a := by
  unfold Ptr.toElem
  cases j <;> simp [Json.toPtr, hf]

theorem mapM_elem {α β : Type} {f : Json → Option α} {g : Json → Option β} {e : β → α} {P : α → Prop}
    (hf : f .null = none) (hfg : ∀ j a, (f j = some a ∧ P a) ↔ ∃ b, g j = some b ∧ a = e b) (l : List Json) (r : List (Option α)) :
    (l.mapM (Ptr.toElem f) = some r ∧ none ∉ r ∧ ∀ a, some a ∈ r → P a) ↔
      ∃ b, l.mapM g = some b ∧ r = b.map fun x => some (e x) := by
  induction l generalizing r with
  | nil =>
    constructor
    · rintro ⟨h, _, _⟩
      cases h
      exact ⟨[], rfl, rfl⟩
    · rintro ⟨b, h, rfl⟩
      cases h
      exact ⟨rfl, by simp, by simp⟩
  | cons j l ih =>
    rw [List.mapM_cons, List.mapM_cons]
    constructor
    · rintro ⟨h, hn, hp⟩
      obtain ⟨x, hx, h⟩ := Option.bind_eq_some_iff.1 h
      obtain ⟨r', hr', h⟩ := Option.bind_eq_some_iff.1 h
      cases h
      cases x with
      | none => exact absurd List.mem_cons_self hn
      | some a =>
        obtain ⟨b, hb, rfl⟩ := (hfg j a).1 ⟨(toElem_some hf j a).1 hx, hp a List.mem_cons_self⟩
        obtain ⟨bs, hbs, rfl⟩ := (ih r').1 ⟨hr', fun hm => hn (List.mem_cons_of_mem _ hm), fun a ha => hp a (List.mem_cons_of_mem _ ha)⟩
        refine ⟨b :: bs, ?_, rfl⟩
        rw [hb, hbs]; rfl
    · rintro ⟨bs, h, rfl⟩
      obtain ⟨b, hb, h⟩ := Option.bind_eq_some_iff.1 h
      obtain ⟨bs', hbs, h⟩ := Option.bind_eq_some_iff.1 h
      cases h
      obtain ⟨i1, i2, i3⟩ := (ih _).2 ⟨bs', hbs, rfl⟩
      obtain ⟨h1, h2⟩ := (hfg j (e b)).2 ⟨b, hb, rfl⟩
      refine ⟨?_, ?_, ?_⟩
      · rw [(toElem_some hf j (e b)).2 h1, i1]; rfl
      · rw [List.map_cons, List.mem_cons, not_or]
        exact ⟨by simp, i2⟩
      · intro a ha
        rw [List.map_cons, List.mem_cons] at ha
        rcases ha with ha | ha
        · cases ha; exact h2
        · exact i3 a ha

theorem toList_elem {α β : Type} {f : Json → Option α} {g : Json → Option β} {e : β → α} {P : α → Prop}
    (hf : f .null = none) (hfg : ∀ j a, (f j = some a ∧ P a) ↔ ∃ b, g j = some b ∧ a = e b) (o : Option Json) (r : List (Option α)) :
    (Json.toList (Ptr.toElem f) o = some r ∧ none ∉ r ∧ ∀ a, some a ∈ r → P a) ↔
      ∃ b, Json.toList g o = some b ∧ r = b.map fun x => some (e x) := by
  have hnil : (some ([] : List (Option α)) = some r ∧ none ∉ r ∧ ∀ a, some a ∈ r → P a) ↔
      ∃ b, some ([] : List β) = some b ∧ r = b.map fun x => some (e x) := by
    constructor
    · rintro ⟨h, _, _⟩; cases h; exact ⟨[], rfl, rfl⟩
    · rintro ⟨b, h, rfl⟩; cases h; exact ⟨rfl, by simp, by simp⟩
  have hno : ((none : Option (List (Option α))) = some r ∧ none ∉ r ∧ ∀ a, some a ∈ r → P a) ↔
      ∃ b, (none : Option (List β)) = some b ∧ r = b.map fun x => some (e x) := by
    constructor
    · rintro ⟨h, _, _⟩; cases h
    · rintro ⟨b, h, rfl⟩; cases h
  cases o with
  | none => exact hnil
  | some j => cases j with
    | null => exact hnil
    | arr l => exact mapM_elem hf hfg l r
    | _ => exact hno

theorem toList_simple {α : Type} {f : Json → Option α} (hf : f .null = none) (o : Option Json) (r : List (Option α)) :
    (Json.toList (Ptr.toElem f) o = some r ∧ none ∉ r) ↔ ∃ b, Json.toList f o = some b ∧ r = b.map some := by
  have := toList_elem (f := f) (g := f) (e := id) (P := fun _ => True) hf (fun j a => by simp) o r
  constructor
  · rintro ⟨h1, h2⟩
    obtain ⟨b, hb, e⟩ := this.1 ⟨h1, h2, fun _ _ => trivial⟩
    exact ⟨b, hb, e⟩
  · rintro ⟨b, hb, e⟩
    obtain ⟨h1, h2, _⟩ := this.2 ⟨b, hb, e⟩
    exact ⟨h1, h2⟩

/-- Tables without nil are decoded as before. -/
theorem toTable_ptr (j : Json) (p : Ptr.Table) :
    (Ptr.toTable j = some p ∧ NoNilTable p) ↔ ∃ t, Json.toTable j = some t ∧ p = ofPlainTable t := by
  cases j with
  | obj l =>
    constructor
    · rintro ⟨h, h1, h2⟩
      unfold Ptr.toTable at h
      simp only [Option.bind_eq_bind, Option.bind_eq_some_iff] at h
      obtain ⟨name, a1, columns, a2, desc, a3, group, a4, cls, a5, indices, a6, e⟩ := h
      cases e
      obtain ⟨cs, b1, rfl⟩ := (toList_simple rfl _ _).1 ⟨a2, h1⟩
      obtain ⟨is, b2, rfl⟩ := (toList_simple rfl _ _).1 ⟨a6, h2⟩
      refine ⟨⟨name, cs, desc, group, cls, is⟩, ?_, rfl⟩
      unfold Json.toTable
      simp only [Option.bind_eq_bind, Option.bind_eq_some_iff]
      exact ⟨_, a1, _, b1, _, a3, _, a4, _, a5, _, b2, rfl⟩
    · rintro ⟨t, h, rfl⟩
      unfold Json.toTable at h
      simp only [Option.bind_eq_bind, Option.bind_eq_some_iff] at h
      obtain ⟨name, a1, columns, a2, desc, a3, group, a4, cls, a5, indices, a6, e⟩ := h
      cases e
      obtain ⟨b1, b2⟩ := (toList_simple rfl _ _).2 ⟨_, a2, rfl⟩
      obtain ⟨c1, c2⟩ := (toList_simple rfl _ _).2 ⟨_, a6, rfl⟩
      refine ⟨?_, b2, c2⟩
      unfold Ptr.toTable
      simp only [Option.bind_eq_bind, Option.bind_eq_some_iff]
      exact ⟨_, a1, _, b1, _, a3, _, a4, _, a5, _, c1, rfl⟩
  | _ =>
    constructor
    · rintro ⟨h, _⟩; cases h
    · rintro ⟨t, h, _⟩; cases h

/-- C135: a document is a schema for the rest of the model if and only if it is one with pointers and none of them is nil; and it is
the same schema. -/
theorem C135_decode (j : Json) (p : Ptr.Schema) :
    (Ptr.toSchema j = some p ∧ NoNil p) ↔ ∃ s, Json.toSchema j = some s ∧ p = ofPlain s := by
  cases j with
  | null =>
    constructor
    · rintro ⟨h, _⟩; cases h; exact ⟨{}, rfl, rfl⟩
    · rintro ⟨s, h, rfl⟩; cases h; exact ⟨rfl, by simp [ofPlain], by simp [ofPlain]⟩
  | obj l =>
    constructor
    · rintro ⟨h, h1, h2⟩
      unfold Ptr.toSchema at h
      simp only [Option.bind_eq_bind, Option.bind_eq_some_iff] at h
      obtain ⟨author, a1, name, a2, version, a3, tables, a4, e⟩ := h
      cases e
      obtain ⟨ts, b1, rfl⟩ := (toList_elem rfl toTable_ptr _ _).1 ⟨a4, h1, h2⟩
      refine ⟨⟨author, name, version, ts⟩, ?_, rfl⟩
      unfold Json.toSchema
      simp only [Option.bind_eq_bind, Option.bind_eq_some_iff]
      exact ⟨_, a1, _, a2, _, a3, _, b1, rfl⟩
    · rintro ⟨s, h, rfl⟩
      unfold Json.toSchema at h
      simp only [Option.bind_eq_bind, Option.bind_eq_some_iff] at h
      obtain ⟨author, a1, name, a2, version, a3, tables, a4, e⟩ := h
      cases e
      obtain ⟨b1, b2, b3⟩ := (toList_elem rfl toTable_ptr _ _).2 ⟨_, a4, rfl⟩
      refine ⟨?_, b2, b3⟩
      unfold Ptr.toSchema
      simp only [Option.bind_eq_bind, Option.bind_eq_some_iff]
      exact ⟨_, a1, _, a2, _, a3, _, b1, rfl⟩
  | _ =>
    constructor
    · rintro ⟨h, _⟩; cases h
    · rintro ⟨t, h, _⟩; cases h

/-! ### Normalising -/

theorem normCols_ptr (cs : List Column) : Ptr.normCols (cs.map some) = some ((normCols cs).1.map some, (normCols cs).2) := by
  induction cs with
  | nil => rfl
  | cons c cs ih =>
    rw [List.map_cons, Ptr.normCols, normCols]
    cases hv : Column.validate true c.normalizeType with
    | mk c' e => cases e with
      | none => dsimp only; rw [ih]; rfl
      | some e => rfl

theorem normTables_ptr (ts : List Table) :
    Ptr.normTables (ts.map ofPlainTable) = some ((normTables ts).1.map ofPlainTable, (normTables ts).2) := by
  induction ts with
  | nil => rfl
  | cons t ts ih =>
    rw [List.map_cons, Ptr.normTables, normTables, show (ofPlainTable t).columns = t.columns.map some from rfl, normCols_ptr]
    cases hv : normCols t.columns with
    | mk c' e => cases e with
      | none => dsimp only; rw [ih]; rfl
      | some e => rfl

theorem plainTable_ofPlain (t : Table) : plainTable (ofPlainTable t) = t := by
  unfold plainTable ofPlainTable
  simp

/-- Sorting tables with pointers sorts tables. -/
theorem plainSorter_spec {sorter : List Ptr.Table → List Ptr.Table} (hs : PtrSortSpec sorter) : SortSpec (plainSorter sorter) := by
  intro l
  obtain ⟨h1, h2⟩ := hs (l.map ofPlainTable)
  refine ⟨?_, ?_⟩
  · have := h1.map plainTable
    rw [List.map_map, show plainTable ∘ ofPlainTable = id from funext plainTable_ofPlain, List.map_id] at this
    exact this
  · unfold plainSorter
    rw [List.pairwise_map]
    exact h2

theorem plainSorter_map {sorter : List Ptr.Table → List Ptr.Table} (hs : PtrSortSpec sorter) (l : List Table) :
    sorter (l.map ofPlainTable) = (plainSorter sorter l).map ofPlainTable := by
  unfold plainSorter
  rw [List.map_map]
  conv_lhs => rw [← List.map_id (sorter (l.map ofPlainTable))]
  apply List.map_congr_left
  intro p hp
  obtain ⟨t, _, rfl⟩ := List.mem_map.1 ((hs _).1.mem_iff.1 hp)
  rw [Function.comp_apply, plainTable_ofPlain]; rfl

/-- C135 (partial): loading a document without null elements never crashes, and yields what the rest of the model says.  Missing:
documents with null elements, see `C135_violated` and `C135_exact`. -/
theorem C135_no_crash_partial (sorter : List Ptr.Table → List Ptr.Table) (hs : PtrSortSpec sorter) (j : Json) (s : Schema)
    (h : Json.toSchema j = some s) :
    SortSpec (plainSorter sorter) ∧
    ∃ s', loadSchema (plainSorter sorter) true (some s) = some s' ∧ Ptr.load sorter (some j) = .schema (ofPlain s') := by
  refine ⟨plainSorter_spec hs, (s.normalize (plainSorter sorter)).1, rfl, ?_⟩
  have hd := ((C135_decode j (ofPlain s)).2 ⟨s, h, rfl⟩)
  unfold Ptr.load
  rw [Option.bind_some, hd.1]
  dsimp only
  have e : (ofPlain s).tables.filterMap id = s.tables.map ofPlainTable := by
    unfold ofPlain
    dsimp only
    rw [List.filterMap_map]
    exact congrFun (List.filterMap_eq_map (f := ofPlainTable)) s.tables
  unfold Ptr.normalize
  rw [if_neg hd.2.1, e, plainSorter_map hs, normTables_ptr]
  dsimp only [Option.map_some]
  unfold ofPlain Schema.normalize
  dsimp only
  rw [List.map_map]
  rfl

/-! ### Crashing -/

theorem goodPtr_some (c : Column) : GoodPtr (some c) ↔ ValidColumn c :=
  ⟨fun ⟨_, e, h⟩ => Option.some.inj e ▸ h, fun h => ⟨c, rfl, h⟩⟩

/-- The column loop: it crashes at a nil that comes before any column that is not acceptable. -/
theorem normCols_crash (cs : List (Option Column)) :
    Ptr.normCols cs = none ↔ ∃ a b, cs = a ++ none :: b ∧ ∀ c ∈ a, GoodPtr c := by
  induction cs with
  | nil => simp [Ptr.normCols]
  | cons c cs ih =>
    cases c with
    | none =>
      refine ⟨fun _ => ⟨[], cs, rfl, by simp⟩, fun _ => rfl⟩
    | some c =>
      rw [Ptr.normCols]
      by_cases hv : ValidColumn c
      · rw [(validate_normalizeType c).1 hv]
        dsimp only
        rw [Option.map_eq_none_iff, ih]
        constructor
        · rintro ⟨a, b, e, h⟩
          refine ⟨some c :: a, b, by rw [e]; rfl, ?_⟩
          intro x hx
          rcases List.mem_cons.1 hx with rfl | hx
          · exact (goodPtr_some c).2 hv
          · exact h x hx
        · rintro ⟨a, b, e, h⟩
          cases a with
          | nil => cases e
          | cons x a =>
            cases e
            exact ⟨a, b, rfl, fun y hy => h y (List.mem_cons_of_mem _ hy)⟩
      · obtain ⟨er, he⟩ := (validate_normalizeType c).2 hv
        cases hc : Column.validate true c.normalizeType with
        | mk c' e =>
          rw [hc] at he
          have he : e = some er := he
          subst he
          refine ⟨fun h => (by cases h), ?_⟩
          rintro ⟨a, b, e, h⟩
          cases a with
          | nil => cases e
          | cons x a =>
            cases e
            exact absurd ((goodPtr_some c).1 (h _ List.mem_cons_self)) hv

/-- The column loop ends without error iff all columns are there and acceptable. -/
theorem normCols_good (cs : List (Option Column)) :
    (∃ r, Ptr.normCols cs = some (r, none)) ↔ ∀ c ∈ cs, GoodPtr c := by
  induction cs with
  | nil => simp [Ptr.normCols]
  | cons c cs ih =>
    cases c with
    | none =>
      refine ⟨fun ⟨r, h⟩ => (by cases h), fun h => ?_⟩
      obtain ⟨x, e, _⟩ := h none List.mem_cons_self
      cases e
    | some c =>
      rw [Ptr.normCols, List.forall_mem_cons, goodPtr_some]
      by_cases hv : ValidColumn c
      · rw [(validate_normalizeType c).1 hv, ← ih]
        dsimp only
        constructor
        · rintro ⟨r, h⟩
          obtain ⟨⟨r', e⟩, h1, h2⟩ := Option.map_eq_some_iff.1 h
          cases h2
          exact ⟨hv, r', h1⟩
        · rintro ⟨_, r, h⟩
          rw [h]; exact ⟨_, rfl⟩
      · obtain ⟨er, he⟩ := (validate_normalizeType c).2 hv
        cases hc : Column.validate true c.normalizeType with
        | mk c' e =>
          rw [hc] at he
          have he : e = some er := he
          subst he
          refine ⟨fun ⟨r, h⟩ => (by cases h), fun h => absurd h.1 hv⟩

/-- The table loop crashes exactly when it reaches a nil column. -/
theorem normTables_crash (ts : List Ptr.Table) : Ptr.normTables ts = none ↔ ReachesNil ts := by
  induction ts with
  | nil =>
    refine ⟨fun h => (by cases h), ?_⟩
    rintro ⟨before, t, after, cs, cs', e, _⟩
    cases before <;> cases e
  | cons t ts ih =>
    rw [Ptr.normTables]
    cases hc : Ptr.normCols t.columns with
    | none =>
      refine ⟨fun _ => ?_, fun _ => rfl⟩
      obtain ⟨a, b, e, h⟩ := (normCols_crash _).1 hc
      exact ⟨[], t, ts, a, b, rfl, e, by simp, h⟩
    | some r =>
      obtain ⟨cs, er⟩ := r
      have hhead : ¬∃ a b, t.columns = a ++ none :: b ∧ ∀ c ∈ a, GoodPtr c := by
        rw [← normCols_crash, hc]; simp
      cases er with
      | none =>
        dsimp only
        have hgood := (normCols_good t.columns).1 ⟨cs, hc⟩
        rw [Option.map_eq_none_iff, ih]
        constructor
        · rintro ⟨before, u, after, a, b, e, h1, h2, h3⟩
          refine ⟨t :: before, u, after, a, b, by rw [e]; rfl, h1, ?_, h3⟩
          intro x hx
          rcases List.mem_cons.1 hx with rfl | hx
          · exact hgood
          · exact h2 x hx
        · rintro ⟨before, u, after, a, b, e, h1, h2, h3⟩
          cases before with
          | nil => cases e; exact absurd ⟨a, b, h1, h3⟩ hhead
          | cons x before =>
            cases e
            exact ⟨before, u, after, a, b, rfl, h1, fun y hy => h2 y (List.mem_cons_of_mem _ hy), h3⟩
      | some er =>
        refine ⟨fun h => (by cases h), ?_⟩
        rintro ⟨before, u, after, a, b, e, h1, h2, h3⟩
        cases before with
        | nil => cases e; exact absurd ⟨a, b, h1, h3⟩ hhead
        | cons x before =>
          cases e
          obtain ⟨r, hr⟩ := (normCols_good _).2 (h2 _ List.mem_cons_self)
          rw [hc] at hr
          cases hr

/-- C135, exactly: loading a document crashes if and only if it decodes and one of its tables is null, or, with the tables sorted, a
null column comes before every column that is not acceptable.  (Null indices never matter here.) -/
theorem C135_exact (sorter : List Ptr.Table → List Ptr.Table) (doc : Option Json) :
    Ptr.load sorter doc = .crashed ↔
      ∃ j p, doc = some j ∧ Ptr.toSchema j = some p ∧ (none ∈ p.tables ∨ ReachesNil (sorter (p.tables.filterMap id))) := by
  unfold Ptr.load
  constructor
  · intro h
    cases hd : doc.bind Ptr.toSchema with
    | none => rw [hd] at h; cases h
    | some p =>
      rw [hd] at h
      obtain ⟨j, rfl, hj⟩ := Option.bind_eq_some_iff.1 hd
      refine ⟨j, p, rfl, hj, ?_⟩
      by_cases hn : none ∈ p.tables
      · exact Or.inl hn
      · right
        rw [← normTables_crash]
        dsimp only at h
        unfold Ptr.normalize at h
        rw [if_neg hn] at h
        cases ht : Ptr.normTables (sorter (p.tables.filterMap id)) with
        | none => rfl
        | some r => rw [ht] at h; cases h
  · rintro ⟨j, p, rfl, hj, h⟩
    rw [Option.bind_some, hj]
    dsimp only
    have : Ptr.normalize sorter p = none := by
      unfold Ptr.normalize
      by_cases hn : none ∈ p.tables
      · rw [if_pos hn]
      · rw [if_neg hn, (normTables_crash _).2 (h.resolve_left hn)]
        rfl
    rw [this]

/-- C135 fails as stated: every document with a null table that is otherwise well formed crashes, and so does every document whose
columns are all acceptable or null, with at least one null. -/
theorem C135_violated (sorter : List Ptr.Table → List Ptr.Table) (hs : PtrSortSpec sorter) (j : Json) (p : Ptr.Schema)
    (h : Ptr.toSchema j = some p)
    (hn : none ∈ p.tables ∨ (∃ t, some t ∈ p.tables ∧ none ∈ t.columns) ∧
      ∀ t, some t ∈ p.tables → ∀ c, some c ∈ t.columns → ValidColumn c) :
    Ptr.load sorter (some j) = .crashed := by
  refine (C135_exact sorter (some j)).2 ⟨j, p, rfl, h, ?_⟩
  by_cases hnone : none ∈ p.tables
  · exact Or.inl hnone
  · right
    obtain ⟨⟨t, ht, hc⟩, hv⟩ := hn.resolve_left hnone
    have hmem : ∀ u, u ∈ sorter (p.tables.filterMap id) ↔ some u ∈ p.tables := by
      intro u
      rw [(hs _).1.mem_iff, List.mem_filterMap]
      simp
    have ht' := (hmem t).2 ht
    have hv' : ∀ u ∈ sorter (p.tables.filterMap id), ∀ c, some c ∈ u.columns → ValidColumn c := fun u hu => hv u ((hmem u).1 hu)
    clear hmem hv ht
    generalize sorter (p.tables.filterMap id) = ts at ht' hv'
    rw [← normTables_crash]
    by_contra hcon
    rw [normTables_crash] at hcon
    have hno : ∀ ts' : List Ptr.Table, (∀ u ∈ ts', ∀ c, some c ∈ u.columns → ValidColumn c) → (∃ u ∈ ts', none ∈ u.columns) →
        ReachesNil ts' := by
      intro ts'
      induction ts' with
      | nil => rintro _ ⟨u, hu, _⟩; cases hu
      | cons u ts' ih =>
        intro hval ⟨w, hw, hwn⟩
        by_cases hun : none ∈ u.columns
        · obtain ⟨a, b, e, hna⟩ := List.eq_append_cons_of_mem hun
          refine ⟨[], u, ts', a, b, rfl, e, by simp, ?_⟩
          intro c hc
          cases c with
          | none => exact absurd hc hna
          | some c => exact (goodPtr_some c).2 (hval u List.mem_cons_self c (by rw [e]; exact List.mem_append_left _ hc))
        · have hw' : w ∈ ts' := by
            rcases List.mem_cons.1 hw with rfl | hw
            · exact absurd hwn hun
            · exact hw
          obtain ⟨before, t, after, cs, cs', e, h1, h2, h3⟩ := ih (fun x hx => hval x (List.mem_cons_of_mem _ hx)) ⟨w, hw', hwn⟩
          refine ⟨u :: before, t, after, cs, cs', by rw [e]; rfl, h1, ?_, h3⟩
          intro x hx c hc
          rcases List.mem_cons.1 hx with rfl | hx
          · cases c with
            | none => exact absurd hc hun
            | some c => exact (goodPtr_some c).2 (hval _ List.mem_cons_self c hc)
          · exact h2 x hx c hc
    exact hcon (hno ts hv' ⟨t, ht', hc⟩)

/-- The null among the tables. -/
example (sorter : List Ptr.Table → List Ptr.Table) (hs : PtrSortSpec sorter) :
    Ptr.load sorter (some (.obj [("tables"ₛ, .arr [.null])])) = .crashed :=
  C135_violated sorter hs _ ⟨[], [], [], [none]⟩ (by decide +kernel) (Or.inl (by simp))

/-- A null among the columns. -/
example (sorter : List Ptr.Table → List Ptr.Table) (hs : PtrSortSpec sorter) :
    Ptr.load sorter (some (.obj [("tables"ₛ, .arr [.obj [("name"ₛ, .str "t"ₛ), ("columns"ₛ, .arr [.null])]])])) = .crashed :=
  C135_violated sorter hs _ ⟨[], [], [], [some ⟨"t"ₛ, [none], [], [], [], []⟩]⟩ (by decide +kernel)
    (Or.inr ⟨⟨_, List.mem_singleton.2 rfl, List.mem_singleton.2 rfl⟩, by
      intro t ht c hc
      cases Option.some.inj (List.mem_singleton.1 ht)
      cases List.mem_singleton.1 hc⟩)

/-- A null column behind one that is not acceptable is not reached; a null index is never looked at. -/
example : Ptr.load id (some (.obj [("tables"ₛ, .arr [.obj [("name"ₛ, .str "t"ₛ), ("columns"ₛ, .arr [.obj [], .null]),
      ("indices"ₛ, .arr [.null])]])])) ≠ .crashed := by decide +kernel

/-- A document without null elements. -/
example : ∃ s, Json.toSchema (.obj [("tables"ₛ, .arr [.obj [("name"ₛ, .str "t"ₛ), ("columns"ₛ, .arr [.obj [("name"ₛ, .str "c"ₛ),
      ("type"ₛ, .str "int"ₛ)]])]])]) = some s ∧ s.tables.length = 1 := ⟨_, rfl, rfl⟩

end Octo
