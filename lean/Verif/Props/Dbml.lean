import Verif.Props.Octopus
import Verif.Lemmas.Dbml
import Verif.Lemmas.Ojson

/-! Properties C51, C52 and C76: the DBML exporter. -/

namespace Octo
open Spec

theorem dbmlColumn_describes (defined : List Str) (c : Column) : DbmlDescribes c (dbmlColumn defined c) := by
  have hmem : ∀ x, x ∈ (dbmlColumn defined c).settings ↔
      ((c.primaryKey = true ∧ x = .pk) ∨ (c.uniqueKey = true ∧ x = .unique) ∨ (c.notNull = true ∧ x = .notNull) ∨
        x ∈ dbmlDefault c ∨ x ∈ dbmlRefSetting defined c ∨ (c.description ≠ [] ∧ x = .note c.description)) := by
    intro x
    have hb : ∀ (b : Bool) (y : DbmlSetting), x ∈ (if b then [y] else []) ↔ b = true ∧ x = y := by
      intro b y; cases b <;> simp
    have hn : x ∈ (if c.description = [] then [] else [DbmlSetting.note c.description]) ↔
        c.description ≠ [] ∧ x = .note c.description := by
      by_cases h : c.description = []
      · rw [if_pos h]; simp [h]
      · rw [if_neg h]; simp [h]
    show x ∈ dbmlSettings defined c ↔ _
    unfold dbmlSettings
    rw [List.mem_append, List.mem_append, List.mem_append, List.mem_append, List.mem_append, hb, hb, hb, hn]
    simp only [or_assoc]
  have hdef : ∀ x, x ∈ dbmlDefault c ↔ c.defaultValue ≠ [] ∧
      x = .default (if c.type = "char"ₛ ∨ c.type = "varchar"ₛ then .text c.defaultValue else .raw c.defaultValue) := by
    intro x
    unfold dbmlDefault
    by_cases h : c.defaultValue = []
    · rw [if_pos h]; constructor
      · intro h; cases h
      · intro h'; exact absurd h h'.1
    · rw [if_neg h, List.mem_singleton]
      exact ⟨fun e => ⟨h, e⟩, fun e => e.2⟩
  have href : ∀ x, x ∈ dbmlRefSetting defined c → ∃ a b d, x = .ref a b d := by
    intro x hx
    unfold dbmlRefSetting at hx
    split at hx
    · cases hx
    · split at hx
      · rw [List.mem_singleton] at hx; exact ⟨_, _, _, hx⟩
      · cases hx
  refine ⟨rfl, rfl, rfl, ?_, ?_, ?_, ?_, ?_, ?_⟩
  · intro h
    show (if c.size = 0 then 0 else c.scale.toNat) = _
    rw [if_neg]
    intro e
    apply h
    show c.size.toNat = 0
    rw [e]; rfl
  all_goals
    (try intro v)
    rw [hmem, hdef]
    constructor
    · rintro (⟨h, e⟩ | ⟨h, e⟩ | ⟨h, e⟩ | ⟨h, e⟩ | h | ⟨h, e⟩)
      all_goals first
        | (obtain ⟨_, _, _, e⟩ := href _ h; cases e; done)
        | (cases e; done)
        | exact h
        | exact ⟨h, DbmlSetting.default.inj e⟩
        | exact ⟨h, DbmlSetting.note.inj e⟩
    · intro h
      simp_all

theorem forall₂_mem {α β : Type} {R : α → β → Prop} {l : List α} {r : List β} (h : List.Forall₂ R l r) :
    ∀ a ∈ l, ∃ b ∈ r, R a b := by
  induction h with
  | nil => simp
  | cons h _ ih =>
    intro a ha
    rcases List.mem_cons.1 ha with rfl | ha
    · exact ⟨_, by simp, h⟩
    · obtain ⟨b, hb, h⟩ := ih a ha
      exact ⟨b, by simp [hb], h⟩

theorem filterMap_none' {α β : Type} {f : α → Option β} {l : List α} (h : ∀ x ∈ l, f x = none) :
    l.filterMap f = [] := by
  induction l with
  | nil => rfl
  | cons a l ih => rw [List.filterMap_cons_none (h a (by simp)), ih fun x hx => h x (by simp [hx])]

/-- The relation of a column: as a setting or at the end. -/
theorem column_refs (defined : List Str) (n : Str) (c : Column) :
    (dbmlColumn defined c).settings.filterMap (refOfSetting n c.name) ++ (laterRef defined n c).toList =
      (refOfColumn n c).toList := by
  have e : (dbmlSettings defined c).filterMap (refOfSetting n c.name) =
      (dbmlRefSetting defined c).filterMap (refOfSetting n c.name) := by
    unfold dbmlSettings
    have h1 : (if c.primaryKey then [DbmlSetting.pk] else []).filterMap (refOfSetting n c.name) = [] :=
      filterMap_none' fun x hx => by split at hx <;> simp_all [refOfSetting]
    have h2 : (if c.uniqueKey then [DbmlSetting.unique] else []).filterMap (refOfSetting n c.name) = [] :=
      filterMap_none' fun x hx => by split at hx <;> simp_all [refOfSetting]
    have h3 : (if c.notNull then [DbmlSetting.notNull] else []).filterMap (refOfSetting n c.name) = [] :=
      filterMap_none' fun x hx => by split at hx <;> simp_all [refOfSetting]
    have h4 : (dbmlDefault c).filterMap (refOfSetting n c.name) = [] := by
      refine filterMap_none' fun x hx => ?_
      unfold dbmlDefault at hx
      split at hx
      · cases hx
      · rw [List.mem_singleton.1 hx]; rfl
    have h5 : (if c.description = [] then [] else [DbmlSetting.note c.description]).filterMap (refOfSetting n c.name) = [] := by
      refine filterMap_none' fun x hx => ?_
      split at hx
      · cases hx
      · rw [List.mem_singleton.1 hx]; rfl
    rw [List.filterMap_append, List.filterMap_append, List.filterMap_append, List.filterMap_append,
      List.filterMap_append, h1, h2, h3, h4, h5, List.append_nil]
    rfl
  show (dbmlSettings defined c).filterMap (refOfSetting n c.name) ++ _ = _
  rw [e]
  unfold dbmlRefSetting laterRef refOfColumn
  cases c.ref with
  | none => rfl
  | some r =>
    dsimp only
    by_cases h : r.table ∈ defined
    · rw [if_pos h, if_pos h]; rfl
    · rw [if_neg h, if_neg h]; rfl

theorem filterMap_flatMap {α β : Type} (f : α → Option β) (l : List α) : l.filterMap f = l.flatMap fun x => (f x).toList := by
  induction l with
  | nil => rfl
  | cons a l ih =>
    rw [List.filterMap_cons, List.flatMap_cons, ← ih]
    cases f a <;> rfl

theorem perm_interleave {α : Type} (a A b B : List α) : ((a ++ A) ++ (b ++ B)).Perm ((a ++ b) ++ (A ++ B)) := by
  rw [List.append_assoc, List.append_assoc]
  refine List.Perm.append_left _ ?_
  rw [← List.append_assoc, ← List.append_assoc]
  exact List.Perm.append_right _ List.perm_append_comm

theorem flatMap_perm {α β : Type} (f g h : α → List β) (l : List α) (e : ∀ x ∈ l, (f x ++ g x).Perm (h x)) :
    (l.flatMap f ++ l.flatMap g).Perm (l.flatMap h) := by
  induction l with
  | nil => exact .nil
  | cons a l ih =>
    rw [List.flatMap_cons, List.flatMap_cons, List.flatMap_cons]
    exact (perm_interleave _ _ _ _).trans ((e a (by simp)).append (ih fun x hx => e x (by simp [hx])))

theorem doc_refs : ∀ (ts : List Table) (defined : List Str),
    ((dbmlTables defined ts).flatMap (fun t => t.columns.flatMap fun c => c.settings.filterMap (refOfSetting t.name c.name)) ++
      dbmlDeferred defined ts).Perm (ts.flatMap fun t => t.columns.filterMap (refOfColumn t.name)) := by
  intro ts
  induction ts with
  | nil => intro _; exact .nil
  | cons t ts ih =>
    intro defined
    rw [dbmlTables, dbmlDeferred, List.flatMap_cons, List.flatMap_cons]
    refine (perm_interleave _ _ _ _).trans (.append ?_ (ih _))
    dsimp only
    rw [filterMap_flatMap (laterRef defined t.name), filterMap_flatMap (refOfColumn t.name), List.flatMap_map]
    exact flatMap_perm _ _ _ _ fun c _ => by rw [← column_refs defined]; exact .refl _

theorem doc_tables : ∀ (ts : List Table) (defined : List Str),
    List.Forall₂ (fun t u => u.name = t.name ∧ List.Forall₂ DbmlDescribes t.columns u.columns) ts (dbmlTables defined ts) := by
  intro ts
  induction ts with
  | nil => intro _; exact .nil
  | cons t ts ih =>
    intro defined
    refine .cons ⟨rfl, ?_⟩ (ih _)
    show List.Forall₂ _ _ (t.columns.map _)
    rw [List.forall₂_map_right_iff]
    exact List.forall₂_same.2 fun c _ => dbmlColumn_describes defined c

theorem doc_inline : ∀ (ts : List Table) (defined : List Str) (pre : List DbmlTable) (u : DbmlTable) (post : List DbmlTable),
    dbmlTables defined ts = pre ++ u :: post → ∀ c ∈ u.columns, ∀ rel t k, .ref rel t k ∈ c.settings →
      t ∈ pre.map (·.name) ∨ t ∈ defined := by
  intro ts
  induction ts with
  | nil => intro _ pre u post h; simp [dbmlTables] at h
  | cons t0 ts ih =>
    intro defined pre u post h c hc rel t k hr
    rw [dbmlTables] at h
    cases pre with
    | nil =>
      rw [List.nil_append] at h
      injection h with h1 h2
      subst h1
      obtain ⟨c0, -, rfl⟩ := List.mem_map.1 hc
      right
      have : DbmlSetting.ref rel t k ∈ dbmlRefSetting defined c0 := by
        change _ ∈ dbmlSettings defined c0 at hr
        unfold dbmlSettings at hr
        simp only [List.mem_append] at hr
        rcases hr with ((((hr | hr) | hr) | hr) | hr) | hr
        · split at hr <;> simp at hr
        · split at hr <;> simp at hr
        · split at hr <;> simp at hr
        · unfold dbmlDefault at hr
          split at hr
          · cases hr
          · rw [List.mem_singleton] at hr; cases hr
        · exact hr
        · split at hr
          · cases hr
          · rw [List.mem_singleton] at hr; cases hr
      unfold dbmlRefSetting at this
      split at this
      · cases this
      · rename_i r hr0
        split at this
        · rename_i hm
          rw [List.mem_singleton] at this
          injection this with _ e _
          rw [e]; exact hm
        · cases this
    | cons p pre =>
      rw [List.cons_append] at h
      injection h with h1 h2
      rcases ih _ _ _ _ h2 c hc rel t k hr with h3 | h3
      · left; rw [List.map_cons]; exact List.mem_cons_of_mem _ h3
      · rcases List.mem_cons.1 h3 with rfl | h3
        · left; rw [← h1]; simp
        · exact Or.inr h3

/-- C51 (partial): the exported text is a DBML document with the tables and columns of the schema, in which
every reference of the schema is declared exactly once; a reference is declared in the column only if
the referenced table has been written before.  Missing: names and texts that DBML requires to be quoted or
escaped, see `C76_violated`. -/
theorem C51_relations_partial (filter : Option (Table → Bool)) (s : Schema) (h : ∀ t ∈ s.tables, PlainDbmlTable t) :
    ∃ d, readDbml (Dbml.exportText filter s) = some d ∧
      List.Forall₂ (fun t u => u.name = t.name ∧ List.Forall₂ DbmlDescribes t.columns u.columns) s.tables d.tables ∧
      (d.inlineRefs ++ d.refs).Perm (schemaRefs s) ∧
      ∀ pre u post, d.tables = pre ++ u :: post → ∀ c ∈ u.columns, ∀ rel t k, .ref rel t k ∈ c.settings →
        t ∈ pre.map (·.name) := by
  refine ⟨_, readDbml_export filter s h, doc_tables _ _, doc_refs _ _, ?_⟩
  intro pre u post he c hc rel t k hr
  rcases doc_inline _ _ pre u post he c hc rel t k hr with h | h
  · exact h
  · cases h

/-- A schema without references, with a quotation mark in a description. -/
def quotedNote : Schema :=
  { tables := [{ name := "u"ₛ, columns := [{ name := "id"ₛ, type := "int64"ₛ }] },
      { name := "t"ₛ, columns := [{ name := "k"ₛ, type := "int64"ₛ, description := "x\", ref: > u.id, note: \"y"ₛ }] }] }

/-- C51 fails as stated: a description with a quotation mark can declare a relation that the schema does not have. -/
theorem C51_violated : ∃ (s : Schema) (d : DbmlDoc), (∀ t ∈ s.tables, ∀ c ∈ t.columns, ValidColumn c) ∧ schemaRefs s = [] ∧
    readDbml (Dbml.exportText none s) = some d ∧ d.inlineRefs ++ d.refs ≠ [] := by
  have h : ((readDbml (Dbml.exportText none quotedNote)).map fun d => decide (d.inlineRefs ++ d.refs ≠ [])) = some true := by decide +kernel
  obtain ⟨d, h1, h2⟩ := Option.map_eq_some_iff.1 h
  exact ⟨quotedNote, d, (C04_accepts_iff tableSort tableSort_spec quotedNote).1 (by decide +kernel), by decide +kernel, h1, of_decide_eq_true h2⟩

/-- C52 fails as stated: whatever the filter, every table is written. -/
theorem C52_violated :
    (∀ (filter : Table → Bool) (s : Schema), (∀ t ∈ s.tables, PlainDbmlTable t) → ∀ t ∈ s.tables, filter t = false →
      ∃ d, readDbml (Dbml.exportText (some filter) s) = some d ∧ ∃ u ∈ d.tables, u.name = t.name) ∧
    ∃ (groups : Str) (filter : Table → Bool) (s : Schema), getTableFilterFn groups = some filter ∧
      (∀ t ∈ s.tables, PlainDbmlTable t) ∧ ∃ t ∈ s.tables, filter t = false := by
  constructor
  · intro filter s h t ht _
    refine ⟨_, readDbml_export (some filter) s h, ?_⟩
    have := doc_tables s.tables []
    clear h
    obtain ⟨l1, l2, e⟩ := List.append_of_mem ht
    rw [e] at this ⊢
    obtain ⟨u, hu, h1⟩ := forall₂_mem this t (by simp)
    exact ⟨u, hu, h1.1⟩
  · exact ⟨"a"ₛ, _, { tables := [{ name := "t"ₛ, group := "b"ₛ }] }, rfl, by
      intro t ht
      rw [List.mem_singleton.1 ht]
      exact ⟨by decide, by simp⟩, _, List.mem_singleton.2 rfl, by decide +kernel⟩

/-- C52 (partial): all selected tables are written. -/
theorem C52_selected_partial (filter : Option (Table → Bool)) (s : Schema) (h : ∀ t ∈ s.tables, PlainDbmlTable t) :
    ∃ d, readDbml (Dbml.exportText filter s) = some d ∧
      ∀ t ∈ s.tables, passes filter t = true → ∃ u ∈ d.tables, u.name = t.name := by
  refine ⟨_, readDbml_export filter s h, fun t ht _ => ?_⟩
  obtain ⟨u, hu, h1⟩ := forall₂_mem (doc_tables s.tables []) t ht
  exact ⟨u, hu, h1.1⟩

/-! ## C76 – values -/

theorem raw_default_unread {c : Column} (ht : c.type ∈ colTypes) (hs : ¬(c.type = "char"ₛ ∨ c.type = "varchar"ₛ))
    (hw : Word c.defaultValue) (hn : isNumber c.defaultValue = false) (hc : c.defaultValue ∉ ["true"ₛ, "false"ₛ, "null"ₛ]) :
    Dbml.defaultParam c = ["default: "ₛ ++ c.defaultValue] ∧ Good (· == ',') ("default: "ₛ ++ c.defaultValue) ∧
    readDbmlSetting (tokens ("default: "ₛ ++ c.defaultValue)) = none := by
  have hg := good_word hw
  refine ⟨?_, ?_, ?_⟩
  · unfold Dbml.defaultParam
    rw [if_neg hw.1]
    dsimp only
    rw [if_neg (fun e => hs ((isStringType_iff ht).1 e))]
  · exact .append _ _ (good_chars (by decide)) (Good.comma (Good.defs hg))
  · rw [show "default: "ₛ ++ c.defaultValue = "default:"ₛ ++ ' ' :: c.defaultValue from rfl,
      tokens_cons (Good.blank (good_literal _ (by decide))) (by decide) rfl, tokens_single (Good.blank hg) hw.1]
    unfold readDbmlSetting
    dsimp only
    rw [if_neg (by decide), if_pos rfl]
    have hq : ∀ q, isQuote q = true → unwrap q q c.defaultValue = none := by
      intro q hq
      apply unwrap_none
      cases hd : c.defaultValue with
      | nil => simp
      | cons x r =>
        intro e
        cases e
        rw [(hw.2 q (by rw [hd]; simp)).2.1] at hq; cases hq
    unfold readDbmlValue
    rw [hq _ rfl, hq _ rfl]
    dsimp only
    rw [if_neg]
    · rfl
    · rw [hn]
      simp only [List.mem_cons, List.not_mem_nil, or_false, not_or] at hc
      intro h
      simp only [Bool.false_or, Bool.or_eq_true, beq_iff_eq] at h
      rcases h with (h | h) | h
      exacts [hc.1 h, hc.2.1 h, hc.2.2 h]

/-- C76 fails as stated: a default value of a column that is not `char` or `varchar` is written without quotes and
is no DBML value unless it is a number or constant: the line cannot be read.  This concerns dates, texts and
all functions. -/
theorem C76_violated_unquoted (defined : List Str) (c : Column) (hname : Ident c.name) (ht : c.type ∈ colTypes)
    (hs : ¬(c.type = "char"ₛ ∨ c.type = "varchar"ₛ)) (hw : Word c.defaultValue) (hn : isNumber c.defaultValue = false)
    (hc : c.defaultValue ∉ ["true"ₛ, "false"ₛ, "null"ₛ]) (hd : PlainQuoted '"' c.description)
    (href : ∀ r, c.ref = some r → Ident r.table ∧ Ident r.column) :
    readDbmlColumn (Dbml.columnLine defined c) = none := by
  obtain ⟨p1, p2, p3⟩ := raw_default_unread ht hs hw hn hc
  have hplain := params_text (defined := defined) (c := { c with defaultValue := [] })
    ⟨hname, ht, Or.inl rfl, hd, href⟩
  have hmem : "default: "ₛ ++ c.defaultValue ∈ Dbml.params defined c := by
    unfold Dbml.params
    rw [p1]
    exact List.mem_append_left _ (List.mem_append_left _ (List.mem_append_right _ (List.mem_singleton.2 rfl)))
  have hgood : ∀ x ∈ Dbml.params defined c, Good (· == ',') x := by
    intro x hx
    by_cases e : x = "default: "ₛ ++ c.defaultValue
    · rw [e]; exact p2
    · have : x ∈ Dbml.params defined { c with defaultValue := [] } := by
        unfold Dbml.params at hx ⊢
        rw [p1] at hx
        simp only [List.mem_append, List.mem_singleton] at hx ⊢
        rcases hx with ((((hx | hx) | hx) | hx) | hx) | hx
        · exact Or.inl (Or.inl (Or.inl (Or.inl (Or.inl hx))))
        · exact Or.inl (Or.inl (Or.inl (Or.inl (Or.inr hx))))
        · exact Or.inl (Or.inl (Or.inl (Or.inr hx)))
        · exact absurd hx e
        · exact Or.inl (Or.inr hx)
        · exact Or.inr hx
      obtain ⟨_, h⟩ := forall₂_left hplain x this
      exact good_setting h
  have hne : Dbml.params defined c ≠ [] := fun e => by rw [e] at hmem; cases hmem
  have hmap : (parts (· == ',') (join ", "ₛ (Dbml.params defined c))).mapM (fun p => readDbmlSetting (tokens p)) = none := by
    rw [Ojson.mapM_none]
    cases hps : Dbml.params defined c with
    | nil => exact absurd hps hne
    | cons p ps =>
      rw [hps] at hgood hmem
      rw [show ", "ₛ = ',' :: [' '] from rfl,
        parts_join (sep := (· == ',')) (c := ',') rfl (m := [' ']) (.char ' ' rfl rfl (by decide) (by decide)) hgood]
      rcases List.mem_cons.1 hmem with h | h
      · exact ⟨p, by simp, by rw [← h]; exact p3⟩
      · refine ⟨[' '] ++ ("default: "ₛ ++ c.defaultValue), List.mem_cons_of_mem _ (List.mem_map.2 ⟨_, h, rfl⟩), ?_⟩
        rw [List.singleton_append, tokens_blank rfl]
        exact p3
  obtain ⟨t1, t2, t3, t4, t5⟩ := type_text (c := c) (ident_colType ht)
  have hh : '[' ∉ "  "ₛ ++ c.name ++ " "ₛ ++ Dbml.columnType c ++ " "ₛ := by
    simp only [List.mem_append, not_or]
    exact ⟨⟨⟨⟨by decide, ident_not (by decide) hname⟩, by decide⟩, t4⟩, by decide⟩
  unfold Dbml.columnLine
  rw [if_neg hne]
  have e : "  "ₛ ++ c.name ++ " "ₛ ++ Dbml.columnType c ++ " ["ₛ ++ join ", "ₛ (Dbml.params defined c) ++ "]"ₛ =
      ("  "ₛ ++ c.name ++ " "ₛ ++ Dbml.columnType c ++ " "ₛ) ++ '[' :: (join ", "ₛ (Dbml.params defined c) ++ [']']) := by
    simp only [List.append_assoc]; rfl
  rw [e]
  unfold readDbmlColumn
  rw [splitN2_append_sep hh]
  show (readDbmlSettings _).bind (readDbmlHead _) = _
  unfold readDbmlSettings
  rw [if_pos List.getLast?_concat, List.dropLast_concat, hmap]
  rfl

/-- A schema with one column. -/
def dbmlOne (c : Column) : Schema := { tables := [{ name := "t"ₛ, columns := [c] }] }

/-- C76 fails as stated: documents that cannot be read, because of a date, a function, an apostrophe in a default
value, and a quote in a description. -/
theorem C76_violated (filter : Option (Table → Bool)) :
    ∀ c ∈ [({ name := "c"ₛ, type := "date"ₛ, defaultValue := "2020-01-01"ₛ } : Column),
      { name := "c"ₛ, type := "datetime"ₛ, defaultValue := "fn::CURRENT_TIMESTAMP"ₛ },
      { name := "c"ₛ, type := "varchar"ₛ, size := 10, defaultValue := "it's"ₛ },
      { name := "c"ₛ, type := "int32"ₛ, description := "the \"c\""ₛ }],
    readDbml (Dbml.exportText filter (dbmlOne c)) = none := by
  have : ∀ f c, Dbml.exportText f (dbmlOne c) = Dbml.exportText none (dbmlOne c) := fun _ _ => rfl
  simp only [this]
  decide +kernel

/-- C76 (partial): numbers, constants and texts without special characters are read back: the default value and
the description of every column are in the document. -/
theorem C76_values_partial (filter : Option (Table → Bool)) (s : Schema) (h : ∀ t ∈ s.tables, PlainDbmlTable t) :
    ∃ d, readDbml (Dbml.exportText filter s) = some d ∧
      ∀ t ∈ s.tables, ∃ u ∈ d.tables, u.name = t.name ∧ ∀ c ∈ t.columns, ∃ k ∈ u.columns, k.name = c.name ∧
        (c.defaultValue ≠ [] → (DbmlSetting.default (.text c.defaultValue)) ∈ k.settings ∨
          (DbmlSetting.default (.raw c.defaultValue)) ∈ k.settings) ∧
        (c.description ≠ [] → .note c.description ∈ k.settings) := by
  refine ⟨_, readDbml_export filter s h, fun t ht => ?_⟩
  obtain ⟨u, hu, h1, h2⟩ := forall₂_mem (doc_tables s.tables []) t ht
  refine ⟨u, hu, h1, fun c hc => ?_⟩
  obtain ⟨k, hk, hd⟩ := forall₂_mem h2 c hc
  refine ⟨k, hk, hd.name, fun h => ?_, fun h => (hd.note _).2 ⟨h, rfl⟩⟩
  have := (hd.default _).2 ⟨h, rfl⟩
  by_cases hs : c.type = "char"ₛ ∨ c.type = "varchar"ₛ
  · rw [if_pos hs] at this; exact Or.inl this
  · rw [if_neg hs] at this; exact Or.inr this

/-! ### Examples -/

/-- A schema with references in both directions. -/
def dbmlDemo : Schema :=
  { tables := [
      { name := "user"ₛ, columns := [
        { name := "id"ₛ, type := "int64"ₛ, primaryKey := true, notNull := true },
        { name := "group_id"ₛ, type := "int64"ₛ, ref := some ⟨"team"ₛ, "id"ₛ, "n:1"ₛ⟩, description := "a, b]"ₛ }] },
      { name := "team"ₛ, columns := [
        { name := "id"ₛ, type := "decimal"ₛ, size := 20, scale := 5, uniqueKey := true, defaultValue := "-1.5"ₛ },
        { name := "owner"ₛ, type := "varchar"ₛ, size := 9, ref := some ⟨"user"ₛ, "id"ₛ, "1:1"ₛ⟩, defaultValue := "a, [b"ₛ }] }] }

theorem dbmlDemo_plain : ∀ t ∈ dbmlDemo.tables, PlainDbmlTable t := by
  intro t ht
  have hc : ∀ t ∈ dbmlDemo.tables, Ident t.name ∧ ∀ c ∈ t.columns, Ident c.name ∧ c.type ∈ colTypes ∧ PlainDbmlDefault c ∧
      PlainQuoted '"' c.description ∧ c.ref.all (fun r => decide (Ident r.table ∧ Ident r.column)) = true := by
    decide +kernel
  obtain ⟨h1, h2⟩ := hc t ht
  refine ⟨h1, fun c hc => ?_⟩
  obtain ⟨k1, k2, k3, k4, k5⟩ := h2 c hc
  refine ⟨k1, k2, k3, k4, fun r hr => ?_⟩
  rw [hr] at k5
  exact of_decide_eq_true k5

example : ∃ d, readDbml (Dbml.exportText none dbmlDemo) = some d ∧
    d.inlineRefs = [⟨"team"ₛ, "owner"ₛ, "-"ₛ, "user"ₛ, "id"ₛ⟩] ∧ d.refs = [⟨"user"ₛ, "group_id"ₛ, ">"ₛ, "team"ₛ, "id"ₛ⟩] :=
  ⟨_, readDbml_export none dbmlDemo dbmlDemo_plain, by decide +kernel, by decide +kernel⟩

example : readDbmlColumn (Dbml.columnLine [] { name := "c"ₛ, type := "datetime"ₛ, defaultValue := "fn::NOW"ₛ }) = none :=
  C76_violated_unquoted [] _ (by decide) (by decide) (by decide) (by unfold Word; decide) (by decide) (by decide)
    (by decide) (by intro r h; cases h)

/-- C51 and C52: the demo meets the hypotheses; `user` refers forward and `team` backward. -/
example := C51_relations_partial none dbmlDemo dbmlDemo_plain

/-- C52: one of the two tables is selected. -/
example := C52_selected_partial (some fun t => t.name == "user"ₛ) dbmlDemo dbmlDemo_plain

end Octo
