import Verif.Props.NoChanges
import Verif.Props.Settled

/-! Property C160: comparing a schema with what `export mysql` and `import mysql` make of it. -/

namespace Octo.Spec

/-- What has to survive in MySQL for a column to be found unchanged: its type, its default, and that it may be null. On-update values,
references and values of columns that are no enumerations are not compared. -/
structure FoundAgain (c : Column) : Prop where
  type : PortableType { c with values := if c.type = "enum"ₛ ∨ c.type = "set"ₛ then c.values else [] }
  default : PortableDefault c.type c.defaultValue
  autoNotNull : c.autoIncremental = true → c.notNull = true

end Octo.Spec

namespace Octo
open Spec MysqlImport

/-- What of a column is written to MySQL, with an on-update value MySQL can express. -/
def writtenColumn (c : Column) : Column := { c with
  values := if c.type = "enum"ₛ ∨ c.type = "set"ₛ then c.values else []
  onUpdate := if c.onUpdate = [] then [] else "fn::CURRENT_TIMESTAMP"ₛ
  ref := none }

theorem writtenColumn_type (c : Column) : Mysql.toMysqlColumnType (writtenColumn c) = Mysql.toMysqlColumnType c := by
  have h1 : (writtenColumn c).type = c.type := rfl
  have h2 : ∀ s, Mysql.formatColumnType s (writtenColumn c) = Mysql.formatColumnType s c := fun _ => rfl
  unfold Mysql.toMysqlColumnType
  simp only [h1, h2]
  by_cases he : c.type = "enum"ₛ ∨ c.type = "set"ₛ
  · have : (writtenColumn c).values = c.values := if_pos he
    rw [this]
  · rw [not_or] at he
    rw [if_neg he.1, if_neg he.1, if_neg he.2, if_neg he.2]

theorem writtenColumn_def {c : Column} {d : ColumnDef} (hd : columnDefOf (ddlColumn Mysql.toMysqlColumnType c) = some d) :
    columnDefOf (ddlColumn Mysql.toMysqlColumnType (writtenColumn c)) = some d := by
  rw [← hd]
  unfold columnDefOf ddlColumn at hd ⊢
  rw [writtenColumn_type]
  simp only [Option.bind_eq_some_iff] at hd
  obtain ⟨⟨base, args⟩, hr, f, hf, dl, hdl, ul, hul, -⟩ := hd
  have hw : optionOf updateExprOf (if (writtenColumn c).onUpdate = [] then none else
      some (valueMeaning (writtenColumn c).type (writtenColumn c).onUpdate)) = some ul := by
    rw [← hul]
    by_cases h0 : c.onUpdate = []
    · have : (writtenColumn c).onUpdate = [] := if_pos h0
      rw [if_pos h0, if_pos this]
    · have : (writtenColumn c).onUpdate = "fn::CURRENT_TIMESTAMP"ₛ := if_neg h0
      rw [if_neg h0] at hul
      rw [if_neg h0, this, if_neg (by decide)]
      simp only [optionOf, Option.map_eq_some_iff] at hul
      obtain ⟨e, he, rfl⟩ := hul
      have he' : e = .func "CURRENT_TIMESTAMP"ₛ := by
        unfold updateExprOf at he
        split at he
        · split at he
          · cases he; rfl
          · cases he
        · cases he
      have hv : valueMeaning (writtenColumn c).type "fn::CURRENT_TIMESTAMP"ₛ = .call "CURRENT_TIMESTAMP"ₛ := by
        unfold valueMeaning
        rw [if_pos (by decide)]
        rfl
      have hu : updateExprOf (.call "CURRENT_TIMESTAMP"ₛ) = some (.func "CURRENT_TIMESTAMP"ₛ) := by decide +kernel
      rw [hv]
      simp only [optionOf]
      rw [hu, he, he']
  simp only [hr, Option.bind_some, hf]
  show (optionOf exprOf (if c.defaultValue = [] then none else some (valueMeaning c.type c.defaultValue))).bind _ = _
  rw [hdl, Option.bind_some, Option.bind_some, hw, hul, Option.bind_some, Option.bind_some]
  rfl

theorem said_auto (n a : Bool) (dl ul : List Expr) (cm : Option Str) : ColOption.autoIncrement ∈ columnOptions n a dl ul cm ↔ a = true := by
  unfold columnOptions
  cases n <;> cases a <;> simp

/-- What always comes back of a column, and of its values. -/
theorem column_kept {c : Column} (hp : PlainColumn c) (k : Keys) (d : ColumnDef)
    (hd : columnDefOf (ddlColumn Mysql.toMysqlColumnType c) = some d) :
    (column k d).autoIncremental = c.autoIncremental ∧ ∀ v ∈ (column k d).values, v ∈ c.values := by
  unfold columnDefOf ddlColumn at hd
  simp only [Option.bind_eq_some_iff] at hd
  obtain ⟨⟨base, args⟩, hr, f, hf, dl, hdl, ul, hul, hd⟩ := hd
  cases Option.some.inj hd
  obtain ⟨x, hx⟩ := type_back hp.type hp.values hr hf
  unfold column
  rw [← columnOptions]
  simp only [foldl_optionStep, hx.type, hx.values]
  refine ⟨?_, hx.fewer⟩
  rw [Bool.false_or, Bool.eq_iff_iff, decide_eq_true_eq]
  exact said_auto ..

theorem column_keys (k k' : Keys) (d : ColumnDef) : column k d = { column k' d with
    primaryKey := (column k d).primaryKey, uniqueKey := (column k d).uniqueKey } ∧ (column k d).name = d.name := by
  unfold column
  simp only [foldl_optionStep, and_self]

theorem columnDefOf_name {c : DdlColumn} {d : ColumnDef} (hd : columnDefOf c = some d) : d.name = c.name := by
  unfold columnDefOf at hd
  simp only [Option.bind_eq_some_iff] at hd
  obtain ⟨_, _, _, _, _, _, _, _, hd⟩ := hd
  cases Option.some.inj hd
  rfl

/-- What the diff of a column and what was imported of it compares. -/
theorem column_found {c : Column} (hp : PlainColumn c) (hkd : KnownDefault c) (k : Keys) (d : ColumnDef)
    (hd : columnDefOf (ddlColumn Mysql.toMysqlColumnType c) = some d) :
    (∀ uc, ColumnSame uc (column k d) c → FoundAgain c) ∧ (FoundAgain c → ColumnSame true (column k d) c) := by
  obtain ⟨-, -, hx, -, -, -⟩ := column_settles hp hkd k d hd
  obtain ⟨hauto, hfew⟩ := column_kept hp k d hd
  constructor
  · rintro uc ⟨⟨h1, h2, h3⟩, -, h4, h5⟩
    refine ⟨?_, by rw [← h1, ← h5]; exact hx.default, by rw [← hauto, ← h4]; exact hx.autoNotNull⟩
    have ht := hx.type
    by_cases he : c.type = "enum"ₛ ∨ c.type = "set"ₛ
    · rw [if_pos he]
      unfold PortableType at ht ⊢
      rw [h1, h2, h3] at ht
      have hl : c.type ∈ ["enum"ₛ, "set"ₛ] := by simpa using he
      refine Or.inr (Or.inl ⟨hl, ?_⟩)
      have hno : ∀ l : List Str, "enum"ₛ ∉ l → "set"ₛ ∉ l → c.type ∉ l := by
        intro l h1 h2
        rcases he with e | e <;> rw [e] <;> assumption
      have hne : ∀ s, s ≠ "enum"ₛ → s ≠ "set"ₛ → c.type ≠ s := by
        intro s h1 h2 e
        rcases he with e' | e'
        · exact h1 (e.symm.trans e')
        · exact h2 (e.symm.trans e')
      rcases ht with ht | ht | ht | ht | ht | ht | ht | ht
      · exact absurd ht.1 (hno _ (by decide) (by decide))
      · refine ⟨ht.2.1, ht.2.2.1, fun h0 => ht.2.2.2 ?_⟩
        exact List.eq_nil_iff_forall_not_mem.2 fun v hv => by
          have := hfew v hv
          dsimp only at h0
          rw [h0] at this; cases this
      · exact absurd ht.1 (hno _ (by decide) (by decide))
      · exact absurd ht.1 (hne _ (by decide) (by decide))
      · exact absurd ht.1 (hne _ (by decide) (by decide))
      · exact absurd ht.1 (hne _ (by decide) (by decide))
      · exact absurd ht.1 (hno _ (by decide) (by decide))
      · exact absurd ht.1 (hne _ (by decide) (by decide))
    · rw [if_neg he]
      have hv : (column k d).values = [] := by
        unfold PortableType at ht
        rcases ht with ht | ht | ht | ht | ht | ht | ht | ht
        · exact ht.2.2.2
        · exact absurd (by have := ht.1; rw [h1] at this; simpa using this) he
        · exact ht.2.2
        · exact ht.2.2.2
        · exact ht.2.2.2.2
        · exact ht.2.2.2
        · exact ht.2.2
        · exact ht.2.2.2
      unfold PortableType at ht ⊢
      rw [h1, h2, h3, hv] at ht
      exact ht
  · intro h
    have hw : PlainColumn (writtenColumn c) := by
      refine ⟨hp.name, hp.type, fun v hv => hp.values v ?_, hp.description, hp.default, ?_⟩
      · change v ∈ (if c.type = "enum"ₛ ∨ c.type = "set"ₛ then c.values else []) at hv
        split at hv
        · exact hv
        · cases hv
      · show PlainValue c.type (if c.onUpdate = [] then [] else "fn::CURRENT_TIMESTAMP"ₛ)
        split
        · exact Or.inl rfl
        · exact Or.inr (Or.inl ⟨by decide, by unfold Word; decide⟩)
    obtain ⟨d', h1, -, h3⟩ := column_back (c := writtenColumn c) ⟨hw, h.type, h.default, by
      show (if c.onUpdate = [] then [] else "fn::CURRENT_TIMESTAMP"ₛ) = [] ∨ (if c.onUpdate = [] then [] else "fn::CURRENT_TIMESTAMP"ₛ) = _
      split
      · exact Or.inl rfl
      · exact Or.inr rfl, h.autoNotNull, rfl⟩
    rw [writtenColumn_def hd] at h1
    cases Option.some.inj h1
    have key : ∀ b : Bool, ∃ st : StringSet, st.contains c.name = b := by
      intro b
      cases b
      · exact ⟨⟨[]⟩, by simp [StringSet.contains]⟩
      · exact ⟨⟨[c.name]⟩, by simp [StringSet.contains]⟩
    obtain ⟨s1, hs1⟩ := key c.primaryKey
    obtain ⟨s2, hs2⟩ := key c.uniqueKey
    have e := h3 { k with pk := s1, uniq := s2 } hs1 hs2
    have e0 := (column_keys k { k with pk := s1, uniq := s2 } d).1
    rw [e] at e0
    have e1 : (column k d).type = (writtenColumn c).type := by have := congrArg Column.type e0; exact this
    have e2 : (column k d).size = (writtenColumn c).size := by have := congrArg Column.size e0; exact this
    have e3 : (column k d).scale = (writtenColumn c).scale := by have := congrArg Column.scale e0; exact this
    have e4 : (column k d).description = (writtenColumn c).description := by have := congrArg Column.description e0; exact this
    have e5 : (column k d).notNull = (writtenColumn c).notNull := by have := congrArg Column.notNull e0; exact this
    have e6 : (column k d).defaultValue = (writtenColumn c).defaultValue := by have := congrArg Column.defaultValue e0; exact this
    exact ⟨⟨e1, e2, e3⟩, fun _ => e4, e5, e6⟩

/-- The columns and keys of a table that was imported. -/
theorem table_found {suffix : Str} {t u : Table} (hp : PlainTable t) (hkd : ∀ c ∈ t.columns, KnownDefault c)
    (hn : (t.columns.map (·.name)).Nodup) (h : thereAndBack suffix t = some u) :
    u.name = t.name ∧ u.description = [] ∧ u.columns.map (·.name) = t.columns.map (·.name) ∧ SameKey u t ∧ SameUnique u t ∧
    ∀ c ∈ t.columns, ∀ b ∈ u.columns, c.name = b.name → b.autoIncremental = c.autoIncremental ∧
      (∀ uc, ColumnSame uc b c → FoundAgain c) ∧ (FoundAgain c → ColumnSame true b c) := by
  obtain ⟨k, hk, kpk, kuq, kix⟩ := ddl_keys (suffix := suffix) (t := t)
  rw [thereAndBack_eq, Option.bind_eq_some_iff] at h
  obtain ⟨cols, hcols, h⟩ := h
  split at h
  · cases h
  unfold importTable at h
  rw [hk, Option.map_some] at h
  cases Option.some.inj h
  have hf := List.forall₂_map_left_iff.1 (mapM_forall₂ hcols)
  have hall : ∀ c ∈ t.columns, ∀ d, columnDefOf (ddlColumn Mysql.toMysqlColumnType c) = some d → (column k d).name = c.name ∧
      (column k d).primaryKey = c.primaryKey ∧ (column k d).uniqueKey = c.uniqueKey := by
    intro c hc d hcd
    obtain ⟨-, -, -, h4, h5, h6⟩ := column_settles (hp.columns c hc) (hkd c hc) k d hcd
    have hs : ∀ p : Column → Bool, ∀ a ∈ t.columns, ∀ b ∈ t.columns, a.name = b.name → p a = p b := fun p a ha b hb e => by
      rw [List.inj_on_of_nodup_map hn ha hb e]
    refine ⟨h4, ?_, ?_⟩
    · rw [h5, kpk, Bool.eq_iff_iff, decide_eq_true_eq]
      exact mem_keyNames (hs _) hc
    · rw [h6, kuq, Bool.eq_iff_iff, decide_eq_true_eq]
      exact mem_keyNames (hs _) hc
  have hto : ∀ b ∈ cols.map (column k), ∃ c ∈ t.columns, ∃ d, columnDefOf (ddlColumn Mysql.toMysqlColumnType c) = some d ∧ b = column k d := by
    intro b hb
    obtain ⟨d, hd, rfl⟩ := List.mem_map.1 hb
    obtain ⟨c, hc, hcd⟩ := forall₂_mem_right hf d hd
    exact ⟨c, hc, d, hcd, rfl⟩
  have hfrom : ∀ c ∈ t.columns, ∃ b ∈ cols.map (column k), b.name = c.name ∧ b.primaryKey = c.primaryKey ∧ b.uniqueKey = c.uniqueKey := by
    intro c hc
    obtain ⟨d, hd, hcd⟩ := forall₂_mem_left hf c hc
    exact ⟨_, List.mem_map_of_mem hd, hall c hc d hcd⟩
  refine ⟨rfl, rfl, ?_, fun n => ⟨?_, ?_⟩, fun n => ⟨?_, ?_⟩, ?_⟩
  · dsimp only
    rw [List.map_map]
    exact (Lq.forall₂_map hf fun c d hcd => ((column_keys k k d).2.trans (columnDefOf_name hcd)).symm).symm
  · rintro ⟨b, hb, h1, rfl⟩
    obtain ⟨c, hc, d, hcd, rfl⟩ := hto b hb
    obtain ⟨e1, e2, e3⟩ := hall c hc d hcd
    exact ⟨c, hc, by rw [← e2]; exact h1, e1.symm⟩
  · rintro ⟨c, hc, h1, rfl⟩
    obtain ⟨b, hb, e1, e2, e3⟩ := hfrom c hc
    exact ⟨b, hb, by rw [e2]; exact h1, e1⟩
  · rintro ⟨b, hb, h1, rfl⟩
    obtain ⟨c, hc, d, hcd, rfl⟩ := hto b hb
    obtain ⟨e1, e2, e3⟩ := hall c hc d hcd
    exact ⟨c, hc, by rw [← e3]; exact h1, e1.symm⟩
  · rintro ⟨c, hc, h1, rfl⟩
    obtain ⟨b, hb, e1, e2, e3⟩ := hfrom c hc
    exact ⟨b, hb, by rw [e3]; exact h1, e1⟩
  · intro c hc b hb e
    obtain ⟨c', hc', d, hcd, rfl⟩ := hto b hb
    have : c = c' := List.inj_on_of_nodup_map hn hc hc' (e.trans (hall c' hc' d hcd).1)
    subst this
    exact ⟨(column_kept (hp.columns c hc) k d hcd).1, column_found (hp.columns c hc) (hkd c hc) k d hcd⟩

theorem ColumnSame.symm {uc : Bool} {c b : Column} (h : ColumnSame uc c b) : ColumnSame uc b c :=
  ⟨⟨h.type.1.symm, h.type.2.1.symm, h.type.2.2.symm⟩, fun hu => (h.description hu).symm, h.notNull.symm, h.default.symm⟩

theorem TableSame.symm {uc : Bool} {t o : Table} (hn : t.columns.map (·.name) = o.columns.map (·.name)) (h : TableSame uc t o) :
    TableSame uc o t :=
  ⟨fun hu => (h.description hu).symm, fun b hb => by rw [← hn]; exact List.mem_map_of_mem hb,
    fun c hc b hb e => ColumnSame.symm (h.columns b hb c hc e.symm), fun n => (h.key n).symm, fun n => (h.unique n).symm⟩

/-- All that is compared of a table survives in MySQL. -/
def TableFound (uc : Bool) (t : Table) : Prop := (∀ c ∈ t.columns, FoundAgain c) ∧ (uc = true → t.description = [])

theorem table_found_iff {suffix : Str} {t u : Table} (hp : PlainTable t) (hkd : ∀ c ∈ t.columns, KnownDefault c)
    (hn : (t.columns.map (·.name)).Nodup) (h : thereAndBack suffix t = some u) (uc : Bool) : TableSame uc u t ↔ TableFound uc t := by
  obtain ⟨-, h2, h3, h4, h5, h6⟩ := table_found hp hkd hn h
  constructor
  · intro hs
    refine ⟨fun c hc => ?_, fun hu => by rw [← hs.description hu, h2]⟩
    obtain ⟨b, hb, e⟩ := List.mem_map.1 (hs.stay c hc)
    exact (h6 c hc b hb e.symm).2.1 uc (hs.columns b hb c hc e)
  · rintro ⟨h7, h8⟩
    refine ⟨fun hu => by rw [h2, h8 hu], fun c hc => by rw [h3]; exact List.mem_map_of_mem hc, fun b hb c hc e => ?_, h4, h5⟩
    obtain ⟨h9, h10, h11, h12⟩ := (h6 c hc b hb e.symm).2.2 (h7 c hc)
    exact ⟨h9, fun _ => h10 rfl, h11, h12⟩

theorem tablesSame_found {s s' : Schema} {back : Table → Option Table} (hd : (s.tables.map (·.name)).Nodup)
    (hd' : (s'.tables.map (·.name)).Nodup) (hto : ∀ t ∈ s.tables, ∃ u ∈ s'.tables, u.name = t.name ∧ back t = some u)
    (hfrom : ∀ u ∈ s'.tables, ∃ t ∈ s.tables, t.name = u.name ∧ back t = some u) {opt : DiffOption} (hf : opt.tableFilter = none)
    (hopt : opt.diffFrom = s ∧ opt.diffTo = s' ∨ opt.diffFrom = s' ∧ opt.diffTo = s) (same : Table → Table → Prop)
    (hsame : ∀ t ∈ s.tables, ∀ u, back t = some u →
      (same u t ↔ TableFound opt.useComments t) ∧ (same t u ↔ TableFound opt.useComments t)) :
    TablesSame opt.tableFilter same opt.diffFrom opt.diffTo ↔ ∀ t ∈ s.tables, TableFound opt.useComments t := by
  have he : ∀ ts : List Table, ts.filter (passes none) = ts := fun ts => List.filter_eq_self.2 fun _ _ => rfl
  unfold TablesSame
  rw [hf, he]
  rcases hopt with ⟨e1, e2⟩ | ⟨e1, e2⟩
  · rw [e1, e2]
    constructor
    · rintro ⟨-, h2⟩ t ht
      obtain ⟨u, hu, e, hb⟩ := hto t ht
      obtain ⟨o, ho, eo, hs⟩ := h2 u hu rfl
      have : o = t := List.inj_on_of_nodup_map hd ho ht (eo.trans e)
      subst this
      exact (hsame o ht u hb).1.1 hs
    · intro hall
      refine ⟨fun o ho => ?_, fun u hu _ => ?_⟩
      · obtain ⟨u, hu, e, -⟩ := hto o ho
        exact List.mem_map.2 ⟨u, hu, e⟩
      · obtain ⟨t, ht, e, hb⟩ := hfrom u hu
        exact ⟨t, ht, e, (hsame t ht u hb).1.2 (hall t ht)⟩
  · rw [e1, e2]
    constructor
    · rintro ⟨-, h2⟩ t ht
      obtain ⟨u, hu, e, hb⟩ := hto t ht
      obtain ⟨o, ho, eo, hs⟩ := h2 t ht rfl
      have : o = u := List.inj_on_of_nodup_map hd' ho hu (eo.trans e.symm)
      subst this
      exact (hsame t ht o hb).2.1 hs
    · intro hall
      refine ⟨fun o ho => ?_, fun t ht _ => ?_⟩
      · obtain ⟨t, ht, e, -⟩ := hfrom o ho
        exact List.mem_map.2 ⟨t, ht, e⟩
      · obtain ⟨u, hu, e, hb⟩ := hto t ht
        exact ⟨u, hu, e, (hsame t ht u hb).2.2 (hall t ht)⟩

section
variable {suffix : Str} (hsuf : UnescapedName suffix) {s s' : Schema} (hd : DistinctNames s) (hp : ∀ t ∈ s.tables, PlainTable t)
  (hk : ∀ t ∈ s.tables, ∀ c ∈ t.columns, KnownDefault c) {author version : Str}
  (h : (parseSql (Mysql.exportSchema none suffix s)).bind (importSql [] author version) = some s')
include hsuf hd hp hk h

theorem schema_found : DistinctNames s' ∧ s'.tables.map (·.name) = s.tables.map (·.name) ∧
    (∀ t ∈ s.tables, ∃ u ∈ s'.tables, u.name = t.name ∧ thereAndBack suffix t = some u) ∧
    ∀ u ∈ s'.tables, ∃ t ∈ s.tables, t.name = u.name ∧ thereAndBack suffix t = some u := by
  rw [import_eq none suffix hsuf s fun t ht _ => hp t ht, Option.map_eq_some_iff] at h
  obtain ⟨ts, hts, rfl⟩ := h
  have he : s.tables.filter (passes none) = s.tables := List.filter_eq_self.2 fun _ _ => rfl
  rw [he] at hts
  have hf := mapM_forall₂ hts
  have hnames : ts.map (·.name) = s.tables.map (·.name) := (Lq.forall₂_map hf fun t u e => (thereAndBack_name e).1.symm).symm
  refine ⟨⟨?_, fun u hu => ?_⟩, hnames, fun t ht => ?_, fun u hu => ?_⟩
  · rw [hnames]; exact hd.1
  · obtain ⟨t, ht, e⟩ := forall₂_mem_right hf u hu
    rw [(table_found (hp t ht) (hk t ht) (hd.2 t ht) e).2.2.1]
    exact hd.2 t ht
  · obtain ⟨u, hu, e⟩ := forall₂_mem_left hf t ht
    exact ⟨u, hu, (thereAndBack_name e).1, e⟩
  · obtain ⟨t, ht, e⟩ := forall₂_mem_right hf u hu
    exact ⟨t, ht, (thereAndBack_name e).1.symm, e⟩

/-- **C160**, exactly: comparing a schema with what `export mysql` and `import mysql` make of it reports no change, in either direction, if
and only if the types and defaults of all columns survive in MySQL, columns with auto-increment are not null, and, when descriptions are
compared, no table has one. -/
theorem C160_report_exact (opt : DiffOption) (sched : Sched) (hs : sched.Fair) (hf : opt.tableFilter = none)
    (hopt : opt.diffFrom = s ∧ opt.diffTo = s' ∨ opt.diffFrom = s' ∧ opt.diffTo = s) :
    getDiff opt sched = [] ↔
      ∀ t ∈ s.tables, (∀ c ∈ t.columns, FoundAgain c) ∧ (opt.useComments = true → t.description = []) := by
  have hdf : DistinctNames opt.diffFrom := by
    rcases hopt with ⟨e, -⟩ | ⟨e, -⟩ <;> rw [e]
    · exact hd
    · exact (schema_found hsuf hd hp hk h).1
  rw [C159_report_exact opt sched hs hdf]
  obtain ⟨hd', -, hto, hfrom⟩ := schema_found hsuf hd hp hk h
  refine tablesSame_found hd.1 hd'.1 hto hfrom hf hopt _ fun t ht u hb => ?_
  have hi := table_found_iff (hp t ht) (hk t ht) (hd.2 t ht) hb opt.useComments
  obtain ⟨-, -, hn, -, -, h6⟩ := table_found (hp t ht) (hk t ht) (hd.2 t ht) hb
  refine ⟨⟨fun x => hi.1 x.1, fun x => ⟨hi.2 x, fun b hb c hc e => (h6 c hc b hb e.symm).1⟩⟩,
    ⟨fun x => hi.1 (TableSame.symm hn.symm x.1), fun x => ⟨TableSame.symm hn (hi.2 x), fun c hc b hb e => (h6 c hc b hb e).1.symm⟩⟩⟩

/-- **C160** for the changelog: it is empty in exactly the same cases. -/
theorem C160_changelog_exact (pf : Str → Option Str) (opt : DiffOption) (sched : Sched) (hs : sched.Fair) (hf : opt.tableFilter = none)
    (hopt : opt.diffFrom = s ∧ opt.diffTo = s' ∨ opt.diffFrom = s' ∧ opt.diffTo = s) :
    Lq.generate pf opt sched = some [] ↔
      ∀ t ∈ s.tables, (∀ c ∈ t.columns, FoundAgain c) ∧ (opt.useComments = true → t.description = []) := by
  have hdf : DistinctNames opt.diffFrom := by
    rcases hopt with ⟨e, -⟩ | ⟨e, -⟩ <;> rw [e]
    · exact hd
    · exact (schema_found hsuf hd hp hk h).1
  rw [C159_changelog_exact pf opt sched hs hdf]
  obtain ⟨hd', -, hto, hfrom⟩ := schema_found hsuf hd hp hk h
  refine tablesSame_found hd.1 hd'.1 hto hfrom hf hopt _ fun t ht u hb => ?_
  have hi := table_found_iff (hp t ht) (hk t ht) (hd.2 t ht) hb opt.useComments
  obtain ⟨-, -, hn, -, -, h6⟩ := table_found (hp t ht) (hk t ht) (hd.2 t ht) hb
  refine ⟨⟨fun x => hi.1 x.1, fun x => ⟨hi.2 x, fun b hb => by rw [← hn]; exact List.mem_map_of_mem hb,
      fun b hb c hc e ha => by rw [← (h6 c hc b hb e.symm).1]; exact ha⟩⟩,
    ⟨fun x => hi.1 (TableSame.symm hn.symm x.1), fun x => ⟨TableSame.symm hn (hi.2 x), fun c hc => by rw [hn]; exact List.mem_map_of_mem hc,
      fun c hc b hb e ha => by rw [(h6 c hc b hb e).1]; exact ha⟩⟩⟩

end

/-- An auto-increment column that is not said to be not null. -/
def autoUser : Schema := oneUser [{ plainId with autoIncremental := true, notNull := false, primaryKey := true }]

theorem autoUser_back (author version : Str) : (parseSql (Mysql.exportSchema none "_uq"ₛ autoUser)).bind (importSql [] author version) =
    some { author := author, tables := (oneUser [{ plainId with autoIncremental := true, primaryKey := true }]).tables, version := version } := by
  have hs : Scriptable "_uq"ₛ autoUser := scriptable_of_check _ (s := autoUser) (by decide +kernel)
  have hb : ((autoUser.tables.filter (passes none)).mapM (thereAndBack "_uq"ₛ)) =
      some (oneUser [{ plainId with autoIncremental := true, primaryKey := true }]).tables := by decide +kernel
  rw [import_eq none _ (by unfold UnescapedName; decide) autoUser (fun t ht _ => (hs.plain t ht).1), hb]
  rfl

/-- C160 is violated: the file and the database that was made from it differ, because a column with auto-increment is imported as not null. -/
theorem C160_violated (author version : Str) (opt : DiffOption) (sched : Sched) (hs : sched.Fair) (hf : opt.tableFilter = none) :
    ∃ s s', (parseSql (Mysql.exportSchema none "_uq"ₛ s)).bind (importSql [] author version) = some s' ∧
      ∀ pf, getDiff { opt with diffFrom := s, diffTo := s' } sched ≠ [] ∧ getDiff { opt with diffFrom := s', diffTo := s } sched ≠ [] ∧
        Lq.generate pf { opt with diffFrom := s, diffTo := s' } sched ≠ some [] ∧
        Lq.generate pf { opt with diffFrom := s', diffTo := s } sched ≠ some [] := by
  have hsuf : UnescapedName "_uq"ₛ := by unfold UnescapedName; decide
  have hsc : Scriptable "_uq"ₛ autoUser := scriptable_of_check _ (s := autoUser) (by decide +kernel)
  have hd : DistinctNames autoUser := oneUser_distinct (by decide)
  have hk : ∀ t ∈ autoUser.tables, ∀ c ∈ t.columns, KnownDefault c := by
    intro t ht c hc
    cases List.mem_singleton.1 ht; cases List.mem_singleton.1 hc
    exact Or.inl rfl
  have hno : ∀ uc : Bool, ¬∀ t ∈ autoUser.tables, (∀ c ∈ t.columns, FoundAgain c) ∧ (uc = true → t.description = []) := by
    intro uc h
    have := ((h _ List.mem_cons_self).1 _ List.mem_cons_self).autoNotNull rfl
    cases this
  obtain ⟨s', hb⟩ : ∃ s', (parseSql (Mysql.exportSchema none "_uq"ₛ autoUser)).bind (importSql [] author version) = some s' :=
    ⟨_, autoUser_back author version⟩
  refine ⟨autoUser, s', hb, fun pf => ⟨fun e => hno opt.useComments ?_, fun e => hno opt.useComments ?_,
    fun e => hno opt.useComments ?_, fun e => hno opt.useComments ?_⟩⟩
  · exact (C160_report_exact hsuf hd (fun t ht => (hsc.plain t ht).1) hk hb { opt with diffFrom := autoUser, diffTo := s' } sched hs hf (Or.inl ⟨rfl, rfl⟩)).1 e
  · exact (C160_report_exact hsuf hd (fun t ht => (hsc.plain t ht).1) hk hb { opt with diffFrom := s', diffTo := autoUser } sched hs hf (Or.inr ⟨rfl, rfl⟩)).1 e
  · exact (C160_changelog_exact hsuf hd (fun t ht => (hsc.plain t ht).1) hk hb pf { opt with diffFrom := autoUser, diffTo := s' } sched hs hf (Or.inl ⟨rfl, rfl⟩)).1 e
  · exact (C160_changelog_exact hsuf hd (fun t ht => (hsc.plain t ht).1) hk hb pf { opt with diffFrom := s', diffTo := autoUser } sched hs hf (Or.inr ⟨rfl, rfl⟩)).1 e

/-- C160: nothing is reported about tables that lose their groups, descriptions and class names. -/
example : ∃ s', (parseSql (Mysql.exportSchema none "_u"ₛ settledDemo)).bind (importSql [] [] []) = some s' ∧ s' ≠ settledDemo ∧ s'.tables ≠ [] ∧
    getDiff { diffFrom := settledDemo, diffTo := s' } idSched = [] ∧ getDiff { diffFrom := settledDemo, diffTo := s', useComments := true } idSched ≠ [] := by
  have h1 : UnescapedName "_u"ₛ := by unfold UnescapedName; decide +kernel
  have hb : ((settledDemo.tables.filter (passes none)).mapM (thereAndBack "_u"ₛ)) = some exPortable.tables := by
    decide +kernel
  have h : (parseSql (Mysql.exportSchema none "_u"ₛ settledDemo)).bind (importSql [] [] []) = some { tables := exPortable.tables } := by
    rw [import_eq none _ h1 settledDemo fun t ht _ => (settledDemo_tables t ht).1, hb]
    rfl
  have hd : DistinctNames settledDemo := ⟨by decide +kernel, by decide +kernel⟩
  have key := fun uc => C160_report_exact h1 hd (fun t ht => (settledDemo_tables t ht).1) (fun t ht => (settledDemo_tables t ht).2) h
    { diffFrom := settledDemo, diffTo := { tables := exPortable.tables }, useComments := uc } idSched idSched_fair rfl (Or.inl ⟨rfl, rfl⟩)
  refine ⟨_, h, by decide +kernel, by decide +kernel, (key false).2 fun t ht => ⟨fun c hc => ?_, fun e => by cases e⟩, fun e => ?_⟩
  · obtain ⟨u, hu, rfl⟩ := List.mem_map.1 ht
    have hx := (exPortable_expressible u hu).columns c hc
    refine ⟨?_, hx.default, hx.autoNotNull⟩
    have hv : (if c.type = "enum"ₛ ∨ c.type = "set"ₛ then c.values else []) = c.values := by
      have : ∀ t ∈ exPortable.tables, ∀ c ∈ t.columns, (if c.type = "enum"ₛ ∨ c.type = "set"ₛ then c.values else []) = c.values := by
        decide +kernel
      exact this u hu c hc
    rw [hv]
    exact hx.type
  · have := (key true).1 e
    have hm : ∃ t ∈ settledDemo.tables, t.description ≠ [] := by decide +kernel
    obtain ⟨t, ht, hne⟩ := hm
    exact hne ((this t ht).2 rfl)

end Octo

namespace Octo.Cli
open Spec MysqlImport

theorem tableSame_norm {uc : Bool} {y t : Table} (h : ∀ c ∈ y.columns, canon c.type = c.type) :
    TableSame uc (normTable y) t ↔ TableSame uc y t := by
  have hn : (normTable y).columns.map (·.name) = y.columns.map (·.name) := by
    show (y.columns.map normColumn).map _ = _
    rw [List.map_map]
    rfl
  have hc : ∀ b ∈ y.columns, ∀ c, ColumnSame uc (normColumn b) c ↔ ColumnSame uc b c := by
    intro b hb c
    have e : (normColumn b).type = b.type := h b hb
    constructor
    · rintro ⟨⟨h1, h2, h3⟩, h4, h5, h6⟩
      exact ⟨⟨by rw [← e]; exact h1, h2, h3⟩, h4, h5, h6⟩
    · rintro ⟨⟨h1, h2, h3⟩, h4, h5, h6⟩
      exact ⟨⟨by rw [e]; exact h1, h2, h3⟩, h4, h5, h6⟩
  have hk : ∀ (p : Column → Bool), (∀ b, p (normColumn b) = p b) → ∀ n,
      (∃ c ∈ (normTable y).columns, p c = true ∧ c.name = n) ↔ ∃ c ∈ y.columns, p c = true ∧ c.name = n := by
    intro p hp n
    constructor
    · rintro ⟨c, hc, h1, h2⟩
      obtain ⟨b, hb, rfl⟩ := List.mem_map.1 hc
      exact ⟨b, hb, by rw [← hp]; exact h1, h2⟩
    · rintro ⟨b, hb, h1, h2⟩
      exact ⟨_, List.mem_map_of_mem hb, by rw [hp]; exact h1, h2⟩
  constructor
  · rintro ⟨h1, h2, h3, h4, h5⟩
    exact ⟨h1, fun b hb => by rw [← hn]; exact h2 b hb, fun c hc' b hb e => (hc c hc' b).1 (h3 _ (List.mem_map_of_mem hc') b hb e),
      fun n => (hk (·.primaryKey) (fun _ => rfl) n).symm.trans (h4 n), fun n => (hk (·.uniqueKey) (fun _ => rfl) n).symm.trans (h5 n)⟩
  · rintro ⟨h1, h2, h3, h4, h5⟩
    refine ⟨h1, fun b hb => by rw [hn]; exact h2 b hb, fun c hc' b hb e => ?_,
      fun n => (hk (·.primaryKey) (fun _ => rfl) n).trans (h4 n), fun n => (hk (·.uniqueKey) (fun _ => rfl) n).trans (h5 n)⟩
    obtain ⟨d, hd, rfl⟩ := List.mem_map.1 hc'
    exact (hc d hd b).2 (h3 d hd b hb e)

/-- Only columns of integer types have auto-increment in a file that was saved. -/
theorem stored_auto {w : World} (hw : Faithful w) {fs : Files} {f : Str} {s : Schema} (h : Stored w fs f s) {t : Table} (ht : t ∈ s.tables)
    {c : Column} (hc : c ∈ t.columns) (ha : c.autoIncremental = true) : c.type ∈ integerTypes := by
  obtain ⟨-, s₀, text, hd, hj, -, rfl⟩ := h
  obtain ⟨t₀, ht₀, rfl⟩ := List.mem_map.1 ((C02_normalize_frame w.sorter hw.sorter s₀ (toJson_ok hj)).1.mem_iff.1 ht)
  obtain ⟨c₀, hc₀, rfl⟩ := List.mem_map.1 hc
  exact of_decide_eq_true (Bool.and_eq_true_iff.1 ha).2

theorem flyway_empty (suffix : Str) (cs : List ChangeSet) : flyway suffix cs = [] ↔ cs = [] := by
  unfold flyway
  cases cs <;> simp

/-- **C160** on the command line: after `export mysql` and `import mysql` have succeeded, `diff flyway` of the file and the imported file, in
either direction, writes an empty script, and `diff liquibase` an empty changelog, in exactly these cases. -/
theorem C160_commands_exact (w : World) (hw : Faithful w) (hsql : w.sql = parseSql) (v v' u : Values) (fs : Files) (s : Schema)
    (hst : Stored w fs (v "input"ₛ) s) (hsuf : UnescapedName (v "uniqueNameSuffix"ₛ)) (hd : DistinctNames s)
    (hp : ∀ t ∈ s.tables, PlainTable t) (hk : ∀ t ∈ s.tables, ∀ c ∈ t.columns, KnownDefault c) (hg : v "groups"ₛ = [])
    (hwr : w.writable (pathOf (v "output"ₛ)) = true) (hin : v' "input"ₛ = v "output"ₛ) (ho : IsOctopus (v' "output"ₛ))
    (hx : ∀ t ∈ s.tables, t.name ∉ split ',' (v' "excludes"ₛ))
    (hne : pathOf (v "input"ₛ) ≠ pathOf (v "output"ₛ)) (hne' : pathOf (v "input"ₛ) ≠ pathOf (v' "output"ₛ))
    (hok : (action w .importMysql v' (action w .exportMysql v fs).files).status = .ok)
    (hu : u "from"ₛ = v "input"ₛ ∧ u "to"ₛ = v' "output"ₛ ∨ u "from"ₛ = v' "output"ₛ ∧ u "to"ₛ = v "input"ₛ)
    (hgu : u "groups"ₛ = []) (hwu : w.writable (pathOf (u "output"ₛ)) = true) {fs₁ : Files}
    (hfs₁ : (action w .importMysql v' (action w .exportMysql v fs).files).files = fs₁) :
    ((action w .diffFlyway u fs₁).files.at (u "output"ₛ) = some (.text []) ↔
      ∀ t ∈ s.tables, (∀ c ∈ t.columns, FoundAgain c) ∧ (u.bool "comments"ₛ = true → t.description = [])) ∧
    ((action w .diffLiquibase u fs₁).status = .ok ∧ (action w .diffLiquibase u fs₁).files.at (u "output"ₛ) = some (.changelog []) ↔
      ∀ t ∈ s.tables, (∀ c ∈ t.columns, FoundAgain c) ∧ (u.bool "comments"ₛ = true → t.description = [])) := by
  have hflt : getTableFilterFn (v "groups"ₛ) = none := by rw [hg]; rfl
  set suffix := v "uniqueNameSuffix"ₛ with hsx
  set text := Mysql.exportSchema none suffix s with htext
  set fs' := fs.set (pathOf (v "output"ₛ)) (.text text) with hfs'
  have e : action w .exportMysql v fs = ⟨fs', .ok⟩ := by
    show exportMysqlAction w v fs = _
    unfold exportMysqlAction
    rw [withSchema_some (load_stored hw hst)]
    unfold write
    rw [if_pos hwr, hflt]
  have hread : (fs'.text (v' "input"ₛ)).bind w.sql = parseSql text := by
    unfold Files.text
    rw [hin, hfs', files_set_at, hsql]
    rfl
  have ha : action w .importMysql v' fs' = importMysqlAction w v' fs' := rfl
  rw [e, ha] at hok hfs₁
  unfold importMysqlAction at hok hfs₁
  rw [hread] at hok hfs₁
  have hfil : s.tables.filter (passes none) = s.tables := List.filter_eq_self.2 fun _ _ => rfl
  have hparse : parseSql text = (s.tables.map (ddlTable Mysql.toMysqlColumnType suffix)).mapM stmtOf := by
    unfold parseSql
    rw [htext, C17_read_back none suffix hsuf s (fun t ht _ => hp t ht), Option.bind_some, hfil]
  rw [hparse] at hok hfs₁
  have hex : (s.tables.filter fun t => decide (t.name ∉ split ',' (v' "excludes"ₛ))) = s.tables :=
    List.filter_eq_self.2 fun t ht => decide_eq_true (hx t ht)
  cases hm : (s.tables.map (ddlTable Mysql.toMysqlColumnType suffix)).mapM stmtOf with
  | none => rw [hm] at hok; cases hok
  | some sts =>
  rw [hm] at hok hfs₁
  dsimp only at hok hfs₁
  rw [importSql_eq, stated_excludes suffix _ s.tables sts hm, hex] at hok hfs₁
  cases hb : s.tables.mapM (thereAndBack suffix) with
  | none => rw [hb] at hok; cases hok
  | some us =>
  rw [hb] at hok hfs₁
  dsimp only [Option.map_some] at hok hfs₁
  set s₀ : Schema := { author := v' "author"ₛ, tables := us, version := v' "version"ₛ } with hs₀
  have hf := mapM_forall₂ hb
  have hnames : us.map (·.name) = s.tables.map (·.name) := (Lq.forall₂_map hf fun t u e => (thereAndBack_name e).1.symm).symm
  have hdt : DistinctTables s₀ := by
    have hn' : (us.map (·.name)).Nodup := by rw [hnames]; exact hd.1
    rw [List.Nodup, List.pairwise_map] at hn'
    exact hn'.imp fun h h' => h h'.2
  have hst₁ : Stored w fs₁ (v' "output"ₛ) (s₀.normalize w.sorter).1 := by
    rw [← hfs₁]
    exact save_stored ho hdt hok
  obtain ⟨tx, htx, hfiles⟩ := save_done hok
  rw [hfs₁] at hfiles
  have hperm : (s₀.normalize w.sorter).1.tables.Perm (us.map normTable) := (C02_normalize_frame w.sorter hw.sorter s₀ (toJson_ok htx)).1
  have hst' : Stored w fs₁ (v "input"ₛ) s := by
    obtain ⟨h1, s₂, t₂, h2, h3, h4, h5⟩ := hst
    refine ⟨h1, s₂, t₂, h2, h3, ?_, h5⟩
    rw [← h4, hfiles]
    unfold Files.at Files.set
    rw [if_neg hne', hfs']
    exact if_neg hne
  set s₁ := (s₀.normalize w.sorter).1 with hs₁
  have hplain : ∀ t ∈ s.tables, ∀ y, thereAndBack suffix t = some y → ∀ c ∈ y.columns, canon c.type = c.type := fun t ht y hy c hc =>
    colTypes_canon _ ((table_settles (hp t ht) (hk t ht) hy).1.columns c hc).type
  have hname₁ : (s₁.tables.map (·.name)).Perm (s.tables.map (·.name)) := by
    rw [← hnames]
    have := hperm.map (·.name)
    rw [List.map_map] at this
    exact this
  have hnn : ∀ y : Table, (normTable y).columns.map (·.name) = y.columns.map (·.name) := by
    intro y
    show (y.columns.map normColumn).map _ = _
    rw [List.map_map]
    rfl
  have hd₁ : DistinctNames s₁ := by
    refine ⟨hname₁.nodup_iff.2 hd.1, fun x hx => ?_⟩
    obtain ⟨y, hy, rfl⟩ := List.mem_map.1 (hperm.mem_iff.1 hx)
    obtain ⟨t, ht, e⟩ := forall₂_mem_right hf y hy
    rw [hnn, (table_found (hp t ht) (hk t ht) (hd.2 t ht) e).2.2.1]
    exact hd.2 t ht
  let back : Table → Option Table := fun t => (thereAndBack suffix t).map normTable
  have hto : ∀ t ∈ s.tables, ∃ u ∈ s₁.tables, u.name = t.name ∧ back t = some u := by
    intro t ht
    obtain ⟨y, hy, e⟩ := forall₂_mem_left hf t ht
    exact ⟨normTable y, hperm.mem_iff.2 (List.mem_map_of_mem hy), (thereAndBack_name e).1, by show Option.map _ _ = _; rw [e]; rfl⟩
  have hfrom : ∀ u ∈ s₁.tables, ∃ t ∈ s.tables, t.name = u.name ∧ back t = some u := by
    intro x hx
    obtain ⟨y, hy, rfl⟩ := List.mem_map.1 (hperm.mem_iff.1 hx)
    obtain ⟨t, ht, e⟩ := forall₂_mem_right hf y hy
    exact ⟨t, ht, (thereAndBack_name e).1.symm, by show Option.map _ _ = _; rw [e]; rfl⟩
  -- the diff of these tables
  have hpair : ∀ uc, ∀ t ∈ s.tables, ∀ y, back t = some y → (TableSame uc y t ↔ TableFound uc t) ∧
      y.columns.map (·.name) = t.columns.map (·.name) ∧ (TableSame uc y t → ∀ c ∈ t.columns, ∀ b ∈ y.columns, c.name = b.name →
        b.autoIncremental = c.autoIncremental) := by
    intro uc t ht x hx
    obtain ⟨y, hy, rfl⟩ := Option.map_eq_some_iff.1 hx
    obtain ⟨-, -, h3, -, -, h6⟩ := table_found (hp t ht) (hk t ht) (hd.2 t ht) hy
    refine ⟨(tableSame_norm (hplain t ht y hy)).trans (table_found_iff (hp t ht) (hk t ht) (hd.2 t ht) hy uc), (hnn y).trans h3,
      fun hs c hc b hb e => ?_⟩
    have htype := (hs.columns b hb c hc e.symm).type.1
    obtain ⟨b, hb', rfl⟩ := List.mem_map.1 hb
    have h7 := (h6 c hc b hb' e).1
    show (b.autoIncremental && decide (canon b.type ∈ integerTypes)) = _
    rw [h7]
    cases hca : c.autoIncremental with
    | false => rfl
    | true =>
      have : canon b.type = c.type := htype
      rw [this, Bool.true_and]
      exact decide_eq_true (stored_auto hw hst ht hc hca)
  have hload : load w fs₁ (v "input"ₛ) = some s := load_stored hw hst'
  have hload₁ : load w fs₁ (v' "output"ₛ) = some s₁ := load_stored hw hst₁
  obtain ⟨a, b, hab, hla, hlb⟩ : ∃ a b, (a = s ∧ b = s₁ ∨ a = s₁ ∧ b = s) ∧ load w fs₁ (u "from"ₛ) = some a ∧ load w fs₁ (u "to"ₛ) = some b := by
    rcases hu with ⟨e1, e2⟩ | ⟨e1, e2⟩
    · exact ⟨s, s₁, Or.inl ⟨rfl, rfl⟩, by rw [e1]; exact hload, by rw [e2]; exact hload₁⟩
    · exact ⟨s₁, s, Or.inr ⟨rfl, rfl⟩, by rw [e1]; exact hload₁, by rw [e2]; exact hload⟩
  have hda : DistinctNames a := by
    rcases hab with ⟨rfl, -⟩ | ⟨rfl, -⟩
    · exact hd
    · exact hd₁
  have hfu : getTableFilterFn (u "groups"ₛ) = none := by rw [hgu]; rfl
  constructor
  · have hact : (action w .diffFlyway u fs₁).files.at (u "output"ₛ) =
        some (.text (flyway (u "uniqueNameSuffix"ₛ) (getDiff (diffOption u a b) w.sched))) := by
      show (diffFlywayAction w u fs₁).files.at _ = _
      unfold diffFlywayAction withSchemas
      rw [withSchema_some hla, withSchema_some hlb]
      unfold write
      dsimp only
      rw [if_pos hwu]
      exact files_set_at _ _ _
    rw [hact, Option.some.injEq, Content.text.injEq, flyway_empty, C159_report_exact _ w.sched hw.sched hda]
    refine tablesSame_found hd.1 hd₁.1 hto hfrom (opt := diffOption u a b) hfu hab _ fun t ht y hy => ?_
    obtain ⟨h1, h2, h3⟩ := hpair (u.bool "comments"ₛ) t ht y hy
    refine ⟨⟨fun x => h1.1 x.1, fun x => ⟨h1.2 x, fun b hb c hc e => h3 (h1.2 x) c hc b hb e.symm⟩⟩,
      ⟨fun x => h1.1 (TableSame.symm h2.symm x.1), fun x => ⟨TableSame.symm h2 (h1.2 x), fun c hc b hb e => (h3 (h1.2 x) c hc b hb e).symm⟩⟩⟩
  · have hact : ((action w .diffLiquibase u fs₁).status = .ok ∧ (action w .diffLiquibase u fs₁).files.at (u "output"ₛ) = some (.changelog [])) ↔
        Lq.generate w.float { tableFilter := getTableFilterFn (u "groups"ₛ), diffFrom := a, diffTo := b, author := u "author"ₛ, useComments := u.bool "comments"ₛ } w.sched = some [] := by
      have : action w .diffLiquibase u fs₁ = diffLiquibaseAction w u fs₁ := rfl
      rw [this]
      unfold diffLiquibaseAction withSchemas
      rw [withSchema_some hla, withSchema_some hlb]
      dsimp only
      split
      · rename_i en
        rw [en]
        exact ⟨fun h => (by cases h.1), fun h => (by cases h)⟩
      · rename_i sets en
        rw [en]
        unfold write
        rw [if_pos hwu]
        dsimp only
        rw [files_set_at, Option.some.injEq, Content.changelog.injEq, Option.some.injEq]
        exact ⟨fun h => h.2, fun h => ⟨rfl, h⟩⟩
    rw [hact, C159_changelog_exact _ _ w.sched hw.sched hda]
    refine tablesSame_found hd.1 hd₁.1 hto hfrom
      (opt := { tableFilter := getTableFilterFn (u "groups"ₛ), diffFrom := a, diffTo := b, author := u "author"ₛ, useComments := u.bool "comments"ₛ })
      hfu hab _ fun t ht y hy => ?_
    obtain ⟨h1, h2, h3⟩ := hpair (u.bool "comments"ₛ) t ht y hy
    refine ⟨⟨fun x => h1.1 x.1, fun x => ⟨h1.2 x, fun b hb => by rw [← h2]; exact List.mem_map_of_mem hb,
        fun b hb c hc e ha => by rw [← h3 (h1.2 x) c hc b hb e.symm]; exact ha⟩⟩,
      ⟨fun x => h1.1 (TableSame.symm h2.symm x.1), fun x => ⟨TableSame.symm h2 (h1.2 x), fun c hc => by rw [h2]; exact List.mem_map_of_mem hc,
        fun c hc b hb e ha => by rw [h3 (h1.2 x) c hc b hb e]; exact ha⟩⟩⟩

/-- C160: the commands on a schema whose group, description and class name are lost; nothing is reported without `--comments`. -/
example : ∃ (w : World) (v v' u : Values) (fs : Files) (s : Schema), Stored w fs (v "input"ₛ) s ∧ s.tables.length = 1 ∧
    (∀ t ∈ s.tables, ¬ExpressibleTable t) ∧ (action w .importMysql v' (action w .exportMysql v fs).files).status = .ok ∧
    (action w .diffFlyway u (action w .importMysql v' (action w .exportMysql v fs).files).files).files.at (u "output"ₛ) = some (.text []) := by
  have hw : Faithful { demoWorld with sql := parseSql } := by
    obtain ⟨a, b, c, d, e, f⟩ := demo_faithful
    exact ⟨a, b, c, d, e, f⟩
  obtain ⟨fs, s, h1, h2⟩ := stored_demo hw (s := settledDemo) (by unfold DistinctTables; decide +kernel) (fun t ht =>
    ⟨(C04_accepts_iff tableSort tableSort_spec settledDemo).mp (by decide +kernel) t ht, by revert t; decide +kernel⟩)
  have hs : ∀ t ∈ s.tables, t ∈ settledDemo.tables := fun t h => h2.mem_iff.mp h
  have hone : s.tables = settledDemo.tables := List.perm_singleton.1 h2
  have hp : ∀ t ∈ s.tables, PlainTable t := fun t h => (settledDemo_tables t (hs t h)).1
  have hsts : ∃ sts, ((s.tables.filter (passes (getTableFilterFn []))).map (ddlTable Mysql.toMysqlColumnType "_u"ₛ)).mapM stmtOf =
      some sts := by
    rw [hone]
    refine Option.isSome_iff_exists.1 ?_
    decide +kernel
  obtain ⟨sts, hm⟩ := hsts
  have hone' := import_after_export (w := { demoWorld with sql := parseSql }) hw rfl
    (v := given [("input"ₛ, "a.json"ₛ), ("output"ₛ, "a.sql"ₛ), ("uniqueNameSuffix"ₛ, "_u"ₛ)])
    (v' := given [("input"ₛ, "a.sql"ₛ), ("output"ₛ, "b.json"ₛ)]) (us := exPortable.tables) h1 (by unfold UnescapedName; decide +kernel)
    (fun t h _ => hp t h) rfl (by decide +kernel) hm (by rw [hone]; decide +kernel)
  have hok := (save_status (w := { demoWorld with sql := parseSql }) hw.sorter
    (fs := fs.set (pathOf "a.sql"ₛ) (.text (Mysql.exportSchema (getTableFilterFn []) "_u"ₛ s)))
    (s := { tables := exPortable.tables }) (out := "b.json"ₛ) (by decide +kernel)).2
    ((C04_accepts_iff tableSort tableSort_spec { tables := exPortable.tables }).mp (by decide +kernel))
  have hok' := (congrArg Result.status hone').trans hok
  refine ⟨_, given [("input"ₛ, "a.json"ₛ), ("output"ₛ, "a.sql"ₛ), ("uniqueNameSuffix"ₛ, "_u"ₛ)],
    given [("input"ₛ, "a.sql"ₛ), ("output"ₛ, "b.json"ₛ)], given [("from"ₛ, "a.json"ₛ), ("to"ₛ, "b.json"ₛ), ("output"ₛ, "c.sql"ₛ)],
    fs, s, h1, h2.length_eq, ?_, hok', ?_⟩
  · intro t ht he
    have : ∀ t ∈ settledDemo.tables, t.group ≠ [] := by decide +kernel
    exact this t (hs t ht) he.noGroup
  refine (C160_commands_exact { demoWorld with sql := parseSql } hw rfl
    (given [("input"ₛ, "a.json"ₛ), ("output"ₛ, "a.sql"ₛ), ("uniqueNameSuffix"ₛ, "_u"ₛ)])
    (given [("input"ₛ, "a.sql"ₛ), ("output"ₛ, "b.json"ₛ)]) (given [("from"ₛ, "a.json"ₛ), ("to"ₛ, "b.json"ₛ), ("output"ₛ, "c.sql"ₛ)]) fs s h1
    (by unfold UnescapedName; decide +kernel) ⟨by rw [hone]; decide +kernel, by rw [hone]; decide +kernel⟩ hp
    (fun t h => (settledDemo_tables t (hs t h)).2) rfl (by decide +kernel) rfl (by decide +kernel) (fun t h => by
      have : ∀ t ∈ settledDemo.tables, t.name ∉ split ',' (given [("input"ₛ, "a.sql"ₛ), ("output"ₛ, "b.json"ₛ)] "excludes"ₛ) := by
        decide +kernel
      exact this t (hs t h)) (by decide +kernel) (by decide +kernel) hok' (Or.inl ⟨rfl, rfl⟩) rfl (by decide +kernel) rfl).1.2
    fun t ht => ⟨fun c hc => ?_, fun e => absurd e (by decide +kernel)⟩
  obtain ⟨y, hy, rfl⟩ := List.mem_map.1 (hs t ht)
  have hx := (exPortable_expressible y hy).columns c hc
  refine ⟨?_, hx.default, hx.autoNotNull⟩
  have hv : (if c.type = "enum"ₛ ∨ c.type = "set"ₛ then c.values else []) = c.values := by
    have : ∀ t ∈ exPortable.tables, ∀ c ∈ t.columns, (if c.type = "enum"ₛ ∨ c.type = "set"ₛ then c.values else []) = c.values := by
      decide +kernel
    exact this y hy c hc
  rw [hv]
  exact hx.type

end Octo.Cli
