import Verif.Props.ExactMysql
import Verif.Spec.Expressible

/-! Exact condition for whole schemas through MySQL, property C21. -/

namespace Octo
open Spec MysqlImport

theorem mem_keyNames {cs : List Column} {p : Column → Bool}
    (hn : ∀ c ∈ cs, ∀ d ∈ cs, c.name = d.name → p c = p d) {c : Column} (hc : c ∈ cs) :
    c.name ∈ (cs.filter p).map (·.name) ↔ p c = true := by
  constructor
  · intro h
    obtain ⟨d, hd, he⟩ := List.mem_map.1 h
    obtain ⟨hd1, hd2⟩ := List.mem_filter.1 hd
    rw [hn c hc d hd1 he.symm]; exact hd2
  · intro h
    exact List.mem_map.2 ⟨c, List.mem_filter.2 ⟨hc, h⟩, rfl⟩

/-- The keys collected from the constraints of a table are the names of its key columns. -/
theorem ddl_keys {suffix : Str} {t : Table} :
    ∃ k, (ddlConstraints suffix t).foldlM constraintStep {} = some k ∧
      (∀ x, k.pk.contains x = decide (x ∈ (t.columns.filter (·.primaryKey)).map (·.name))) ∧
      (∀ x, k.uniq.contains x = decide (x ∈ (t.columns.filter (·.uniqueKey)).map (·.name))) ∧
      k.indices = t.indices := by
  cases hk : (ddlConstraints suffix t).foldlM constraintStep {} with
  | none =>
    obtain ⟨cst, hm, -, hn⟩ := (constraints_none _ _).1 hk
    rcases mem_ddlConstraints.1 hm with ⟨-, rfl⟩ | ⟨-, rfl⟩ | ⟨i, -, rfl⟩ <;> simp at hn
  | some k =>
    obtain ⟨h1, h2, h3⟩ := constraints_spec _ _ _ hk
    refine ⟨k, rfl, fun x => ?_, fun x => ?_, ?_⟩
    · rw [Bool.eq_iff_iff]
      simp only [StringSet.contains, decide_eq_true_eq, h1, StringSet.empty, List.not_mem_nil, false_or, KeyedBy]
      constructor
      · rintro ⟨cst, hm, htp, hx⟩
        rcases mem_ddlConstraints.1 hm with ⟨-, rfl⟩ | ⟨-, rfl⟩ | ⟨i, -, rfl⟩
        · simpa using hx
        · cases htp
        · cases htp
      · intro hx
        refine ⟨_, mem_ddlConstraints.2 (Or.inl ⟨?_, rfl⟩), rfl, by simpa using hx⟩
        intro h0
        rw [h0] at hx
        cases hx
    · rw [Bool.eq_iff_iff]
      simp only [StringSet.contains, decide_eq_true_eq, h2, StringSet.empty, List.not_mem_nil, false_or, KeyedBy]
      constructor
      · rintro ⟨cst, hm, htp, hx⟩
        rcases mem_ddlConstraints.1 hm with ⟨-, rfl⟩ | ⟨-, rfl⟩ | ⟨i, -, rfl⟩
        · cases htp
        · simpa using hx
        · cases htp
      · intro hx
        refine ⟨_, mem_ddlConstraints.2 (Or.inr (Or.inl ⟨?_, rfl⟩)), rfl, by simpa using hx⟩
        intro h0
        rw [h0] at hx
        cases hx
    · have hfil : (ddlConstraints suffix t).filter (fun c => decide (c.tp = .index)) =
          t.indices.map fun i => { tp := .index, name := i.name, keys := i.columns.map some } := by
        have hself : (t.indices.map fun i => ({ tp := .index, name := i.name, keys := i.columns.map some } : Constraint)).filter
            (fun c => decide (c.tp = .index)) =
            t.indices.map fun i => { tp := .index, name := i.name, keys := i.columns.map some } := by
          rw [List.filter_eq_self]
          intro c hc
          obtain ⟨i, -, rfl⟩ := List.mem_map.1 hc
          rfl
        unfold ddlConstraints
        rw [List.filter_append, hself]
        cases t.columns.filter (·.primaryKey) <;> cases t.columns.filter (·.uniqueKey) <;> rfl
      rw [hfil, List.map_map] at h3
      have inj : Function.Injective fun i : Index => (i.name, i.columns.map some) := by
        rintro ⟨n, cs⟩ ⟨n', cs'⟩ he
        simp only [Prod.mk.injEq] at he
        obtain ⟨rfl, he⟩ := he
        rw [List.map_injective_iff.2 (Option.some_injective _) he]
      exact List.map_injective_iff.2 inj h3

/-- A default that comes back is portable. -/
theorem default_back {c : Column} (hk : KnownDefault c) (hne : c.defaultValue ≠ []) {e : Expr}
    (he : exprOf (valueMeaning c.type c.defaultValue) = some e) (hb : (exprText e).getD [] = c.defaultValue) :
    PortableDefault c.type c.defaultValue := by
  unfold valueMeaning at he
  by_cases hf : hasPrefix c.defaultValue "fn::"ₛ = true
  · rw [if_pos hf] at he
    dsimp only [exprOf] at he
    split at he
    · cases he
      exact Or.inr (Or.inl hb.symm)
    · cases he
  · rw [if_neg hf] at he
    by_cases ht : c.type = "char"ₛ ∨ c.type = "varchar"ₛ
    · exact Or.inr (Or.inr (Or.inl ⟨ht, hf⟩))
    · rw [if_neg ht] at he
      have hkl : KnownLiteral c.defaultValue := by
        rcases hk with h | h | h | h | h
        · exact absurd h hne
        · exact absurd h hf
        · exact absurd (Or.inl h) ht
        · exact absurd (Or.inr h) ht
        · exact h
      dsimp only [exprOf] at he
      split at he
      · cases he; exact absurd hb.symm hne
      · split at he
        · rename_i h1
          cases he
          have : c.defaultValue = "1"ₛ := hb.symm
          rw [this] at h1
          exact absurd h1 (by decide)
        · split at he
          · rename_i h1
            cases he
            have : c.defaultValue = "0"ₛ := hb.symm
            rw [this] at h1
            exact absurd h1 (by decide)
          · split at he
            · cases he; exact absurd hb.symm hne
            · rename_i n1 n2 n3 n4
              rcases hkl with h | h | h | h
              · simp only [List.mem_cons, List.not_mem_nil, or_false] at h
                rcases h with h | h | h
                · exact absurd h n1
                · exact absurd h n2
                · exact absurd h n3
              · exact Or.inr (Or.inr (Or.inr h))
              · exact absurd (Or.inl h) n4
              · exact absurd (Or.inr h) n4

theorem lastSaid_silent {α : Type} (d : α) (l r : List (Option α)) (h : ∀ x ∈ l, x = none) : lastSaid d (l ++ r) = lastSaid d r := by
  induction l with
  | nil => rfl
  | cons x l ih =>
    rw [List.cons_append, lastSaid_cons, h x List.mem_cons_self]
    exact ih fun x hx => h x (List.mem_cons_of_mem _ hx)

theorem lastSaid_nothing {α : Type} (d : α) (l : List (Option α)) (h : ∀ x ∈ l, x = none) : lastSaid d l = d := by
  have := lastSaid_silent d l [] h
  rwa [List.append_nil] at this

theorem map_none {α β : Type} (f : α → Option β) (l : List α) (h : ∀ x ∈ l, f x = none) : ∀ y ∈ l.map f, y = none := by
  intro y hy
  obtain ⟨x, hx, rfl⟩ := List.mem_map.1 hy
  exact h x hx

/-- The options of a column definition. -/
def columnOptions (n a : Bool) (dl ul : List Expr) (cm : Option Str) : List ColOption :=
  (if n = true then [ColOption.notNull] else []) ++ (if a = true then [ColOption.autoIncrement] else []) ++
    List.map ColOption.defaultValue dl ++ List.map ColOption.onUpdate ul ++ cm.toList.map ColOption.comment

theorem said_default (n a : Bool) (e : Expr) (ul : List Expr) (cm : Option Str) :
    lastSaid [] ((columnOptions n a [e] ul cm).map defaultSaid) = (exprText e).getD [] := by
  have h1 : ∀ y ∈ List.map defaultSaid (ul.map ColOption.onUpdate), y = none :=
    map_none _ _ fun x hx => by obtain ⟨_, _, rfl⟩ := List.mem_map.1 hx; rfl
  have h2 : ∀ y ∈ List.map defaultSaid (cm.toList.map ColOption.comment), y = none :=
    map_none _ _ fun x hx => by obtain ⟨_, _, rfl⟩ := List.mem_map.1 hx; rfl
  unfold columnOptions
  rw [List.map_append, List.map_append, List.map_append, List.map_append, List.append_assoc, List.append_assoc, List.append_assoc]
  rw [lastSaid_silent _ _ _ (by cases n <;> simp [defaultSaid]), lastSaid_silent _ _ _ (by cases a <;> simp [defaultSaid])]
  rw [List.map_cons, List.map_nil, List.map_cons, List.map_nil, List.cons_append, List.nil_append, lastSaid_cons,
    lastSaid_silent _ _ _ h1, lastSaid_nothing _ _ h2]
  rfl

theorem said_onUpdate (n a : Bool) (dl : List Expr) (e : Expr) (cm : Option Str) :
    lastSaid [] ((columnOptions n a dl [e] cm).map onUpdateSaid) = (exprText e).getD [] := by
  have h1 : ∀ y ∈ List.map onUpdateSaid (dl.map ColOption.defaultValue), y = none :=
    map_none _ _ fun x hx => by obtain ⟨_, _, rfl⟩ := List.mem_map.1 hx; rfl
  have h2 : ∀ y ∈ List.map onUpdateSaid (cm.toList.map ColOption.comment), y = none :=
    map_none _ _ fun x hx => by obtain ⟨_, _, rfl⟩ := List.mem_map.1 hx; rfl
  unfold columnOptions
  rw [List.map_append, List.map_append, List.map_append, List.map_append, List.append_assoc, List.append_assoc, List.append_assoc]
  rw [lastSaid_silent _ _ _ (by cases n <;> simp [onUpdateSaid]), lastSaid_silent _ _ _ (by cases a <;> simp [onUpdateSaid]),
    lastSaid_silent _ _ _ h1]
  rw [List.map_cons, List.map_nil, List.map_cons, List.map_nil, List.cons_append, List.nil_append, lastSaid_cons,
    lastSaid_nothing _ _ h2]
  rfl

theorem said_notNull (n : Bool) (dl ul : List Expr) (cm : Option Str) :
    lastSaid false ((columnOptions n true dl ul cm).map nullability) = true := by
  have h1 : ∀ y ∈ List.map nullability (dl.map ColOption.defaultValue), y = none :=
    map_none _ _ fun x hx => by obtain ⟨_, _, rfl⟩ := List.mem_map.1 hx; rfl
  have h2 : ∀ y ∈ List.map nullability (cm.toList.map ColOption.comment), y = none :=
    map_none _ _ fun x hx => by obtain ⟨_, _, rfl⟩ := List.mem_map.1 hx; rfl
  have h3 : ∀ y ∈ List.map nullability (ul.map ColOption.onUpdate), y = none :=
    map_none _ _ fun x hx => by obtain ⟨_, _, rfl⟩ := List.mem_map.1 hx; rfl
  have h4 : ∀ d : Bool, lastSaid d (List.map nullability (dl.map ColOption.defaultValue) ++
      (List.map nullability (ul.map ColOption.onUpdate) ++ List.map nullability (cm.toList.map ColOption.comment))) = d := by
    intro d
    rw [lastSaid_silent _ _ _ h1, lastSaid_silent _ _ _ h3, lastSaid_nothing _ _ h2]
  unfold columnOptions
  rw [List.map_append, List.map_append, List.map_append, List.map_append, List.append_assoc, List.append_assoc, List.append_assoc]
  cases n
  · rw [if_neg (by decide), if_pos rfl, List.map_nil, List.nil_append, List.map_cons, List.map_nil, List.cons_append, List.nil_append,
      lastSaid_cons, h4]
    rfl
  · rw [if_pos rfl, if_pos rfl, List.map_cons, List.map_cons, List.map_nil, List.cons_append, List.nil_append, List.cons_append,
      List.nil_append, lastSaid_cons, lastSaid_cons, h4]
    rfl

theorem no_primaryKey (n a : Bool) (dl ul : List Expr) (cm : Option Str) : ColOption.primaryKey ∉ columnOptions n a dl ul cm := by
  unfold columnOptions
  cases n <;> cases a <;> simp

/-- A column that comes back is expressible. -/
theorem column_back_exact {c : Column} (hp : PlainColumn c) (hkd : KnownDefault c) (k : Keys) (d : ColumnDef)
    (hd : columnDefOf (ddlColumn Mysql.toMysqlColumnType c) = some d) (hb : column k d = c) :
    Expressible c ∧ k.pk.contains c.name = c.primaryKey ∧ k.uniq.contains c.name = c.uniqueKey := by
  unfold columnDefOf ddlColumn at hd
  simp only [Option.bind_eq_some_iff] at hd
  obtain ⟨⟨base, args⟩, hr, f, hf, dl, hdl, ul, hul, hd⟩ := hd
  cases Option.some.inj hd
  unfold column at hb
  rw [← columnOptions] at hb
  simp only [foldl_optionStep] at hb
  have hty : columnType f = (c.type, c.size, c.scale) := by
    rw [← hb]
  have hval : columnValues c.type f = c.values := by
    conv_rhs => rw [← hb]
    rw [hty]
  have hdef : c.defaultValue = [] ∨ ∃ e, exprOf (valueMeaning c.type c.defaultValue) = some e ∧ dl = [e] := by
    by_cases h0 : c.defaultValue = []
    · exact Or.inl h0
    · rw [if_neg h0] at hdl
      simp only [optionOf, Option.map_eq_some_iff] at hdl
      obtain ⟨e, he, rfl⟩ := hdl
      exact Or.inr ⟨e, he, rfl⟩
  have hupd : c.onUpdate = [] ∨ ∃ e, updateExprOf (valueMeaning c.type c.onUpdate) = some e ∧ ul = [e] := by
    by_cases h0 : c.onUpdate = []
    · exact Or.inl h0
    · rw [if_neg h0] at hul
      simp only [optionOf, Option.map_eq_some_iff] at hul
      obtain ⟨e, he, rfl⟩ := hul
      exact Or.inr ⟨e, he, rfl⟩
  have s1 := congrArg Column.defaultValue hb
  have s2 := congrArg Column.onUpdate hb
  have s3 := congrArg Column.notNull hb
  have s4 := congrArg Column.ref hb
  have s5 := congrArg Column.primaryKey hb
  have s6 := congrArg Column.uniqueKey hb
  dsimp only at s1 s2 s3 s4 s5 s6
  refine ⟨⟨(C21_type_exact c hp.type hp.values).1 ⟨base, args, f, hr, hf, hty, hval⟩, ?_, ?_, ?_, s4.symm⟩, ?_, s6⟩
  · rcases hdef with h0 | ⟨e, he, rfl⟩
    · exact Or.inl h0
    · by_cases h0 : c.defaultValue = []
      · exact Or.inl h0
      refine default_back hkd h0 he ?_
      rw [said_default] at s1
      exact s1
  · rcases hupd with h0 | ⟨e, he, rfl⟩
    · exact Or.inl h0
    · rw [said_onUpdate] at s2
      right
      unfold updateExprOf at he
      split at he
      · split at he
        · cases he
          exact s2.symm
        · cases he
      · cases he
  · intro ha
    rw [ha, said_notNull] at s3
    exact s3.symm
  · rw [← s5, decide_eq_false (no_primaryKey _ _ _ _ _), Bool.or_false]

/-- One table there and back. -/
def thereAndBack (suffix : Str) (t : Table) : Option Table :=
  (stmtOf (ddlTable Mysql.toMysqlColumnType suffix t)).bind fun
    | .createTable n cols csts => importTable (n, cols, csts)
    | .other => none

theorem thereAndBack_eq (suffix : Str) (t : Table) : thereAndBack suffix t =
    ((t.columns.map (ddlColumn Mysql.toMysqlColumnType)).mapM columnDefOf).bind fun cols =>
      if cols = [] ∨ (ddlConstraints suffix t).any (·.keys.isEmpty) = true then none
      else importTable (t.name, cols, ddlConstraints suffix t) := by
  unfold thereAndBack stmtOf
  rw [filterMap_defColumn, filterMap_defConstraint]
  cases (t.columns.map (ddlColumn Mysql.toMysqlColumnType)).mapM columnDefOf with
  | none => rfl
  | some cols =>
    simp only [Option.bind_some]
    split <;> rfl

theorem forall₂_map_eq {α β : Type} {f : β → α} {P : α → β → Prop} {l : List α} {r : List β}
    (h : List.Forall₂ P l r) (he : r.map f = l) : ∀ a ∈ l, ∃ b, P a b ∧ f b = a := by
  induction h with
  | nil => intro a ha; cases ha
  | @cons a b l r hab _ ih =>
    rw [List.map_cons, List.cons.injEq] at he
    intro x hx
    rcases List.mem_cons.1 hx with rfl | hx
    · exact ⟨b, hab, he.1⟩
    · exact ih he.2 x hx

theorem keyless_iff (suffix : Str) (t : Table) : (ddlConstraints suffix t).any (·.keys.isEmpty) = true ↔ ∃ i ∈ t.indices, i.columns = [] := by
  rw [List.any_eq_true]
  constructor
  · rintro ⟨cst, hm, hk⟩
    rcases mem_ddlConstraints.1 hm with ⟨hne, rfl⟩ | ⟨hne, rfl⟩ | ⟨i, hi, rfl⟩
    · exact absurd (by simpa using hk) hne
    · exact absurd (by simpa using hk) hne
    · exact ⟨i, hi, by simpa using hk⟩
  · rintro ⟨i, hi, h0⟩
    exact ⟨_, mem_ddlConstraints.2 (Or.inr (Or.inr ⟨i, hi, rfl⟩)), by simp [h0]⟩

/-- C21, exactly, for one table: it comes back if and only if MySQL can express it. -/
theorem table_exact {suffix : Str} {t : Table} (hp : PlainTable t) (hkd : ∀ c ∈ t.columns, KnownDefault c) :
    thereAndBack suffix t = some t ↔ ExpressibleTable t := by
  obtain ⟨k, hk, kpk, kuq, kix⟩ := ddl_keys (suffix := suffix) (t := t)
  rw [thereAndBack_eq, Option.bind_eq_some_iff]
  constructor
  · rintro ⟨cols, hcols, h⟩
    split at h
    · cases h
    rename_i hno
    rw [not_or, keyless_iff] at hno
    unfold importTable at h
    rw [hk, Option.map_some] at h
    have ht := Option.some.inj h
    have hc := congrArg Table.columns ht
    have hd := congrArg Table.description ht
    have hg := congrArg Table.group ht
    have hn := congrArg Table.className ht
    dsimp only at hc hd hg hn
    have hf := List.forall₂_map_left_iff.1 (mapM_forall₂ hcols)
    have hall : ∀ c ∈ t.columns, Expressible c ∧ k.pk.contains c.name = c.primaryKey ∧ k.uniq.contains c.name = c.uniqueKey := by
      intro c hcm
      obtain ⟨d, h1, h2⟩ := forall₂_map_eq hf hc c hcm
      exact column_back_exact (hp.columns c hcm) (hkd c hcm) k d h1 h2
    refine ⟨fun c h => (hall c h).1, ?_, fun i hi h0 => hno.2 ⟨i, hi, h0⟩, ?_, hd.symm, hg.symm, hn.symm⟩
    · intro h0
      rw [h0] at hc
      exact hno.1 (List.map_eq_nil_iff.1 hc)
    · intro c hc' d hd' e
      rw [← (hall c hc').2.1, ← (hall c hc').2.2, ← (hall d hd').2.1, ← (hall d hd').2.2, e]
      exact ⟨rfl, rfl⟩
  · intro h
    obtain ⟨cols, hcols, hf⟩ := mapM_some_of (P := fun c d => ∀ k : Keys,
        k.pk.contains c.name = c.primaryKey → k.uniq.contains c.name = c.uniqueKey → column k d = c)
      (f := columnDefOf) (g := ddlColumn Mysql.toMysqlColumnType) (l := t.columns) (by
        intro c hc
        have hx := h.columns c hc
        obtain ⟨d, h1, h2, h3⟩ := column_back (c := c)
          ⟨hp.columns c hc, hx.type, hx.default, hx.onUpdate, hx.autoNotNull, hx.noRef⟩
        exact ⟨d, h1, h3⟩)
    refine ⟨cols, hcols, ?_⟩
    rw [if_neg]
    · unfold importTable
      rw [hk, Option.map_some]
      have hcolumns : cols.map (column k) = t.columns := by
        refine forall₂_map_back (Q := fun c => k.pk.contains c.name = c.primaryKey ∧ k.uniq.contains c.name = c.uniqueKey)
          (hf.imp fun c d hcd hq => hcd k hq.1 hq.2) fun c hc => ⟨?_, ?_⟩
        · rw [kpk, Bool.eq_iff_iff, decide_eq_true_eq]
          exact mem_keyNames (p := (·.primaryKey)) (fun c hc d hd e => (h.sameKeys c hc d hd e).1) hc
        · rw [kuq, Bool.eq_iff_iff, decide_eq_true_eq]
          exact mem_keyNames (p := (·.uniqueKey)) (fun c hc d hd e => (h.sameKeys c hc d hd e).2) hc
      simp only [hcolumns, kix]
      have hd := h.noDescription
      have hg := h.noGroup
      have hcn := h.noClassName
      obtain ⟨name, columns, description, group, className, indices⟩ := t
      simp only at hd hg hcn
      subst hd hg hcn
      rfl
    · rw [keyless_iff]
      rintro (h0 | ⟨i, hi, h0⟩)
      · subst h0
        exact h.hasColumns (List.length_eq_zero_iff.1 hf.length_eq)
      · exact h.indexed i hi h0

theorem mapM_self_iff {α : Type} {f : α → Option α} {l : List α} : l.mapM f = some l ↔ ∀ a ∈ l, f a = some a := by
  induction l with
  | nil => simp
  | cons x l ih =>
    rw [List.mapM_cons, List.forall_mem_cons, ← ih]
    cases hx : f x with
    | none => simp
    | some y =>
      cases hl : l.mapM f with
      | none => simp
      | some r => simp

/-- Statements of a script, all of them of tables, are imported one by one. -/
theorem stated_mapM (suffix : Str) (ts : List Table) :
    (((ts.map (ddlTable Mysql.toMysqlColumnType suffix)).mapM stmtOf).bind fun st => (statedTables [] st).mapM importTable) =
      ts.mapM (thereAndBack suffix) := by
  induction ts with
  | nil => rfl
  | cons t l ih =>
    rw [List.map_cons, List.mapM_cons, List.mapM_cons, ← ih]
    unfold thereAndBack
    cases hs : stmtOf (ddlTable Mysql.toMysqlColumnType suffix t) with
    | none => rfl
    | some st =>
      have : ∃ n cols csts, st = .createTable n cols csts := by
        unfold stmtOf at hs
        rw [Option.bind_eq_some_iff] at hs
        obtain ⟨cols, -, hs⟩ := hs
        dsimp only at hs
        split at hs
        · cases hs
        · cases hs; exact ⟨_, _, _, rfl⟩
      obtain ⟨n, cols, csts, rfl⟩ := this
      cases hl : (l.map (ddlTable Mysql.toMysqlColumnType suffix)).mapM stmtOf with
      | none =>
        simp only [bind, Option.bind_some, Option.bind_none, pure]
        cases importTable (n, cols, csts) <;> rfl
      | some sts =>
        simp only [bind, Option.bind_some, pure]
        have : statedTables [] (.createTable n cols csts :: sts) = (n, cols, csts) :: statedTables [] sts := by
          simp [statedTables]
        rw [this, List.mapM_cons]
        rfl

/-- C21, exactly: the selected tables of a schema whose texts need no escaping and whose literals are known come back unchanged if and
only if MySQL can express all of them. -/
theorem C21_exact (filter : Option (Table → Bool)) (suffix : Str) (hsuf : UnescapedName suffix) (s : Schema)
    (hp : ∀ t ∈ s.tables, passes filter t = true → PlainTable t)
    (hk : ∀ t ∈ s.tables, passes filter t = true → ∀ c ∈ t.columns, KnownDefault c) (author version : Str) :
    (parseSql (Mysql.exportSchema filter suffix s)).bind (importSql [] author version) =
        some { author := author, tables := s.tables.filter (passes filter), version := version } ↔
      ∀ t ∈ s.tables, passes filter t = true → ExpressibleTable t := by
  have e : (parseSql (Mysql.exportSchema filter suffix s)).bind (importSql [] author version) =
      ((s.tables.filter (passes filter)).mapM (thereAndBack suffix)).map fun ts =>
        { author := author, tables := ts, version := version } := by
    unfold parseSql
    rw [C17_read_back filter suffix hsuf s hp, Option.bind_some, ← stated_mapM]
    cases ((s.tables.filter (passes filter)).map (ddlTable Mysql.toMysqlColumnType suffix)).mapM stmtOf with
    | none => rfl
    | some sts =>
      simp only [Option.bind_some]
      exact importSql_eq ..
  rw [e, Option.map_eq_some_iff]
  have hinj : (∃ a, (s.tables.filter (passes filter)).mapM (thereAndBack suffix) = some a ∧
      ({ author := author, tables := a, version := version } : Schema) =
        { author := author, tables := s.tables.filter (passes filter), version := version }) ↔
      (s.tables.filter (passes filter)).mapM (thereAndBack suffix) = some (s.tables.filter (passes filter)) := by
    constructor
    · rintro ⟨a, ha, he⟩
      rw [ha, show a = _ from congrArg Schema.tables he]
    · intro h
      exact ⟨_, h, rfl⟩
  rw [hinj, mapM_self_iff]
  constructor
  · intro h t ht hf
    exact (table_exact (hp t ht hf) (hk t ht hf)).1 (h t (List.mem_filter.2 ⟨ht, hf⟩))
  · intro h t ht
    obtain ⟨h1, h2⟩ := List.mem_filter.1 ht
    exact (table_exact (hp t h1 h2) (hk t h1 h2)).2 (h t h1 h2)

/-- C21: a table that has all but an index without columns, a group and a signed default. -/
def exLost : Schema := { tables := exPortable.tables ++ exPortable.tables.map fun t => { t with
    name := "b"ₛ, group := "g"ₛ, indices := [⟨"i"ₛ, []⟩]
    columns := t.columns.map fun c => if c.name = "price"ₛ then { c with defaultValue := "-1"ₛ } else c } }

theorem exPortable_known : ∀ t ∈ exPortable.tables, ∀ c ∈ t.columns, KnownDefault c := by
  intro t ht c hc
  simp only [exPortable, List.mem_cons, List.not_mem_nil, or_false] at ht
  subst ht
  simp only [List.mem_cons, List.not_mem_nil, or_false] at hc
  rcases hc with rfl | rfl | rfl | rfl | rfl
  · exact Or.inl rfl
  · exact Or.inr (Or.inr (Or.inr (Or.inl rfl)))
  · exact Or.inr (Or.inl (by decide))
  · exact Or.inr (Or.inr (Or.inr (Or.inr (Or.inr (Or.inl ⟨0, by decide⟩)))))
  · exact Or.inl rfl

theorem exPortable_expressible : ∀ t ∈ exPortable.tables, ExpressibleTable t := by
  intro t ht
  have := exPortable_tables t ht
  refine ⟨fun c hc => ?_, this.hasColumns, this.indexed, fun c hc d hd e => ?_, this.noDescription, this.noGroup, this.noClassName⟩
  · have hx := this.portable c hc
    exact ⟨hx.portable, hx.defaultOk, hx.onUpdateOk, hx.autoNotNull, hx.noRef⟩
  · rw [List.inj_on_of_nodup_map this.distinct hc hd e]
    exact ⟨rfl, rfl⟩

/-- C21: both kinds of tables meet the hypotheses; one is expressible, the other is not. -/
example : (∀ t ∈ exLost.tables, PlainTable t ∧ ∀ c ∈ t.columns, KnownDefault c) ∧
    (∀ t ∈ exPortable.tables, ExpressibleTable t) ∧ ¬∀ t ∈ exLost.tables, ExpressibleTable t := by
  have hk0 := exPortable_known
  have hp0 := exPortable_tables
  refine ⟨?_, fun t ht => ?_, fun h => ?_⟩
  · intro t ht
    rcases List.mem_append.1 ht with ht | ht
    · exact ⟨(hp0 t ht).toPlainTable, hk0 t ht⟩
    · obtain ⟨u, hu, rfl⟩ := List.mem_map.1 ht
      have hw : Word "-1"ₛ := by unfold Word; decide
      have hcol : ∀ c ∈ u.columns.map (fun c => if c.name = "price"ₛ then { c with defaultValue := "-1"ₛ } else c),
          PlainColumn c ∧ KnownDefault c := by
        intro c hc
        obtain ⟨d, hd, rfl⟩ := List.mem_map.1 hc
        have hpd := (hp0 u hu).columns d hd
        split
        · refine ⟨⟨hpd.name, hpd.type, hpd.values, hpd.description, Or.inr (Or.inr ⟨by dsimp only; decide, ?_⟩), ?_⟩,
            Or.inr (Or.inr (Or.inr (Or.inr (Or.inr (Or.inr (Or.inl rfl))))))⟩
          · split
            · unfold Unescaped; dsimp only; decide
            · exact hw
          · exact hpd.onUpdate
        · exact ⟨hpd, hk0 u hu d hd⟩
      refine ⟨⟨by unfold Word; dsimp only; decide, fun c hc => (hcol c hc).1, ?_⟩, fun c hc => (hcol c hc).2⟩
      unfold UnescapedName
      dsimp only
      decide
  · exact exPortable_expressible t ht
  · have hm : ∃ t ∈ exLost.tables, t.group ≠ [] := by decide +kernel
    obtain ⟨t, ht, hg⟩ := hm
    exact hg (h t ht).noGroup

end Octo
