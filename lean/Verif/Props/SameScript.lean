import Verif.Props.DiffImported

/-! Property C161: the script of a schema that was exported to MySQL and imported again. -/

namespace Octo.Spec

/-- The definition of a column is the same after the import: the parser has no `tinyint(1)` that is a number, a default `NULL` or with a
sign is not read, and a column that counts up is never null. -/
structure SaidAgain (c : Column) : Prop where
  type : ¬(c.type = "int8"ₛ ∧ c.size = 1)
  default : c.type = "char"ₛ ∨ c.type = "varchar"ₛ ∨
    lower c.defaultValue ≠ "null"ₛ ∧ c.defaultValue.head? ≠ some '-' ∧ c.defaultValue.head? ≠ some '+'
  autoNotNull : c.autoIncremental = true → c.notNull = true

/-- The statement of a table is the same after the import: each definition is, and columns of one name are in the same keys. -/
structure SaidAgainTable (t : Table) : Prop where
  columns : ∀ c ∈ t.columns, SaidAgain c
  sameKeys : ∀ c ∈ t.columns, ∀ d ∈ t.columns, c.name = d.name → c.primaryKey = d.primaryKey ∧ c.uniqueKey = d.uniqueKey

end Octo.Spec

namespace Octo
open Spec MysqlImport

/-- The default that the import makes of a default. -/
theorem default_again {c : Column} (h0 : c.defaultValue ≠ []) {e : Expr} (he : exprOf (valueMeaning c.type c.defaultValue) = some e)
    {type : Str} (ht : c.type = "char"ₛ ∨ c.type = "varchar"ₛ → type = c.type) :
    ∃ dl, optionOf exprOf (if (exprText e).getD [] = [] then none else some (valueMeaning type ((exprText e).getD []))) = some dl ∧
      (dl = [e] ↔ c.type = "char"ₛ ∨ c.type = "varchar"ₛ ∨
        lower c.defaultValue ≠ "null"ₛ ∧ c.defaultValue.head? ≠ some '-' ∧ c.defaultValue.head? ≠ some '+') := by
  have one : ∀ v, v = "1"ₛ ∨ v = "0"ₛ → optionOf exprOf (if (exprText (.value (some v))).getD [] = [] then none
      else some (valueMeaning type ((exprText (.value (some v))).getD []))) = some [.value (some v)] := by
    intro v hv
    have h1 : (exprText (.value (some v))).getD [] = v := rfl
    have hb : v ≠ [] ∧ hasPrefix v "fn::"ₛ = false ∧ exprOf (.bare v) = some (.value (some v)) := by
      rcases hv with rfl | rfl <;> decide +kernel
    rw [h1, if_neg hb.1]
    unfold valueMeaning
    rw [if_neg (by rw [hb.2.1]; decide)]
    split
    · rfl
    · show (exprOf (.bare v)).map _ = _
      rw [hb.2.2]; rfl
  have f : ∀ l : Str, hasPrefix l "fn::"ₛ = true → l.head? = some 'f' ∧ lower l ≠ "null"ₛ := by
    intro l hl
    obtain ⟨r, rfl⟩ := (hasPrefix_iff _ _).1 hl
    refine ⟨rfl, fun e => ?_⟩
    have : lower ("fn::"ₛ ++ r) = lower "fn::"ₛ ++ lower r := List.map_append
    rw [this] at e
    have h1 : lower "fn::"ₛ = "fn::"ₛ := by decide
    rw [h1] at e
    exact absurd (List.cons.inj e).1 (by decide)
  unfold valueMeaning at he
  by_cases hf : hasPrefix c.defaultValue "fn::"ₛ = true
  · rw [if_pos hf] at he
    dsimp only [exprOf] at he
    split at he
    · cases he
      refine ⟨[.func "CURRENT_TIMESTAMP"ₛ], ?_, fun _ => Or.inr (Or.inr ?_), fun _ => rfl⟩
      · have h1 : (exprText (.func "CURRENT_TIMESTAMP"ₛ)).getD [] = "fn::CURRENT_TIMESTAMP"ₛ := rfl
        rw [h1, if_neg (by decide)]
        unfold valueMeaning
        rw [if_pos (by decide)]
        decide +kernel
      · rw [(f _ hf).1]
        exact ⟨(f _ hf).2, by decide, by decide⟩
    · cases he
  · rw [if_neg hf] at he
    have self : ∀ e', exprOf (.bare c.defaultValue) = some e' ∨ c.type = "char"ₛ ∨ c.type = "varchar"ₛ → e' = .value (some c.defaultValue) →
        optionOf exprOf (if c.defaultValue = [] then none else some (valueMeaning type c.defaultValue)) = some [e'] := by
      intro e' h1 h2
      rw [if_neg h0]
      unfold valueMeaning
      rw [if_neg hf]
      split
      · rw [h2]; rfl
      · rename_i hn
        rcases h1 with h1 | h1
        · show (exprOf (.bare _)).map _ = _
          rw [h1]; rfl
        · rw [ht h1] at hn
          exact absurd h1 hn
    by_cases hch : c.type = "char"ₛ ∨ c.type = "varchar"ₛ
    · rw [if_pos hch] at he
      cases he
      exact ⟨_, self _ (Or.inr hch) rfl, fun _ => by rw [← or_assoc]; exact Or.inl hch, fun _ => rfl⟩
    · rw [if_neg hch] at he
      have he' := he
      rw [← or_assoc]
      dsimp only [exprOf] at he
      split at he
      · rename_i n1
        cases he
        exact ⟨[], rfl, fun h => (by cases h), fun h => absurd n1 (h.resolve_left hch).1⟩
      · rename_i n1
        split at he
        · rename_i n2
          cases he
          refine ⟨_, one _ (Or.inl rfl), fun _ => Or.inr ⟨n1, ?_⟩, fun _ => rfl⟩
          constructor <;> intro hh <;> (cases hv : c.defaultValue with
            | nil => exact h0 hv
            | cons a l =>
              rw [hv] at hh n2
              cases Option.some.inj hh
              exact absurd (List.cons.inj n2).1 (by decide))
        · split at he
          · rename_i n2
            cases he
            refine ⟨_, one _ (Or.inr rfl), fun _ => Or.inr ⟨n1, ?_⟩, fun _ => rfl⟩
            constructor <;> intro hh <;> (cases hv : c.defaultValue with
              | nil => exact h0 hv
              | cons a l =>
                rw [hv] at hh n2
                cases Option.some.inj hh
                exact absurd (List.cons.inj n2).1 (by decide))
          · split at he
            · rename_i n4
              cases he
              exact ⟨[], rfl, fun h => (by cases h), fun h => n4.elim (fun n4 => absurd n4 (h.resolve_left hch).2.1)
                fun n4 => absurd n4 (h.resolve_left hch).2.2⟩
            · rename_i n4
              rw [not_or] at n4
              cases he
              exact ⟨_, self _ (Or.inl he') rfl, fun _ => Or.inr ⟨n1, n4⟩, fun _ => rfl⟩

theorem columnOptions_inj {n a n' a' : Bool} {dl ul dl' : List Expr} {cm : Option Str} :
    columnOptions n a dl ul cm = columnOptions n' a' dl' ul cm ↔ n = n' ∧ a = a' ∧ dl = dl' := by
  constructor
  · intro h
    have h1 := congrArg (ColOption.notNull ∈ ·) h
    have h2 := congrArg (ColOption.autoIncrement ∈ ·) h
    have h3 := congrArg (List.filterMap fun o => match o with | .defaultValue e => some e | _ => none) h
    have k : ∀ n a (dl : List Expr), (columnOptions n a dl ul cm).filterMap (fun o => match o with | .defaultValue e => some e | _ => none) = dl := by
      intro n a dl
      unfold columnOptions
      simp only [List.filterMap_append, List.filterMap_map]
      have e1 : List.filterMap ((fun o => match o with | ColOption.defaultValue e => some e | _ => none) ∘ ColOption.defaultValue) dl = dl := by
        have : ((fun o => match o with | ColOption.defaultValue e => some e | _ => none) ∘ ColOption.defaultValue) = some := rfl
        rw [this, List.filterMap_some]
      have e2 : List.filterMap ((fun o => match o with | ColOption.defaultValue e => some e | _ => none) ∘ ColOption.onUpdate) ul = [] := by
        rw [List.filterMap_eq_nil_iff]; intros; rfl
      have e3 : List.filterMap ((fun o => match o with | ColOption.defaultValue e => some e | _ => none) ∘ ColOption.comment) cm.toList = [] := by
        rw [List.filterMap_eq_nil_iff]; intros; rfl
      rw [e1, e2, e3]
      cases n <;> cases a <;> simp
    have m : ∀ n a (dl : List Expr), (ColOption.notNull ∈ columnOptions n a dl ul cm) = (n = true) := by
      intro n a dl
      unfold columnOptions
      cases n <;> cases a <;> simp
    rw [k, k] at h3
    simp only [m, said_auto] at h1 h2
    exact ⟨Bool.eq_iff_iff.2 (iff_of_eq h1), Bool.eq_iff_iff.2 (iff_of_eq h2), h3⟩
  · rintro ⟨rfl, rfl, rfl⟩
    rfl

theorem said_null (n : Bool) (dl ul : List Expr) (cm : Option Str) :
    lastSaid false ((columnOptions n false dl ul cm).map nullability) = n := by
  have h : ∀ y ∈ List.map nullability ((dl.map ColOption.defaultValue ++ ul.map ColOption.onUpdate) ++ cm.toList.map ColOption.comment), y = none :=
    map_none _ _ fun x hx => by
      simp only [List.mem_append, List.mem_map] at hx
      rcases hx with (⟨_, _, rfl⟩ | ⟨_, _, rfl⟩) | ⟨_, _, rfl⟩ <;> rfl
  unfold columnOptions
  rw [if_neg (c := false = true) Bool.false_ne_true, List.append_nil, List.append_assoc, List.append_assoc, ← List.append_assoc (List.map ColOption.defaultValue dl)]
  cases n
  · exact lastSaid_nothing _ _ (by simpa using h)
  · rw [if_pos rfl, List.map_append]
    show lastSaid false (some true :: _) = true
    rw [lastSaid_cons]
    exact lastSaid_nothing _ _ h

/-- The definition of a column after the import. -/
theorem column_again {c : Column} (hp : PlainColumn c) (k : Keys) (d : ColumnDef)
    (hd : columnDefOf (ddlColumn Mysql.toMysqlColumnType c) = some d) :
    columnDefOf (ddlColumn Mysql.toMysqlColumnType (column k d)) = some d ↔ SaidAgain c := by
  unfold columnDefOf ddlColumn at hd
  simp only [Option.bind_eq_some_iff] at hd
  obtain ⟨⟨base, args⟩, hr, f, hf, dl, hdl, ul, hul, hd⟩ := hd
  rw [← columnOptions] at hd
  obtain ⟨x, hx⟩ := type_back hp.type hp.values hr hf
  obtain ⟨b, as, f', h1, h2, h3⟩ := hx.again
  -- the type
  have htype : f' = f ↔ ¬(c.type = "int8"ₛ ∧ c.size = 1) := by
    constructor
    · rintro rfl ⟨e1, e2⟩
      rw [readType_eq hp.values (e := ("int8"ₛ, "tinyint"ₛ, .sized)) (by decide) e1] at hr
      cases Option.some.inj hr
      have hargs : typeArgs .sized c = if c.scale = 0 then ["1"ₛ] else ["1"ₛ, itoa c.scale.toNat] := by
        show (if c.size = 0 then [] else if c.scale = 0 then [itoa c.size.toNat] else [itoa c.size.toNat, itoa c.scale.toNat]) = _
        rw [e2, if_neg (by decide)]
        rfl
      have hf : fieldOf "tinyint"ₛ (typeArgs .sized c) = some f' := hf
      rw [hargs] at hf
      by_cases h0 : c.scale = 0
      · rw [if_pos h0] at hf
        have ht : fieldOf "tinyint"ₛ ["1"ₛ] = some { tp := .tiny, flen := 1 } := by decide +kernel
        rw [ht] at hf
        cases Option.some.inj hf
        have hb : columnType { tp := .tiny, flen := 1 } = ("boolean"ₛ, 0, 0) := by decide +kernel
        have hxt := hx.type
        rw [hb] at hxt
        have hxt : x.type = "boolean"ₛ := (congrArg Prod.fst hxt).symm
        have hm : ("boolean"ₛ, "bit"ₛ, TypeShape.oneBit) ∈ mysqlTypes := by decide
        rw [readType_eq (fun v hv => hp.values v (hx.fewer v hv)) hm hxt] at h1
        cases Option.some.inj h1
        have h2 : fieldOf "bit"ₛ ["1"ₛ] = some { tp := .tiny, flen := 1 } := h2
        exact absurd h2 (by decide +kernel)
      · rw [if_neg h0] at hf
        cases hf
    · exact fun h => h3.resolve_right h
  cases Option.some.inj hd
  -- the default
  have hdef : ∃ dl', optionOf exprOf (if lastSaid [] ((columnOptions c.notNull c.autoIncremental dl ul
        (if c.description = [] then none else some c.description)).map defaultSaid) = [] then none else
        some (valueMeaning x.type (lastSaid [] ((columnOptions c.notNull c.autoIncremental dl ul
        (if c.description = [] then none else some c.description)).map defaultSaid)))) = some dl' ∧
      (dl' = dl ↔ c.type = "char"ₛ ∨ c.type = "varchar"ₛ ∨
        lower c.defaultValue ≠ "null"ₛ ∧ c.defaultValue.head? ≠ some '-' ∧ c.defaultValue.head? ≠ some '+') := by
    by_cases h0 : c.defaultValue = []
    · rw [if_pos h0] at hdl
      cases Option.some.inj hdl
      refine ⟨[], ?_, fun _ => Or.inr (Or.inr ?_), fun _ => rfl⟩
      · rw [said_default_none]; rfl
      · rw [h0]; exact ⟨by decide, by decide, by decide⟩
    · rw [if_neg h0] at hdl
      simp only [optionOf, Option.map_eq_some_iff] at hdl
      obtain ⟨e, he, rfl⟩ := hdl
      rw [said_default]
      exact default_again h0 he hx.text
  obtain ⟨dl', hdl', hiff⟩ := hdef
  have hupd : optionOf updateExprOf (if lastSaid [] ((columnOptions c.notNull c.autoIncremental dl ul
        (if c.description = [] then none else some c.description)).map onUpdateSaid) = [] then none else
        some (valueMeaning x.type (lastSaid [] ((columnOptions c.notNull c.autoIncremental dl ul
        (if c.description = [] then none else some c.description)).map onUpdateSaid)))) = some ul := by
    by_cases h0 : c.onUpdate = []
    · rw [if_pos h0] at hul
      cases Option.some.inj hul
      rw [said_onUpdate_none]; rfl
    · rw [if_neg h0] at hul
      simp only [optionOf, Option.map_eq_some_iff] at hul
      obtain ⟨e, he, rfl⟩ := hul
      have he' : e = .func "CURRENT_TIMESTAMP"ₛ := by
        unfold updateExprOf at he
        split at he
        · split at he
          · cases he; rfl
          · cases he
        · cases he
      rw [said_onUpdate, he']
      have h1 : (exprText (.func "CURRENT_TIMESTAMP"ₛ)).getD [] = "fn::CURRENT_TIMESTAMP"ₛ := rfl
      rw [h1, if_neg (by decide)]
      unfold valueMeaning
      rw [if_pos (by decide)]
      decide +kernel
  have hcm : (if (if c.description = [] then none else some c.description).getD [] = [] then none else
      some ((if c.description = [] then none else some c.description).getD [])) = (if c.description = [] then none else some c.description) := by
    by_cases h0 : c.description = []
    · rw [if_pos h0]; rfl
    · rw [if_neg h0]
      show (if c.description = [] then none else some c.description) = _
      rw [if_neg h0]
  have hnn : lastSaid false ((columnOptions c.notNull c.autoIncremental dl ul
      (if c.description = [] then none else some c.description)).map nullability) = (c.notNull || c.autoIncremental) := by
    cases c.autoIncremental
    · rw [said_null, Bool.or_false]
    · rw [said_notNull, Bool.or_true]
  have hau : (false || decide (ColOption.autoIncrement ∈ columnOptions c.notNull c.autoIncremental dl ul
      (if c.description = [] then none else some c.description))) = c.autoIncremental := by
    rw [Bool.false_or, Bool.eq_iff_iff, decide_eq_true_eq]
    exact said_auto ..
  have htext : ∀ y : Column, y.type = x.type → y.size = x.size → y.scale = x.scale → y.values = x.values →
      Mysql.toMysqlColumnType y = Mysql.toMysqlColumnType x := by
    intro y e1 e2 e3 e4
    unfold Mysql.toMysqlColumnType Mysql.formatColumnType
    rw [e1, e2, e3, e4]
  have key : columnDefOf (ddlColumn Mysql.toMysqlColumnType (column k ⟨c.name, f,
      columnOptions c.notNull c.autoIncremental dl ul (if c.description = [] then none else some c.description)⟩)) =
      some ⟨c.name, f', columnOptions (c.notNull || c.autoIncremental) c.autoIncremental dl' ul
        (if c.description = [] then none else some c.description)⟩ := by
    obtain ⟨y, hy⟩ : ∃ y, y = column k ⟨c.name, f,
      columnOptions c.notNull c.autoIncremental dl ul (if c.description = [] then none else some c.description)⟩ := ⟨_, rfl⟩
    rw [← hy]
    unfold column at hy
    simp only [foldl_optionStep, hx.type, hx.values, said_comment, hnn, hau] at hy
    have ht := htext y (by rw [hy]) (by rw [hy]) (by rw [hy]) (by rw [hy])
    unfold columnDefOf ddlColumn
    dsimp only
    rw [ht, h1]
    subst hy
    simp only [Option.bind_some, h2, hdl', hupd, hcm]
    rfl
  rw [key, Option.some.injEq, ColumnDef.mk.injEq, htype, columnOptions_inj, hiff]
  constructor
  · rintro ⟨-, h1, h2, -, h3⟩
    exact ⟨h1, h3, fun ha => by rw [← h2, ha, Bool.or_true]⟩
  · rintro ⟨h1, h2, h3⟩
    refine ⟨rfl, h1, ?_, rfl, h2⟩
    cases ha : c.autoIncremental
    · exact Bool.or_false _
    · rw [h3 ha]; rfl

/-- The names of the columns that are in a key by their name. -/
theorem names_again (l : List Column) (p : Column → Bool) :
    (l.map (·.name)).filter (fun n => decide (n ∈ (l.filter p).map (·.name))) = (l.filter p).map (·.name) ↔
      ∀ c ∈ l, ∀ d ∈ l, c.name = d.name → p c = p d := by
  have hq : ∀ c ∈ l, p c = true → c.name ∈ (l.filter p).map (·.name) := fun c hc hpc =>
    List.mem_map.2 ⟨c, List.mem_filter.2 ⟨hc, hpc⟩, rfl⟩
  rw [List.filter_map]
  constructor
  · intro h
    have hl := congrArg List.length h
    rw [List.length_map, List.length_map] at hl
    have hpq : (l.filter ((fun n => decide (n ∈ (l.filter p).map (·.name))) ∘ (·.name))).filter p = l.filter p := by
      rw [List.filter_filter]
      refine List.filter_congr fun c hc => ?_
      cases hpc : p c
      · rfl
      · rw [Bool.true_and]
        exact decide_eq_true (hq c hc hpc)
    have hall : ∀ c ∈ l, c.name ∈ (l.filter p).map (·.name) → p c = true := by
      intro c hc hn
      refine List.length_filter_eq_length_iff.1 (by rw [hpq, hl]) c (List.mem_filter.2 ⟨hc, decide_eq_true hn⟩)
    intro c hc d hd e
    rw [Bool.eq_iff_iff]
    exact ⟨fun h => hall d hd (by rw [← e]; exact hq c hc h), fun h => hall c hc (by rw [e]; exact hq d hd h)⟩
  · intro h
    congr 1
    refine List.filter_congr fun c hc => ?_
    show decide (c.name ∈ _) = p c
    rw [Bool.eq_iff_iff, decide_eq_true_eq]
    refine ⟨fun hn => ?_, hq c hc⟩
    obtain ⟨d, hd, e⟩ := List.mem_map.1 hn
    obtain ⟨hd, hpd⟩ := List.mem_filter.1 hd
    rw [h c hc d hd e.symm]
    exact hpd

theorem ddlConstraints_eq {suffix : Str} {t u : Table} (hn : u.name = t.name) (hi : u.indices = t.indices) :
    ddlConstraints suffix u = ddlConstraints suffix t ↔
      (u.columns.filter (·.primaryKey)).map (·.name) = (t.columns.filter (·.primaryKey)).map (·.name) ∧
      (u.columns.filter (·.uniqueKey)).map (·.name) = (t.columns.filter (·.uniqueKey)).map (·.name) := by
  have some_names : ∀ a b : List Column, (a.map fun c => some c.name) = (b.map fun c => some c.name) ↔ a.map (·.name) = b.map (·.name) := by
    intro a b
    have : ∀ a : List Column, (a.map fun c => some c.name) = (a.map (·.name)).map some := fun a => (List.map_map ..).symm
    rw [this, this]
    exact (List.map_injective_iff.2 (Option.some_injective _)).eq_iff
  unfold ddlConstraints
  rw [hn, hi, List.append_left_inj]
  cases u.columns.filter (·.primaryKey) <;> cases t.columns.filter (·.primaryKey) <;>
    cases u.columns.filter (·.uniqueKey) <;> cases t.columns.filter (·.uniqueKey) <;>
    simp [← some_names]

theorem mapM_self {α β : Type} {f : α → Option β} {g : β → α} (l : List β) : (l.map g).mapM f = some l ↔ ∀ d ∈ l, f (g d) = some d := by
  induction l with
  | nil => simp
  | cons a l ih =>
    rw [List.map_cons, List.mapM_cons]
    cases h1 : f (g a) with
    | none => simp [h1]
    | some b =>
      cases h2 : (l.map g).mapM f with
      | none =>
        rw [h2] at ih
        simp only [List.forall_mem_cons, ← ih, h1]
        simp
      | some r =>
        rw [h2] at ih
        simp only [List.forall_mem_cons, ← ih, h1]
        simp

/-- The statement of a table after the import. -/
theorem table_again {suffix : Str} {t u : Table} (hp : PlainTable t) (h : thereAndBack suffix t = some u) :
    (∃ st, stmtOf (ddlTable Mysql.toMysqlColumnType suffix t) = some st) ∧
    (stmtOf (ddlTable Mysql.toMysqlColumnType suffix u) = stmtOf (ddlTable Mysql.toMysqlColumnType suffix t) ↔ SaidAgainTable t) := by
  obtain ⟨k, hk, kpk, kuq, kix⟩ := ddl_keys (suffix := suffix) (t := t)
  rw [thereAndBack_eq, Option.bind_eq_some_iff] at h
  obtain ⟨cols, hcols, h⟩ := h
  split at h
  · cases h
  rename_i hno
  unfold importTable at h
  rw [hk, Option.map_some] at h
  have hu := (Option.some.inj h).symm
  clear h
  have hst : stmtOf (ddlTable Mysql.toMysqlColumnType suffix t) = some (.createTable t.name cols (ddlConstraints suffix t)) := by
    unfold stmtOf
    rw [filterMap_defColumn, filterMap_defConstraint, hcols, Option.bind_some]
    dsimp only
    rw [if_neg hno]
    rfl
  refine ⟨⟨_, hst⟩, ?_⟩
  have hf := List.forall₂_map_left_iff.1 (mapM_forall₂ hcols)
  have hname : u.name = t.name := by rw [hu]
  have hcu : u.columns = cols.map (column k) := by rw [hu]
  have hiu : u.indices = t.indices := by rw [hu]; exact kix
  have hnames : u.columns.map (·.name) = t.columns.map (·.name) := by
    have : ∀ l r, List.Forall₂ (fun c d => columnDefOf (ddlColumn Mysql.toMysqlColumnType c) = some d) l r →
        (r.map (column k)).map (·.name) = l.map (·.name) := by
      intro l r h
      induction h with
      | nil => rfl
      | cons h _ ih =>
        simp only [List.map_cons]
        rw [(column_keys k k _).2, columnDefOf_name h, ih]
        rfl
    rw [hcu]
    exact this _ _ hf
  have hkeys : ∀ x ∈ u.columns, x.primaryKey = decide (x.name ∈ (t.columns.filter (·.primaryKey)).map (·.name)) ∧
      x.uniqueKey = decide (x.name ∈ (t.columns.filter (·.uniqueKey)).map (·.name)) := by
    intro x hx
    rw [hcu] at hx
    obtain ⟨d, hd, rfl⟩ := List.mem_map.1 hx
    obtain ⟨c, hc, hcd⟩ := forall₂_mem_right hf d hd
    rw [(column_keys k k d).2, ← kpk, ← kuq]
    unfold columnDefOf at hcd
    simp only [Option.bind_eq_some_iff] at hcd
    obtain ⟨_, _, _, _, _, _, _, _, hcd⟩ := hcd
    cases Option.some.inj hcd
    unfold column
    rw [← columnOptions]
    simp only [foldl_optionStep]
    rw [decide_eq_false (no_primaryKey _ _ _ _ _), Bool.or_false]
    exact ⟨rfl, trivial⟩
  have hpk : (u.columns.filter (·.primaryKey)).map (·.name) =
      (t.columns.map (·.name)).filter (fun n => decide (n ∈ (t.columns.filter (·.primaryKey)).map (·.name))) := by
    rw [← hnames, List.filter_map]
    congr 1
    exact List.filter_congr fun x hx => (hkeys x hx).1
  have huq : (u.columns.filter (·.uniqueKey)).map (·.name) =
      (t.columns.map (·.name)).filter (fun n => decide (n ∈ (t.columns.filter (·.uniqueKey)).map (·.name))) := by
    rw [← hnames, List.filter_map]
    congr 1
    exact List.filter_congr fun x hx => (hkeys x hx).2
  have hcon : ddlConstraints suffix u = ddlConstraints suffix t ↔
      ∀ c ∈ t.columns, ∀ d ∈ t.columns, c.name = d.name → c.primaryKey = d.primaryKey ∧ c.uniqueKey = d.uniqueKey := by
    rw [ddlConstraints_eq hname hiu, hpk, huq, names_again, names_again]
    exact ⟨fun h c hc d hd e => ⟨h.1 c hc d hd e, h.2 c hc d hd e⟩,
      fun h => ⟨fun c hc d hd e => (h c hc d hd e).1, fun c hc d hd e => (h c hc d hd e).2⟩⟩
  have hcol : (u.columns.map (ddlColumn Mysql.toMysqlColumnType)).mapM columnDefOf = some cols ↔ ∀ c ∈ t.columns, SaidAgain c := by
    rw [hcu, List.map_map, mapM_self]
    constructor
    · intro h c hc
      obtain ⟨d, hd, hcd⟩ := forall₂_mem_left hf c hc
      exact (column_again (hp.columns c hc) k d hcd).1 (h d hd)
    · intro h d hd
      obtain ⟨c, hc, hcd⟩ := forall₂_mem_right hf d hd
      exact (column_again (hp.columns c hc) k d hcd).2 (h c hc)
  rw [hst]
  unfold stmtOf
  rw [filterMap_defColumn, filterMap_defConstraint]
  constructor
  · intro h
    rw [Option.bind_eq_some_iff] at h
    obtain ⟨cols', hcols', h⟩ := h
    dsimp only at h
    split at h
    · cases h
    have h := Stmt.createTable.inj (Option.some.inj h)
    rw [h.2.1] at hcols'
    exact ⟨hcol.1 hcols', hcon.1 h.2.2⟩
  · rintro ⟨h1, h2⟩
    rw [hcol.2 h1, hcon.2 h2, Option.bind_some]
    dsimp only
    rw [if_neg hno]
    show some (Stmt.createTable u.name _ _) = _
    rw [hname]

theorem mapM_pair {α β γ : Type} {f : α → Option γ} {g : β → Option γ} {l : List α} {r : List β} {P : α → Prop}
    (h : List.Forall₂ (fun a b => (∃ x, f a = some x) ∧ (g b = f a ↔ P a)) l r) : r.mapM g = l.mapM f ↔ ∀ a ∈ l, P a := by
  induction h with
  | nil => simp
  | @cons a b l r hab hlr ih =>
    obtain ⟨⟨x, hx⟩, hab⟩ := hab
    obtain ⟨y, hy⟩ : ∃ y, l.mapM f = some y := by
      clear ih
      induction hlr with
      | nil => exact ⟨[], rfl⟩
      | cons h _ ih =>
        obtain ⟨x, hx⟩ := h.1
        obtain ⟨y, hy⟩ := ih
        exact ⟨x :: y, by rw [List.mapM_cons, hx, hy]; rfl⟩
    rw [hx] at hab
    rw [hy] at ih
    rw [List.mapM_cons, List.mapM_cons, List.forall_mem_cons, ← hab, ← ih, hx, hy]
    cases g b <;> cases r.mapM g <;> simp

/-- C161: when what was exported to MySQL and imported is exported again, the script says the same, exactly when each column and the
keys of each table do. -/
theorem C161_script_exact (filter : Option (Table → Bool)) (suffix : Str) (hsuf : UnescapedName suffix)
    (s : Schema) (hp : ∀ t ∈ s.tables, passes filter t = true → PlainTable t)
    (hk : ∀ t ∈ s.tables, passes filter t = true → ∀ c ∈ t.columns, KnownDefault c) (author version : Str) {s' : Schema}
    (h : (parseSql (Mysql.exportSchema filter suffix s)).bind (importSql [] author version) = some s') :
    parseSql (Mysql.exportSchema none suffix s') = parseSql (Mysql.exportSchema filter suffix s) ↔
      ∀ t ∈ s.tables, passes filter t = true → SaidAgainTable t := by
  rw [import_eq filter suffix hsuf s hp, Option.map_eq_some_iff] at h
  obtain ⟨ts, hts, rfl⟩ := h
  have hf := mapM_forall₂ hts
  have hmem : ∀ t ∈ s.tables.filter (passes filter), t ∈ s.tables ∧ passes filter t = true := fun t ht => List.mem_filter.1 ht
  unfold parseSql
  rw [C17_read_back filter suffix hsuf s hp, C17_read_back none suffix hsuf _ fun u hu _ => by
    obtain ⟨t, ht, htu⟩ := forall₂_mem_right hf u hu
    exact (table_settles (hp t (hmem t ht).1 (hmem t ht).2) (hk t (hmem t ht).1 (hmem t ht).2) htu).1]
  rw [Option.bind_some, Option.bind_some]
  have hnone : List.filter (passes none) ts = ts := List.filter_eq_self.2 fun _ _ => rfl
  show ((List.filter (passes none) ts).map _).mapM _ = _ ↔ _
  rw [hnone, List.mapM_map, List.mapM_map]
  rw [mapM_pair (P := SaidAgainTable)]
  · exact ⟨fun h t ht hpt => h t (List.mem_filter.2 ⟨ht, hpt⟩), fun h t ht => h t (hmem t ht).1 (hmem t ht).2⟩
  · have : ∀ l r, (∀ t ∈ l, PlainTable t) → List.Forall₂ (fun t u => thereAndBack suffix t = some u) l r →
        List.Forall₂ (fun t u => (∃ x, (stmtOf ∘ ddlTable Mysql.toMysqlColumnType suffix) t = some x) ∧
          ((stmtOf ∘ ddlTable Mysql.toMysqlColumnType suffix) u = (stmtOf ∘ ddlTable Mysql.toMysqlColumnType suffix) t ↔ SaidAgainTable t)) l r := by
      intro l r hl h
      induction h with
      | nil => exact .nil
      | cons h _ ih =>
        exact .cons (table_again (hl _ List.mem_cons_self) h) (ih fun t ht => hl t (List.mem_cons_of_mem _ ht))
    exact this _ _ (fun t ht => hp t (hmem t ht).1 (hmem t ht).2) hf

/-- A `tinyint(1)`, which is imported as a boolean. -/
def tinyUser : Schema := oneUser [{ plainId with type := "int8"ₛ, size := 1 }]

/-- A default with a sign, which is not imported. -/
def signedUser : Schema := oneUser [{ plainId with defaultValue := "-1"ₛ }]

/-- C161 is violated: by a `tinyint(1)`, by a default with a sign, and by a column that counts up and may be null. -/
theorem C161_violated (author version : Str) : ∀ s ∈ [tinyUser, signedUser, autoUser], ∃ s',
    (parseSql (Mysql.exportSchema none "_uq"ₛ s)).bind (importSql [] author version) = some s' ∧
    parseSql (Mysql.exportSchema none "_uq"ₛ s') ≠ parseSql (Mysql.exportSchema none "_uq"ₛ s) := by
  have hsuf : UnescapedName "_uq"ₛ := by unfold UnescapedName; decide
  have key : ∀ s, Scriptable "_uq"ₛ s → (∀ t ∈ s.tables, ∀ c ∈ t.columns, KnownDefault c) →
      (∃ ts, (s.tables.filter (passes none)).mapM (thereAndBack "_uq"ₛ) = some ts) → (¬∀ t ∈ s.tables, SaidAgainTable t) →
      ∃ s', (parseSql (Mysql.exportSchema none "_uq"ₛ s)).bind (importSql [] author version) = some s' ∧
        parseSql (Mysql.exportSchema none "_uq"ₛ s') ≠ parseSql (Mysql.exportSchema none "_uq"ₛ s) := by
    rintro s hs hk ⟨ts, hts⟩ hno
    obtain ⟨s', hb⟩ : ∃ s', (parseSql (Mysql.exportSchema none "_uq"ₛ s)).bind (importSql [] author version) = some s' := by
      rw [import_eq none _ hsuf s (fun t ht _ => (hs.plain t ht).1), hts]
      exact ⟨_, rfl⟩
    refine ⟨s', hb, fun e => hno fun t ht => ?_⟩
    exact (C161_script_exact none _ hsuf s (fun t ht _ => (hs.plain t ht).1) (fun t ht _ => hk t ht) author version hb).1 e t ht rfl
  have known : ∀ {c : Column} {v : Str}, KnownDefault c → ∀ t ∈ (oneUser [c]).tables, ∀ d ∈ t.columns, KnownDefault d := by
    intro c v h t ht d hd
    cases List.mem_singleton.1 ht; cases List.mem_singleton.1 hd
    exact h
  simp only [List.forall_mem_cons, List.not_mem_nil, false_implies, implies_true, and_true]
  refine ⟨key _ (scriptable_of_check _ (s := tinyUser) (by decide +kernel)) (known (v := []) (Or.inl rfl))
      (Option.isSome_iff_exists.1 (by decide +kernel)) fun h => ?_,
    key _ (scriptable_of_check _ (s := signedUser) (by decide +kernel)) (known (v := []) ?_)
      (Option.isSome_iff_exists.1 (by decide +kernel)) fun h => ?_,
    key _ (scriptable_of_check _ (s := autoUser) (by decide +kernel)) (known (v := []) (Or.inl rfl))
      (Option.isSome_iff_exists.1 (by decide +kernel)) fun h => ?_⟩
  · exact ((h _ List.mem_cons_self).columns _ List.mem_cons_self).type ⟨rfl, rfl⟩
  · exact Or.inr (Or.inr (Or.inr (Or.inr (Or.inr (Or.inr (Or.inl (by decide)))))))
  · rcases ((h _ List.mem_cons_self).columns _ List.mem_cons_self).default with e | e | e
    · exact absurd e (by decide)
    · exact absurd e (by decide)
    · exact e.2.1 rfl
  · exact absurd (((h _ List.mem_cons_self).columns _ List.mem_cons_self).autoNotNull rfl) (by decide)

/-- C161: the import loses groups, descriptions and class names of tables, but the script is the same. -/
example : ∃ s', (parseSql (Mysql.exportSchema none "_u"ₛ settledDemo)).bind (importSql [] [] []) = some s' ∧ s' ≠ settledDemo ∧ s'.tables ≠ [] ∧
    parseSql (Mysql.exportSchema none "_u"ₛ s') = parseSql (Mysql.exportSchema none "_u"ₛ settledDemo) := by
  have h1 : UnescapedName "_u"ₛ := by unfold UnescapedName; decide +kernel
  have hb : ((settledDemo.tables.filter (passes none)).mapM (thereAndBack "_u"ₛ)) = some exPortable.tables := by
    decide +kernel
  have h : (parseSql (Mysql.exportSchema none "_u"ₛ settledDemo)).bind (importSql [] [] []) = some { tables := exPortable.tables } := by
    rw [import_eq none _ h1 settledDemo fun t ht _ => (settledDemo_tables t ht).1, hb]
    rfl
  refine ⟨_, h, by decide +kernel, by decide +kernel, (C161_script_exact none _ h1 settledDemo (fun t ht _ => (settledDemo_tables t ht).1)
    (fun t ht _ => (settledDemo_tables t ht).2) [] [] h).2 fun t ht _ => ⟨fun c hc => ?_, ?_⟩⟩
  · have : ∀ t ∈ settledDemo.tables, ∀ c ∈ t.columns, ¬(c.type = "int8"ₛ ∧ c.size = 1) ∧ (c.type = "char"ₛ ∨ c.type = "varchar"ₛ ∨
        lower c.defaultValue ≠ "null"ₛ ∧ c.defaultValue.head? ≠ some '-' ∧ c.defaultValue.head? ≠ some '+') ∧
        (c.autoIncremental = true → c.notNull = true) := by decide +kernel
    obtain ⟨a, b, d⟩ := this t ht c hc
    exact ⟨a, b, d⟩
  · have : ∀ t ∈ settledDemo.tables, ∀ c ∈ t.columns, ∀ d ∈ t.columns, c.name = d.name →
        c.primaryKey = d.primaryKey ∧ c.uniqueKey = d.uniqueKey := by decide +kernel
    exact this t ht

end Octo
