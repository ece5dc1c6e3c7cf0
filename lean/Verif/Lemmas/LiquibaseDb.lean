import Verif.Lemmas.Liquibase
import Verif.Lemmas.MigrateDb
import Verif.Lemmas.Octopus
import Verif.Spec.Liquibase

/-! Executing the changelogs. -/

namespace Octo.Lq
open Octo Spec

/-! ### Types, defaults, names -/

theorem lqTypeName_eq (ty : Str) : lqTypeName ty = (lqTypeTable.lookup (lower ty)).getD ty := by
  unfold lqTypeName lqTypeTable
  simp only [lookup_cons_getD, List.lookup_nil, Option.getD_none]

theorem getLiquibaseType_eq (c : Column) : getLiquibaseType c = lqTypeText c := by
  have h1 : c.size > 0 ↔ ¬c.size = 0 := by
    rw [gt_iff_lt, UInt16.lt_iff_toNat_lt, ← UInt16.toNat_inj, UInt16.toNat_zero]; omega
  have h2 : c.scale > 0 ↔ ¬c.scale = 0 := by
    rw [gt_iff_lt, UInt16.lt_iff_toNat_lt, ← UInt16.toNat_inj, UInt16.toNat_zero]; omega
  unfold getLiquibaseType lqTypeText
  rw [← lqTypeName_eq]
  by_cases hs : c.size = 0
  · rw [if_neg (by rw [h1]; exact fun h => h hs), if_pos hs, List.append_nil]
  · rw [if_pos (h1.2 hs), if_neg hs]
    by_cases hc : c.scale = 0
    · rw [if_neg (by rw [h2]; exact fun h => h hc), if_pos hc]
      simp only [List.append_assoc, List.append_nil]
    · rw [if_pos (h2.2 hc), if_neg hc]
      simp only [List.append_assoc]

theorem atoi_intText (n : Int) (h1 : -2 ^ 63 ≤ n) (h2 : n < 2 ^ 63) : atoi (intText n) = some n := by
  have hd := itoa_digits n.natAbs
  have hne := itoa_ne_nil n.natAbs
  have hall : (itoa n.natAbs).all isDigit = true := List.all_eq_true.2 hd
  have he : (itoa n.natAbs).isEmpty = false := by simpa using hne
  by_cases hn : n < 0
  · have e : intText n = '-' :: itoa n.natAbs := by rw [intText, if_pos hn]
    rw [e]
    unfold atoi
    have hp : hasPrefix ('-' :: itoa n.natAbs) "-"ₛ = true := by
      rw [hasPrefix_iff]; exact ⟨itoa n.natAbs, rfl⟩
    simp only [hp, Bool.true_or, if_true, List.drop_succ_cons, List.drop_zero, hall, he, Bool.not_true, Bool.or_self,
      Bool.false_eq_true, if_false, digitsVal_itoa]
    rw [if_pos (by omega)]
    congr 1; omega
  · have e : intText n = itoa n.natAbs := by rw [intText, if_neg hn]
    rw [e]
    unfold atoi
    have hsgn : ∀ c, isDigit c = false → hasPrefix (itoa n.natAbs) [c] = false := by
      intro c hc
      cases hx : hasPrefix (itoa n.natAbs) [c]
      · rfl
      · obtain ⟨r, hr⟩ := (hasPrefix_iff _ _).1 hx
        have := hd c (by rw [hr]; simp)
        rw [this] at hc; cases hc
    have h3 : hasPrefix (itoa n.natAbs) "-"ₛ = false := hsgn '-' (by decide)
    have h4 : hasPrefix (itoa n.natAbs) "+"ₛ = false := hsgn '+' (by decide)
    simp only [h3, h4, Bool.or_self, Bool.false_eq_true, if_false, hall, he, Bool.not_true, digitsVal_itoa]
    rw [if_pos (by omega)]
    congr 1; omega

theorem isBooleanType_iff (ty : Str) : isBooleanType ty = true ↔ lower ty ∈ ["bool"ₛ, "boolean"ₛ] := by
  unfold isBooleanType
  generalize lower ty = x
  simp only [List.any_cons, List.any_nil, Bool.or_eq_true, beq_iff_eq, Bool.or_false, List.mem_cons, List.not_mem_nil, or_false]

theorem isIntType_iff (ty : Str) :
    isIntType ty = true ↔ lower ty ∈ ["long"ₛ, "bigint"ₛ, "int"ₛ, "smallint"ₛ] := by
  unfold isIntType
  generalize lower ty = x
  simp only [List.any_cons, List.any_nil, Bool.or_eq_true, beq_iff_eq, Bool.or_false, List.mem_cons, List.not_mem_nil, or_false]

theorem mem_eight {α : Type} (x a b c d e f g h : α) :
    x ∈ [a, b, c, d, e, f, g, h] ↔ x ∈ [a, b, c, h] ∨ x ∈ [d, e, f, g] := by
  simp only [List.mem_cons, List.not_mem_nil, or_false]
  constructor
  · rintro (h | h | h | h | h | h | h | h) <;> simp [h]
  · rintro ((h | h | h | h) | (h | h | h | h)) <;> simp [h]

theorem any_eq_iff_mem (x : Str) (l : List Str) : l.any (fun t => x == t) = true ↔ x ∈ l := by
  rw [List.any_eq_true]
  constructor
  · rintro ⟨y, hy, e⟩; rw [beq_iff_eq.1 e]; exact hy
  · intro h; exact ⟨x, h, by simp⟩

theorem isNumericType_iff (ty : Str) : isNumericType ty = true ↔
    lower ty ∈ ["decimal"ₛ, "float"ₛ, "double"ₛ, "number"ₛ] ∨ lower ty ∈ ["long"ₛ, "bigint"ₛ, "int"ₛ, "smallint"ₛ] := by
  unfold isNumericType
  rw [any_eq_iff_mem, mem_eight]

theorem isDateType_iff (ty : Str) : isDateType ty = true ↔ lower ty ∈ ["date"ₛ, "datetime"ₛ] := by
  unfold isDateType
  generalize lower ty = x
  simp only [List.any_cons, List.any_nil, Bool.or_eq_true, beq_iff_eq, Bool.or_false, List.mem_cons, List.not_mem_nil, or_false]

theorem isStringType_not {ty : Str} (h : isStringType ty = true) :
    lower ty ∉ ["bool"ₛ, "boolean"ₛ] ∧ lower ty ∉ ["long"ₛ, "bigint"ₛ, "int"ₛ, "smallint"ₛ] ∧
    lower ty ∉ ["decimal"ₛ, "float"ₛ, "double"ₛ, "number"ₛ] := by
  unfold isStringType at h
  refine ⟨?_, ?_, ?_⟩ <;> intro h' <;> simp only [List.mem_cons, List.not_mem_nil, or_false] at h'
  · rcases h' with e | e <;> rw [e] at h <;> revert h <;> decide
  · rcases h' with e | e | e | e <;> rw [e] at h <;> revert h <;> decide
  · rcases h' with e | e | e | e <;> rw [e] at h <;> revert h <;> decide

theorem givenDefault_text {v : Str} (hv : v ≠ []) : givenDefault { text := v } = some (.literal v) := by
  unfold givenDefault
  rw [if_neg (fun e => hv (congrArg DefaultValue.text e))]
  rfl

theorem givenDefault_date {v : Str} (hv : v ≠ []) : givenDefault { date := v } = some (.literal v) := by
  unfold givenDefault
  rw [if_neg (fun e => hv (congrArg DefaultValue.date e))]
  simp only [defaultText]
  rw [if_neg hv]

theorem givenDefault_boolean (b : Bool) :
    givenDefault { boolean := some b } = some (.literal (if b then "true"ₛ else "false"ₛ)) := by
  cases b <;> rfl

theorem givenDefault_int (n : Int) : givenDefault { numeric := some (.int n) } = some (.literal (intText n)) := by
  unfold givenDefault
  rw [if_neg (fun e => by cases congrArg DefaultValue.numeric e)]
  rfl

theorem givenDefault_float (x : Str) : givenDefault { numeric := some (.float x) } = some (.literal x) := by
  unfold givenDefault
  rw [if_neg (fun e => by cases congrArg DefaultValue.numeric e)]
  rfl

/-- The text of an integer that `atoi` accepts is in range. -/
theorem atoi_range {s : Str} {n : Int} (h : atoi s = some n) : -2 ^ 63 ≤ n ∧ n < 2 ^ 63 := by
  unfold atoi at h
  dsimp only at h
  generalize (if (hasPrefix s "-"ₛ || hasPrefix s "+"ₛ) = true then List.drop 1 s else s) = ds at h
  by_cases h1 : (ds.isEmpty || !ds.all isDigit) = true
  · rw [if_pos h1] at h; cases h
  rw [if_neg h1] at h
  by_cases h2 : hasPrefix s "-"ₛ = true
  · rw [if_pos h2] at h
    by_cases h3 : digitsVal ds ≤ 2 ^ 63
    · rw [if_pos h3] at h
      have := Option.some.inj h
      omega
    · rw [if_neg h3] at h; cases h
  · rw [if_neg h2] at h
    by_cases h3 : digitsVal ds < 2 ^ 63
    · rw [if_pos h3] at h
      have := Option.some.inj h
      omega
    · rw [if_neg h3] at h; cases h

/-- A default value is written as it is meant exactly if it is plain. -/
theorem newLqDefaultValue_iff {pf : Str → Option Str} {c : Column} (hv : c.defaultValue ≠ []) :
    (∃ dv, newLqDefaultValue pf c = some dv ∧ givenDefault dv = defaultMeaning c.defaultValue) ↔ PlainDefault pf c := by
  have hm : ∀ x : Str, some (LqValue.literal x) = defaultMeaning c.defaultValue ↔
      hasPrefix c.defaultValue "fn::"ₛ = false ∧ x = c.defaultValue := by
    intro x
    unfold defaultMeaning
    rw [if_neg hv]
    by_cases hf : hasPrefix c.defaultValue "fn::"ₛ = true
    · rw [if_pos hf]
      refine ⟨fun h => ?_, fun h => ?_⟩
      · cases h
      · rw [hf] at h; cases h.1
    · rw [if_neg hf]
      refine ⟨fun h => ⟨Bool.eq_false_iff.2 hf, ?_⟩, fun h => by rw [h.2]⟩
      injection h with h
      injection h
  unfold PlainDefault newLqDefaultValue
  by_cases h1 : isStringType c.type = true
  · rw [if_pos h1]
    obtain ⟨n1, n2, n3⟩ := isStringType_not h1
    constructor
    · rintro ⟨dv, hd, hg⟩ -
      rw [← Option.some.inj hd, givenDefault_text hv, hm] at hg
      exact ⟨hg.1, fun h => absurd h n1, fun h => absurd h n2, fun h => absurd h n3⟩
    · intro h
      refine ⟨_, rfl, ?_⟩
      rw [givenDefault_text hv, hm]
      exact ⟨(h hv).1, rfl⟩
  rw [if_neg h1]
  by_cases h2 : isBooleanType c.type = true
  · have hb := (isBooleanType_iff _).1 h2
    have n2 : lower c.type ∉ ["long"ₛ, "bigint"ₛ, "int"ₛ, "smallint"ₛ] ∧
        lower c.type ∉ ["decimal"ₛ, "float"ₛ, "double"ₛ, "number"ₛ] := by
      generalize lower c.type = x at hb
      simp only [List.mem_cons, List.not_mem_nil, or_false] at hb
      rcases hb with rfl | rfl <;> decide
    rw [if_pos h2]
    constructor
    · rintro ⟨dv, hd, hg⟩ -
      rw [← Option.some.inj hd, givenDefault_boolean, hm] at hg
      refine ⟨hg.1, fun _ => ?_, fun h => absurd h n2.1, fun h => absurd h n2.2⟩
      rw [← hg.2]
      split
      · exact List.mem_cons_self
      · exact List.mem_cons_of_mem _ List.mem_cons_self
    · intro h
      refine ⟨_, rfl, ?_⟩
      rw [givenDefault_boolean, hm]
      obtain ⟨h3, h4, _⟩ := h hv
      refine ⟨h3, ?_⟩
      rcases List.mem_cons.1 (h4 hb) with e | e
      · rw [e]; decide
      · rw [List.mem_singleton.1 e]; decide
  rw [if_neg h2]
  have nb : lower c.type ∉ ["bool"ₛ, "boolean"ₛ] := fun h => h2 ((isBooleanType_iff _).2 h)
  by_cases h3 : isNumericType c.type = true
  · rw [if_pos h3]
    by_cases h4 : isIntType c.type = true
    · have hi := (isIntType_iff _).1 h4
      have n3 : lower c.type ∉ ["decimal"ₛ, "float"ₛ, "double"ₛ, "number"ₛ] := by
        generalize lower c.type = x at hi
        simp only [List.mem_cons, List.not_mem_nil, or_false] at hi
        rcases hi with rfl | rfl | rfl | rfl <;> decide
      rw [if_pos h4]
      constructor
      · rintro ⟨dv, hd, hg⟩ -
        obtain ⟨n, hn, rfl⟩ := Option.map_eq_some_iff.1 hd
        rw [givenDefault_int, hm] at hg
        exact ⟨hg.1, fun h => absurd h nb, fun _ => ⟨n, (atoi_range hn).1, (atoi_range hn).2, hg.2.symm⟩,
          fun h => absurd h n3⟩
      · intro h
        obtain ⟨h5, _, h6, _⟩ := h hv
        obtain ⟨n, hn1, hn2, e⟩ := h6 hi
        refine ⟨{ numeric := some (.int n) }, ?_, ?_⟩
        · rw [e, atoi_intText n hn1 hn2]; rfl
        · rw [givenDefault_int, hm]
          exact ⟨h5, e.symm⟩
    · rw [if_neg h4]
      have n2 : lower c.type ∉ ["long"ₛ, "bigint"ₛ, "int"ₛ, "smallint"ₛ] := fun h => h4 ((isIntType_iff _).2 h)
      have hn : lower c.type ∈ ["decimal"ₛ, "float"ₛ, "double"ₛ, "number"ₛ] :=
        ((isNumericType_iff _).1 h3).resolve_right n2
      constructor
      · rintro ⟨dv, hd, hg⟩ -
        obtain ⟨x, hx, rfl⟩ := Option.map_eq_some_iff.1 hd
        rw [givenDefault_float, hm] at hg
        exact ⟨hg.1, fun h => absurd h nb, fun h => absurd h n2, fun _ => by rw [hx, hg.2]⟩
      · intro h
        obtain ⟨h5, _, _, h6⟩ := h hv
        refine ⟨{ numeric := some (.float c.defaultValue) }, by rw [h6 hn]; rfl, ?_⟩
        rw [givenDefault_float, hm]
        exact ⟨h5, rfl⟩
  rw [if_neg h3]
  have n2 : lower c.type ∉ ["long"ₛ, "bigint"ₛ, "int"ₛ, "smallint"ₛ] :=
    fun h => h3 ((isNumericType_iff _).2 (Or.inr h))
  have n3 : lower c.type ∉ ["decimal"ₛ, "float"ₛ, "double"ₛ, "number"ₛ] :=
    fun h => h3 ((isNumericType_iff _).2 (Or.inl h))
  by_cases h5 : isDateType c.type = true
  · rw [if_pos h5]
    constructor
    · rintro ⟨dv, hd, hg⟩ -
      rw [← Option.some.inj hd, givenDefault_date hv, hm] at hg
      exact ⟨hg.1, fun h => absurd h nb, fun h => absurd h n2, fun h => absurd h n3⟩
    · intro h
      refine ⟨_, rfl, ?_⟩
      rw [givenDefault_date hv, hm]
      exact ⟨(h hv).1, rfl⟩
  · rw [if_neg h5]
    constructor
    · rintro ⟨dv, hd, hg⟩ -
      rw [← Option.some.inj hd, givenDefault_text hv, hm] at hg
      exact ⟨hg.1, fun h => absurd h nb, fun h => absurd h n2, fun h => absurd h n3⟩
    · intro h
      refine ⟨_, rfl, ?_⟩
      rw [givenDefault_text hv, hm]
      exact ⟨(h hv).1, rfl⟩

/-- A plain default is written as it is meant. -/
theorem newLqDefaultValue_plain {pf : Str → Option Str} {c : Column} (h : PlainDefault pf c) (hv : c.defaultValue ≠ []) :
    ∃ dv, newLqDefaultValue pf c = some dv ∧ givenDefault dv = defaultMeaning c.defaultValue :=
  (newLqDefaultValue_iff hv).2 h

theorem trimSpace_space (s : Str) : trimSpace (' ' :: s) = trimSpace s := by
  unfold trimSpace
  rw [List.dropWhile_cons_of_pos (by decide)]

theorem listed_join {l : List Str} (hne : l ≠ []) (h : ∀ n ∈ l, CleanName n) : listed (join ", "ₛ l) = l := by
  unfold listed
  induction l with
  | nil => exact absurd rfl hne
  | cons x r ih =>
    obtain ⟨hx1, hx2⟩ := h x (by simp)
    cases r with
    | nil =>
      have : join ", "ₛ [x] = x := by simp [join]
      rw [this, split_no_sep hx1, List.map_singleton, hx2]
    | cons y r =>
      have ih' := ih (by simp) (fun n hn => h n (by simp [hn]))
      have e : join ", "ₛ (x :: y :: r) = x ++ ',' :: (' ' :: join ", "ₛ (y :: r)) := by
        rw [join_cons_cons]; simp
      rw [e, split_append_sep hx1, List.map_cons, hx2]
      congr 1
      rw [split_cons_ne (by decide), List.map_cons, trimSpace_space]
      cases hs : split ',' (join ", "ₛ (y :: r)) with
      | nil => exact absurd hs (split_ne_nil _ _)
      | cons a b => rw [hs] at ih'; simpa using ih'

/-! ### Columns -/

/-- A column element for `c` with the expected content. -/
structure ColumnFor (uc inPk inUq : Bool) (c : Column) (lc : LqColumn) : Prop where
  name : lc.name = c.name
  attr : lqColumnAttr lc = { lqAttrOf uc c with notNull := c.notNull || (c.primaryKey && inPk) }
  pk : inlinePk lc = (c.primaryKey && inPk)
  unique : inlineUnique lc = (c.uniqueKey && inUq)

theorem newLqColumn_plain {pf : Str → Option Str} {c : Column} (h : PlainDefault pf c) (uc sepPk sepUq : Bool) :
    ∃ lc, newLqColumn pf c sepPk sepUq = some lc ∧ ColumnFor uc (!sepPk) (!sepUq) c (stripRemarks uc lc) := by
  have hcon : ∀ dv : DefaultValue, givenDefault dv = defaultMeaning c.defaultValue →
      ColumnFor uc (!sepPk) (!sepUq) c (stripRemarks uc
        { name := c.name, type := getLiquibaseType c, remarks := c.description
          autoIncrement := if c.autoIncremental then some true else none
          constraints := newConstraints c sepPk sepUq, default := dv }) := by
    intro dv hdv
    refine ⟨?_, ?_, ?_, ?_⟩
    · cases uc <;> rfl
    · cases uc <;>
      simp only [stripRemarks, if_true, Bool.false_eq_true, if_false, lqColumnAttr, lqAttrOf, getLiquibaseType_eq, hdv,
        inlineNotNull, inlinePk, newConstraints, LqAttr.mk.injEq, true_and, and_true]
      all_goals (cases c.notNull <;> cases c.primaryKey <;> cases sepPk <;> cases c.uniqueKey <;> cases sepUq <;>
        cases c.autoIncremental <;> decide)
    · cases uc <;>
      simp only [stripRemarks, if_true, Bool.false_eq_true, if_false, inlinePk, newConstraints]
      all_goals (cases c.notNull <;> cases c.primaryKey <;> cases sepPk <;> cases c.uniqueKey <;> cases sepUq <;> decide)
    · cases uc <;>
      simp only [stripRemarks, if_true, Bool.false_eq_true, if_false, inlineUnique, newConstraints]
      all_goals (cases c.notNull <;> cases c.primaryKey <;> cases sepPk <;> cases c.uniqueKey <;> cases sepUq <;> decide)
  by_cases hv : c.defaultValue = []
  · refine ⟨_, by unfold newLqColumn; dsimp only; rw [if_neg (by simpa using hv)], ?_⟩
    exact hcon {} (by rw [hv]; rfl)
  · obtain ⟨dv, h1, h2⟩ := newLqDefaultValue_plain h hv
    refine ⟨_, by unfold newLqColumn; dsimp only; rw [if_pos hv, h1, Option.map_some], ?_⟩
    exact hcon dv h2

theorem createColumns_plain {pf : Str → Option Str} {t : Table} (h : ∀ c ∈ t.columns, PlainDefault pf c) (uc : Bool) :
    ∃ lcs, createColumns pf t uc = some lcs ∧
      List.Forall₂ (ColumnFor uc (!decide (t.primaryKeyNameSet.size > 1)) (!decide (t.uniqueKeyNameSet.size > 1)))
        t.columns lcs := by
  unfold createColumns
  have : ∀ cs : List Column, (∀ c ∈ cs, PlainDefault pf c) → ∀ a b : Bool, ∃ lcs,
      (cs.mapM fun c => (newLqColumn pf c a b).map (stripRemarks uc)) = some lcs ∧
      List.Forall₂ (ColumnFor uc (!a) (!b)) cs lcs := by
    intro cs hcs a b
    induction cs with
    | nil => exact ⟨[], rfl, .nil⟩
    | cons c cs ih =>
      obtain ⟨lcs, h1, h2⟩ := ih (fun c hc => hcs c (by simp [hc]))
      obtain ⟨lc, h3, h4⟩ := newLqColumn_plain (hcs c (by simp)) uc a b
      refine ⟨stripRemarks uc lc :: lcs, ?_, .cons h4 h2⟩
      rw [List.mapM_cons, h1, h3]; rfl
  exact this _ h _ _

/-! ### Running change sets -/

/-- What change sets do to the database. -/
def setsOps (env : LqEnv) (ps : Sets) : List (DbOp LqAttr) :=
  ps.flatMap fun p => if p.1 && !env.listed then [] else p.2.flatMap (lqOps env)

theorem setsOps_append (env : LqEnv) (a b : Sets) : setsOps env (a ++ b) = setsOps env a ++ setsOps env b := by
  simp [setsOps]

theorem setsOps_cons (env : LqEnv) (p : Bool × List LqChange) (b : Sets) :
    setsOps env (p :: b) = (if p.1 && !env.listed then [] else p.2.flatMap (lqOps env)) ++ setsOps env b := by
  simp [setsOps]

theorem setsOps_one (env : LqEnv) (c : LqChange) : setsOps env [(false, [c])] = lqOps env c := by
  simp [setsOps]

theorem setsOps_whenS (env : LqEnv) (b : Bool) (cs : List LqChange) :
    setsOps env (whenS b cs) = if b then cs.flatMap (lqOps env) else [] := by
  cases b <;> simp [setsOps, whenS]

theorem changelogOps_stamp (env : LqEnv) (author : Str) (m k : Nat) (ps : Sets) :
    changelogOps env (stamp author m (fromSets k ps)) = setsOps env ps := by
  induction ps generalizing k with
  | nil => rfl
  | cons p ps ih =>
    have := ih (k + 1)
    simp only [changelogOps, stamp, fromSets, List.map_cons, List.flatMap_cons] at this ⊢
    rw [setsOps_cons, ← this]

theorem changelogOps_append (env : LqEnv) (a b : List LqChangeSet) :
    changelogOps env (a ++ b) = changelogOps env a ++ changelogOps env b := by
  simp [changelogOps]

theorem changelogOps_number (env : LqEnv) (author : Str) (m : Nat) (pss : List Sets) :
    changelogOps env (number author m (pss.map (fromSets 0))) = pss.flatMap (setsOps env) := by
  induction pss generalizing m with
  | nil => rfl
  | cons ps pss ih =>
    rw [List.map_cons, number, changelogOps_append, changelogOps_stamp, ih, List.flatMap_cons]

/-- Statements that make columns not null. -/
theorem tRuns_notNulls (ns : List Str) (T : DbTable LqAttr) (h : ∀ n ∈ ns, (T.cols n).isSome) :
    TRuns (ns.map fun n => TOp.modify n fun g : LqAttr => { g with notNull := true }) T
      { T with cols := fun m => if m ∈ ns then (T.cols m).map fun g => { g with notNull := true } else T.cols m } := by
  induction ns generalizing T with
  | nil => simp [TRuns]
  | cons n ns ih =>
    obtain ⟨g, hg⟩ := Option.isSome_iff_exists.1 (h n (by simp))
    refine ⟨{ T with cols := upd T.cols n (some { g with notNull := true }) }, ⟨g, hg, rfl⟩, ?_⟩
    have := ih { T with cols := upd T.cols n (some { g with notNull := true }) } (by
      intro m hm
      by_cases e : m = n
      · simp [upd, e]
      · simp only [upd_ne _ _ e]; exact h m (by simp [hm]))
    convert this using 1
    congr 1
    funext m
    by_cases e : m = n
    · subst e
      by_cases hm : m ∈ ns <;> simp [hg, upd, hm]
    · by_cases hm : m ∈ ns <;> simp [hm, upd, e]

theorem size_le_one {s : StringSet} (h : ¬s.size > 1) {a b : Str} (ha : a ∈ s.keys) (hb : b ∈ s.keys) : a = b := by
  obtain ⟨l⟩ := s
  simp only [StringSet.size] at h
  match l, h, ha, hb with
  | [], _, ha, _ => cases ha
  | [x], _, ha, hb => rw [List.mem_singleton.1 ha, List.mem_singleton.1 hb]
  | x :: y :: r, h, _, _ => simp at h

theorem listed_slice {s : StringSet} (hne : s.size > 0) (h : ∀ n ∈ s.keys, CleanName n) :
    listed (s.joinKeys ", "ₛ) = s.slice := by
  refine listed_join ?_ (fun n hn => h n (mem_slice.1 hn))
  intro e
  have := (slice_perm s).length_eq
  rw [e] at this
  simp only [StringSet.size] at hne
  simp at this
  omega

theorem size_pos_primary {t : Table} :
    t.primaryKeyNameSet.size > 0 ↔ ∃ c ∈ t.columns, c.primaryKey = true := by
  rw [StringSet.size, gt_iff_lt, List.length_pos_iff_exists_mem]
  constructor
  · rintro ⟨n, hn⟩
    obtain ⟨c, h1, h2, _⟩ := mem_primaryKeyNameSet.1 hn
    exact ⟨c, h1, h2⟩
  · rintro ⟨c, h1, h2⟩
    exact ⟨c.name, mem_primaryKeyNameSet.2 ⟨c, h1, h2, rfl⟩⟩

theorem forall₂_left {α β : Type} {R : α → β → Prop} {l : List α} {r : List β} (h : List.Forall₂ R l r) {a : α}
    (ha : a ∈ l) : ∃ b ∈ r, R a b := by
  induction h with
  | nil => cases ha
  | cons h1 _ ih =>
    rcases List.mem_cons.1 ha with rfl | ha
    · exact ⟨_, by simp, h1⟩
    · obtain ⟨b, hb, hr⟩ := ih ha; exact ⟨b, by simp [hb], hr⟩

theorem forall₂_right {α β : Type} {R : α → β → Prop} {l : List α} {r : List β} (h : List.Forall₂ R l r) {b : β}
    (hb : b ∈ r) : ∃ a ∈ l, R a b := by
  induction h with
  | nil => cases hb
  | cons h1 _ ih =>
    rcases List.mem_cons.1 hb with rfl | hb
    · exact ⟨_, by simp, h1⟩
    · obtain ⟨b, hb, hr⟩ := ih hb; exact ⟨b, by simp [hb], hr⟩

theorem forall₂_map {α β γ : Type} {R : α → β → Prop} {l : List α} {r : List β} (h : List.Forall₂ R l r)
    {f : α → γ} {g : β → γ} (hfg : ∀ a b, R a b → f a = g b) : l.map f = r.map g := by
  induction h with
  | nil => rfl
  | cons h1 _ ih => rw [List.map_cons, List.map_cons, hfg _ _ h1, ih]

theorem le_one_of_names {α : Type} (name : α → Str) {l : List α} (hn : (l.map name).Nodup)
    (h : ∀ a ∈ l, ∀ b ∈ l, name a = name b) : l = [] ∨ ∃ a, l = [a] := by
  match l, hn, h with
  | [], _, _ => exact Or.inl rfl
  | [a], _, _ => exact Or.inr ⟨a, rfl⟩
  | a :: b :: r, hn, h =>
    have := h a (by simp) b (by simp)
    simp [this] at hn

theorem two_of_size {s : StringSet} (h : s.size ≥ 2) (hd : s.keys.Nodup) : ∃ a b, a ≠ b ∧ a ∈ s.keys ∧ b ∈ s.keys := by
  obtain ⟨l⟩ := s
  simp only [StringSet.size] at h
  match l, h, hd with
  | x :: y :: r, _, hd =>
    refine ⟨x, y, ?_, List.mem_cons_self, List.mem_cons_of_mem _ List.mem_cons_self⟩
    rintro rfl
    exact (List.nodup_cons.1 hd).1 List.mem_cons_self

theorem size_of_two {s : StringSet} {a b : Str} (hab : a ≠ b) (ha : a ∈ s.keys) (hb : b ∈ s.keys) : s.size ≥ 2 := by
  by_contra h
  exact hab (size_le_one (by omega) ha hb)

/-- What creating a table does after the table has been made. -/
def createTOps (env : LqEnv) (suffix : Str) (t : Table) (lcs : List LqColumn) : List (TOp LqAttr) :=
        (lcs.map (fun lc => .addColumn lc.name (lqColumnAttr lc)) ++
        ((if lcs.any inlinePk then [.addPrimaryKey fun m => ∃ lc ∈ lcs, inlinePk lc = true ∧ lc.name = m] else []) ++
        ((lcs.filter inlineUnique).map (fun lc => .createUnique (env.sysName t.name lc.name) fun m => m = lc.name) ++
        ((if t.primaryKeyNameSet.size ≥ 2 then
          lqTableOps env (.addPrimaryKey t.name (t.primaryKeyNameSet.joinKeys ", "ₛ)) else []) ++
        (if t.uniqueKeyNameSet.size ≥ 1 ∧ ¬(decide (t.uniqueKeyNameSet.size = 1) && !env.listed) = true then
          [TOp.createUnique (t.name ++ suffix) fun n => n ∈ listed (t.uniqueKeyNameSet.joinKeys ", "ₛ)] else [])))))

theorem setsOps_create (env : LqEnv) (suffix : Str) (t : Table) (lcs : List LqColumn) :
    setsOps env ((false, [.createTable t.name t.description lcs]) ::
      (whenS (decide (t.primaryKeyNameSet.size ≥ 2))
        [.addPrimaryKey t.name (t.primaryKeyNameSet.joinKeys ", "ₛ)] ++
      (if t.uniqueKeyNameSet.size ≥ 1 then
        [(decide (t.uniqueKeyNameSet.size = 1),
          [.addUniqueConstraint t.name (t.uniqueKeyNameSet.joinKeys ", "ₛ) (t.name ++ suffix)])] else []))) =
      DbOp.createTable t.name emptyTable :: List.map (DbOp.alter t.name) (createTOps env suffix t lcs) := by
  unfold createTOps
  rw [setsOps_cons, setsOps_append, setsOps_whenS]
  have h1 : lqOps env (.createTable t.name t.description lcs) =
    DbOp.createTable t.name emptyTable :: List.map (DbOp.alter t.name)
      (lcs.map (fun lc => .addColumn lc.name (lqColumnAttr lc)) ++
      ((if lcs.any inlinePk then [.addPrimaryKey fun m => ∃ lc ∈ lcs, inlinePk lc = true ∧ lc.name = m] else []) ++
      ((lcs.filter inlineUnique).map (fun lc => .createUnique (env.sysName t.name lc.name) fun m => m = lc.name)))) := rfl
  simp only [Bool.false_and, Bool.false_eq_true, if_false, List.flatMap_cons, List.flatMap_nil, List.append_nil, h1,
    List.cons_append, List.map_append, List.append_assoc, decide_eq_true_eq]
  congr 4
  congr 1
  · split
    · rfl
    · rfl
  · by_cases hsz : t.uniqueKeyNameSet.size ≥ 1
    · rw [if_pos hsz]
      by_cases hb : (decide (t.uniqueKeyNameSet.size = 1) && !env.listed) = true
      · rw [if_neg (fun h => h.2 hb), setsOps_cons, if_pos hb]; rfl
      · rw [if_pos ⟨hsz, hb⟩, setsOps_cons, if_neg hb]; rfl
    · rw [if_neg hsz, if_neg (fun h => hsz h.1)]; rfl

/-- Creating a table. -/
theorem runs_buildable_more (env : LqEnv) (sys : Str → Prop) (pf : Str → Option Str) (suffix : Str) (uc : Bool) (t : Table)
    (ht : Buildable env pf suffix t)
    (hsys : ¬t.uniqueKeyNameSet.size > 1 → ∀ c ∈ t.columns, sys (env.sysName t.name c.name)) :
    ∃ ps, createSets pf suffix uc t = some ps ∧ ∃ T, (HoldsTable sys uc env.listed suffix t T ∧
      (HasUnique t → ¬t.uniqueKeyNameSet.size > 1 → ∃ c ∈ t.columns, (T.uniques (env.sysName t.name c.name)).isSome)) ∧
      ∀ d, d t.name = none → Runs (setsOps env ps) d (upd d t.name (some T)) := by
  obtain ⟨lcs, hl, hf⟩ := createColumns_plain ht.defaults uc
  have hnames : t.columns.map (·.name) = lcs.map (·.name) := forall₂_map hf (fun _ _ h => h.name.symm)
  have hnd : (lcs.map (·.name)).Nodup := hnames ▸ ht.columns
  -- the columns
  obtain ⟨c1, hr1, h1n, h1o⟩ := tRuns_adds (fun lc : LqColumn => lc.name) lqColumnAttr lcs hnd emptyTable
    (fun _ _ => rfl)
  have hsome : ∀ n, n ∈ t.columns.map (·.name) → (c1 n).isSome := by
    intro n hn
    rw [hnames] at hn
    obtain ⟨lc, hlc, rfl⟩ := List.mem_map.1 hn
    rw [h1n lc hlc]; rfl
  have hinlinePk : ∀ n, (∃ lc ∈ lcs, inlinePk lc = true ∧ lc.name = n) ↔
      (¬t.primaryKeyNameSet.size > 1 ∧ pkNames t n) := by
    intro n
    constructor
    · rintro ⟨lc, hlc, h1, rfl⟩
      obtain ⟨c, hc, hcf⟩ := forall₂_right hf hlc
      rw [hcf.pk, Bool.and_eq_true, Bool.not_eq_true', decide_eq_false_iff_not] at h1
      exact ⟨h1.2, c, hc, h1.1, hcf.name.symm⟩
    · rintro ⟨h1, c, hc, h2, rfl⟩
      obtain ⟨lc, hlc, hcf⟩ := forall₂_left hf hc
      refine ⟨lc, hlc, ?_, hcf.name⟩
      rw [hcf.pk, h2, decide_eq_false h1]; rfl
  -- the primary key, inline or separate
  obtain ⟨T2, hr2, h2c, h2p, h2u⟩ : ∃ T2 : DbTable LqAttr,
      TRuns ((if lcs.any inlinePk then
          [TOp.addPrimaryKey fun m => ∃ lc ∈ lcs, inlinePk lc = true ∧ lc.name = m] else []))
        { emptyTable with cols := c1 } T2 ∧ T2.cols = c1 ∧
      (∀ n, T2.pk n ↔ (¬t.primaryKeyNameSet.size > 1 ∧ pkNames t n)) ∧ T2.uniques = fun _ => none := by
    by_cases ha : lcs.any inlinePk = true
    · rw [if_pos ha]
      refine ⟨{ cols := c1, pk := fun m => ∃ lc ∈ lcs, inlinePk lc = true ∧ lc.name = m, uniques := fun _ => none },
        tRuns_one ⟨fun _ h => h, ?_, rfl⟩, rfl, hinlinePk, rfl⟩
      rintro c ⟨lc, hlc, _, rfl⟩
      exact hsome _ (hnames ▸ List.mem_map_of_mem hlc)
    · rw [if_neg ha]
      refine ⟨{ cols := c1, pk := fun _ => False, uniques := fun _ => none }, rfl, rfl, ?_, rfl⟩
      intro n
      rw [← hinlinePk]
      refine ⟨fun h => h.elim, ?_⟩
      rintro ⟨lc, hlc, h, _⟩
      exact ha (List.any_eq_true.2 ⟨lc, hlc, h⟩)
  -- inline uniques
  have hfilter : ∀ lc ∈ lcs.filter inlineUnique, ∃ c ∈ t.columns, c.uniqueKey = true ∧ lc.name = c.name ∧
      ¬t.uniqueKeyNameSet.size > 1 := by
    intro lc hlc
    obtain ⟨h1, h2⟩ := List.mem_filter.1 hlc
    obtain ⟨c, hc, hcf⟩ := forall₂_right hf h1
    rw [hcf.unique, Bool.and_eq_true, Bool.not_eq_true', decide_eq_false_iff_not] at h2
    exact ⟨c, hc, h2.1, hcf.name, h2.2⟩
  have huq1 : ¬t.uniqueKeyNameSet.size > 1 → ∀ c ∈ t.columns, c.uniqueKey = true → uqNames t = fun m => m = c.name := by
    intro hsz c hc hu
    funext m
    apply propext
    constructor
    · intro hm; exact size_le_one hsz (mem_uniqueKeyNameSet.2 hm) (mem_uniqueKeyNameSet.2 ⟨c, hc, hu, rfl⟩)
    · rintro rfl; exact ⟨c, hc, hu, rfl⟩
  obtain ⟨T3, hr3, h3c, h3p, h3u, h3e⟩ : ∃ T3 : DbTable LqAttr,
      TRuns ((lcs.filter inlineUnique).map fun lc =>
          TOp.createUnique (env.sysName t.name lc.name) fun m => m = lc.name) T2 T3 ∧ T3.cols = c1 ∧
      (∀ n, T3.pk n ↔ (¬t.primaryKeyNameSet.size > 1 ∧ pkNames t n)) ∧
      (∀ k s, T3.uniques k = some s → HasUnique t ∧ s = uqNames t ∧ sys k ∧ ¬t.uniqueKeyNameSet.size > 1 ∧
        ∃ c ∈ t.columns, c.uniqueKey = true ∧ k = env.sysName t.name c.name) ∧
      (HasUnique t → ¬t.uniqueKeyNameSet.size > 1 → ∃ k, T3.uniques k = some (uqNames t)) := by
    have hfn : ((lcs.filter inlineUnique).map (·.name)).Nodup := (List.filter_sublist.map _).nodup hnd
    rcases le_one_of_names (fun lc : LqColumn => lc.name) hfn (by
      intro a ha b hb
      obtain ⟨c, hc, h1, h2, h3⟩ := hfilter a ha
      obtain ⟨d, hd, h4, h5, _⟩ := hfilter b hb
      rw [h2, h5]
      exact size_le_one h3 (mem_uniqueKeyNameSet.2 ⟨c, hc, h1, rfl⟩) (mem_uniqueKeyNameSet.2 ⟨d, hd, h4, rfl⟩)) with e | ⟨a, e⟩
    · rw [e]
      refine ⟨T2, rfl, h2c, h2p, ?_, ?_⟩
      · intro k s hk; rw [h2u] at hk; cases hk
      · rintro ⟨c, hc, hu⟩ hsz
        obtain ⟨lc, hlc, hcf⟩ := forall₂_left hf hc
        have : lc ∈ lcs.filter inlineUnique := List.mem_filter.2 ⟨hlc, by
          rw [hcf.unique, hu, decide_eq_false hsz]; rfl⟩
        rw [e] at this; cases this
    · have ha : a ∈ lcs.filter inlineUnique := by rw [e]; simp
      obtain ⟨c, hc, h1, h2, h3⟩ := hfilter a ha
      have huq := huq1 h3 c hc h1
      rw [e, List.map_singleton]
      simp only [h2]
      refine ⟨{ T2 with uniques := upd T2.uniques (env.sysName t.name c.name) (some fun m => m = c.name) },
        tRuns_one ⟨?_, ?_, rfl⟩, h2c, h2p, ?_, ?_⟩
      · rw [h2u]
      · rintro m rfl
        rw [h2c]; exact hsome _ (List.mem_map_of_mem hc)
      · intro k s hk
        by_cases hkk : k = env.sysName t.name c.name
        · subst hkk
          simp only [upd_same, Option.some.injEq] at hk
          exact ⟨⟨c, hc, h1⟩, by rw [huq, ← hk], hsys h3 c hc, h3, c, hc, h1, rfl⟩
        · simp only [upd_ne _ _ hkk, h2u] at hk; cases hk
      · intro _ _
        exact ⟨env.sysName t.name c.name, by simp [huq]⟩
  -- separate primary key
  obtain ⟨T4, hr4, h4c, h4p, h4u⟩ : ∃ T4 : DbTable LqAttr,
      TRuns (if t.primaryKeyNameSet.size ≥ 2 then
          lqTableOps env (.addPrimaryKey t.name (t.primaryKeyNameSet.joinKeys ", "ₛ)) else []) T3 T4 ∧
      (∀ n, T4.cols n = (columnNamed t n).map (lqAttrOf uc)) ∧ (∀ n, T4.pk n ↔ pkNames t n) ∧
      T4.uniques = T3.uniques := by
    have hc1 : ∀ c ∈ t.columns, c1 c.name = some { lqAttrOf uc c with
        notNull := c.notNull || (c.primaryKey && !decide (t.primaryKeyNameSet.size > 1)) } := by
      intro c hc
      obtain ⟨lc, hlc, hcf⟩ := forall₂_left hf hc
      rw [← hcf.name, h1n lc hlc, hcf.attr]
    have hcol : ∀ n, n ∉ t.columns.map (·.name) → c1 n = none := by
      intro n hn
      rw [h1o n (by rw [← hnames]; exact hn)]; rfl
    by_cases hsz : t.primaryKeyNameSet.size ≥ 2
    · rw [if_pos hsz]
      have hl2 : listed (t.primaryKeyNameSet.joinKeys ", "ₛ) = t.primaryKeyNameSet.slice :=
        listed_slice (by omega) (fun n hn => ht.key (by
          obtain ⟨a, b, hab, ha, hb⟩ := two_of_size hsz (nodup_primaryKeyNameSet t)
          exact ⟨a, b, hab, mem_primaryKeyNameSet.1 ha, mem_primaryKeyNameSet.1 hb⟩) n (mem_primaryKeyNameSet.1 hn))
      have hmem : ∀ n, n ∈ t.primaryKeyNameSet.slice ↔ pkNames t n := fun n => mem_slice.trans mem_primaryKeyNameSet
      have hex : ∀ n, n ∈ t.primaryKeyNameSet.slice → (c1 n).isSome := by
        intro n hn
        obtain ⟨c, hc, _, rfl⟩ := (hmem n).1 hn
        exact hsome _ (List.mem_map_of_mem hc)
      simp only [lqTableOps, hl2]
      refine ⟨_, ⟨{ T3 with pk := fun n => n ∈ t.primaryKeyNameSet.slice }, ⟨?_, ?_, rfl⟩,
        tRuns_notNulls _ _ (by intro n hn; simp only; rw [h3c]; exact hex n hn)⟩, ?_, hmem, rfl⟩
      · intro c h; exact ((h3p c).1 h).1 (by omega)
      · intro n hn; rw [h3c]; exact hex n hn
      · intro n
        simp only [h3c]
        cases hcn : columnNamed t n with
        | none =>
          have := columnNamed_eq_none.1 hcn
          rw [hcol n this, if_neg]
          · rfl
          · intro h
            obtain ⟨c, hc, _, rfl⟩ := (hmem n).1 h
            exact this (List.mem_map_of_mem hc)
        | some c =>
          obtain ⟨hc, rfl⟩ := (columnNamed_eq_some ht.columns).1 hcn
          rw [hc1 c hc]
          have : c.name ∈ t.primaryKeyNameSet.slice ↔ c.primaryKey = true := by
            rw [hmem]
            constructor
            · rintro ⟨d, hd, h1, h2⟩; rwa [← eq_of_nodup_map ht.columns hd hc h2]
            · intro h; exact ⟨c, hc, h, rfl⟩
          rw [decide_eq_true (by omega : t.primaryKeyNameSet.size > 1)]
          by_cases hp : c.primaryKey = true
          · rw [if_pos (this.2 hp)]; simp [lqAttrOf, hp]
          · rw [if_neg (fun h => hp (this.1 h))]
            simp [lqAttrOf, hp]
    · rw [if_neg hsz]
      refine ⟨T3, rfl, ?_, ?_, rfl⟩
      · intro n
        rw [h3c]
        cases hcn : columnNamed t n with
        | none => rw [hcol n (columnNamed_eq_none.1 hcn)]; rfl
        | some c =>
          obtain ⟨hc, rfl⟩ := (columnNamed_eq_some ht.columns).1 hcn
          rw [hc1 c hc, decide_eq_false (by omega : ¬t.primaryKeyNameSet.size > 1)]
          simp [lqAttrOf]
      · intro n
        rw [h3p]
        exact ⟨fun h => h.2, fun h => ⟨by omega, h⟩⟩
  -- named unique constraint
  obtain ⟨T5, hr5, h5⟩ : ∃ T5 : DbTable LqAttr,
      TRuns (if t.uniqueKeyNameSet.size ≥ 1 ∧ ¬(decide (t.uniqueKeyNameSet.size = 1) && !env.listed) = true then
          [TOp.createUnique (t.name ++ suffix) fun n => n ∈ listed (t.uniqueKeyNameSet.joinKeys ", "ₛ)] else []) T4 T5 ∧
      (HoldsTable sys uc env.listed suffix t T5 ∧
        ∀ k, (T3.uniques k).isSome → (T5.uniques k).isSome) := by
    have hlistedOr : t.uniqueKeyNameSet.size ≥ 1 → ¬(decide (t.uniqueKeyNameSet.size = 1) && !env.listed) = true →
        env.listed = true ∨ t.uniqueKeyNameSet.size ≥ 2 := by
      intro h1 h2
      by_contra h
      rw [not_or, Bool.not_eq_true] at h
      exact h2 (by rw [decide_eq_true (by omega : t.uniqueKeyNameSet.size = 1), h.1]; rfl)
    have hfree : t.uniqueKeyNameSet.size ≥ 1 → ¬(decide (t.uniqueKeyNameSet.size = 1) && !env.listed) = true →
        T4.uniques (t.name ++ suffix) = none := by
      intro hs1 hs2
      rw [h4u]
      cases h : T3.uniques (t.name ++ suffix) with
      | none => rfl
      | some s =>
        obtain ⟨_, _, _, h1, c, hc, h2, h3⟩ := h3u _ _ h
        refine absurd h3.symm (ht.free ((hlistedOr hs1 hs2).resolve_right (by omega)) c.name ?_)
        intro m
        rw [huq1 h1 c hc h2]
    have huqmem : t.uniqueKeyNameSet.size ≥ 1 → ¬(decide (t.uniqueKeyNameSet.size = 1) && !env.listed) = true →
        (fun n => n ∈ listed (t.uniqueKeyNameSet.joinKeys ", "ₛ)) = uqNames t := by
      intro h hs2
      rw [listed_slice (by omega) (fun n hn => ht.unique ((hlistedOr h hs2).imp id (fun h2 => by
          obtain ⟨a, b, hab, ha, hb⟩ := two_of_size h2 (nodup_uniqueKeyNameSet t)
          exact ⟨a, b, hab, mem_uniqueKeyNameSet.1 ha, mem_uniqueKeyNameSet.1 hb⟩)) n (mem_uniqueKeyNameSet.1 hn))]
      funext n
      exact propext (mem_slice.trans mem_uniqueKeyNameSet)
    by_cases hcond : t.uniqueKeyNameSet.size ≥ 1 ∧ ¬(decide (t.uniqueKeyNameSet.size = 1) && !env.listed) = true
    · rw [if_pos hcond, huqmem hcond.1 hcond.2]
      have hu : HasUnique t := size_pos_unique.1 (by omega)
      refine ⟨{ T4 with uniques := upd T4.uniques (t.name ++ suffix) (some (uqNames t)) },
        tRuns_one ⟨hfree hcond.1 hcond.2, ?_, rfl⟩, ⟨h4c, h4p, fun _ => ⟨_, upd_same _ _ _⟩, fun _ _ => upd_same _ _ _, ?_⟩, ?_⟩
      · rintro n ⟨c, hc, _, rfl⟩
        rw [h4c, (columnNamed_eq_some ht.columns).2 ⟨hc, rfl⟩]; rfl
      · intro k s hk
        by_cases hkk : k = t.name ++ suffix
        · subst hkk
          simp only [upd_same, Option.some.injEq] at hk
          exact ⟨hu, hk.symm, Or.inl rfl⟩
        · simp only [upd_ne _ _ hkk, h4u] at hk
          obtain ⟨h1, h2, h3, _⟩ := h3u k s hk
          exact ⟨h1, h2, Or.inr h3⟩
      · intro k hk
        by_cases hkk : k = t.name ++ suffix
        · subst hkk; simp only [upd_same]; rfl
        · simp only [upd_ne _ _ hkk, h4u]; exact hk
    · rw [if_neg hcond]
      have hsz : HasUnique t → t.uniqueKeyNameSet.size = 1 ∧ env.listed = false := by
        intro hu
        have h1 : t.uniqueKeyNameSet.size ≥ 1 := size_pos_unique.2 hu
        have h2 := not_not.1 (fun h => hcond ⟨h1, h⟩)
        simpa using h2
      refine ⟨T4, rfl, ⟨h4c, h4p, ?_, ?_, ?_⟩, fun k hk => by rw [h4u]; exact hk⟩
      · intro hu
        obtain ⟨k, hk⟩ := h3e hu (by rw [(hsz hu).1]; omega)
        exact ⟨k, by rw [h4u]; exact hk⟩
      · intro hl hu
        rw [(hsz hu).2] at hl; cases hl
      · intro k s hk
        rw [h4u] at hk
        obtain ⟨h1, h2, h3, _⟩ := h3u k s hk
        exact ⟨h1, h2, Or.inr h3⟩
  -- putting it together
  refine ⟨_, by rw [createSets, hl, Option.map_some], T5, ⟨h5.1, ?_⟩, ?_⟩
  · intro hu hsz
    obtain ⟨k, hk⟩ := h3e hu hsz
    obtain ⟨_, _, _, _, c, hc, _, rfl⟩ := h3u k _ hk
    exact ⟨c, hc, h5.2 _ (by rw [hk]; rfl)⟩
  intro d hd
  have hops := setsOps_create env suffix t lcs
  unfold createTOps at hops
  rw [hops]
  refine ⟨upd d t.name (some emptyTable), ⟨hd, rfl⟩, ?_⟩
  have := runs_alter (d := upd d t.name (some emptyTable)) (n := t.name) (upd_same _ _ _)
    (tRuns_append hr1 (tRuns_append hr2 (tRuns_append hr3 (tRuns_append hr4 hr5))))
  rwa [upd_upd] at this

/-- Creating a table. -/
theorem runs_buildable (env : LqEnv) (sys : Str → Prop) (pf : Str → Option Str) (suffix : Str) (uc : Bool) (t : Table)
    (ht : Buildable env pf suffix t)
    (hsys : ¬t.uniqueKeyNameSet.size > 1 → ∀ c ∈ t.columns, sys (env.sysName t.name c.name)) :
    ∃ ps, createSets pf suffix uc t = some ps ∧ ∃ T, HoldsTable sys uc env.listed suffix t T ∧
      ∀ d, d t.name = none → Runs (setsOps env ps) d (upd d t.name (some T)) := by
  obtain ⟨ps, h1, T, h2, h3⟩ := runs_buildable_more env sys pf suffix uc t ht hsys
  exact ⟨ps, h1, T, h2.1, h3⟩

theorem buildable_of_clean {env : LqEnv} {sys : Str → Prop} {pf : Str → Option Str} {suffix : Str} {t : Table}
    (ht : CleanTable pf t)
    (hsys : ¬t.uniqueKeyNameSet.size > 1 → ∀ c ∈ t.columns, sys (env.sysName t.name c.name)) (hno : ¬sys (t.name ++ suffix)) :
    Buildable env pf suffix t := by
  refine ⟨ht.1, fun c hc => (ht.2 c hc).2, ?_, ?_, ?_⟩
  · rintro _ n ⟨c, hc, _, rfl⟩; exact (ht.2 c hc).1
  · rintro _ n ⟨c, hc, _, rfl⟩; exact (ht.2 c hc).1
  · intro _ n hn e
    obtain ⟨c, hc, _, rfl⟩ := (hn n).2 rfl
    refine hno (e ▸ hsys ?_ c hc)
    intro h
    obtain ⟨a, b, hab, ha, hb⟩ := two_of_size h (nodup_uniqueKeyNameSet t)
    exact hab (((hn a).1 (mem_uniqueKeyNameSet.1 ha)).trans ((hn b).1 (mem_uniqueKeyNameSet.1 hb)).symm)

/-- Creating a table without exceptional names. -/
theorem runs_createTable (env : LqEnv) (sys : Str → Prop) (pf : Str → Option Str) (suffix : Str) (uc : Bool) (t : Table)
    (ht : CleanTable pf t)
    (hsys : ¬t.uniqueKeyNameSet.size > 1 → ∀ c ∈ t.columns, sys (env.sysName t.name c.name)) (hno : ¬sys (t.name ++ suffix)) :
    ∃ ps, createSets pf suffix uc t = some ps ∧ ∃ T, HoldsTable sys uc env.listed suffix t T ∧
      ∀ d, d t.name = none → Runs (setsOps env ps) d (upd d t.name (some T)) :=
  runs_buildable env sys pf suffix uc t (buildable_of_clean ht hsys hno) hsys

/-! ### Changing a table -/

/-- What change sets inside one table do to it. -/
def setsTOps (env : LqEnv) (ps : Sets) : List (TOp LqAttr) := ps.flatMap fun p => p.2.flatMap (lqTableOps env)

theorem setsTOps_append (env : LqEnv) (a b : Sets) : setsTOps env (a ++ b) = setsTOps env a ++ setsTOps env b := by
  simp [setsTOps]

theorem setsTOps_whenS (env : LqEnv) (b : Bool) (cs : List LqChange) :
    setsTOps env (whenS b cs) = if b then cs.flatMap (lqTableOps env) else [] := by
  cases b <;> simp [setsTOps, whenS]

theorem setsTOps_flatMap {α : Type} (env : LqEnv) (f : α → Sets) (l : List α) :
    setsTOps env (l.flatMap f) = l.flatMap fun a => setsTOps env (f a) := by
  simp only [setsTOps, List.flatMap_assoc]

/-- Changes inside the table `n`. -/
def InTable (n : Str) (c : LqChange) : Prop :=
  lqTable c = n ∧ ∀ env, lqOps env c = (lqTableOps env c).map (.alter n)

def SetsIn (n : Str) (ps : Sets) : Prop := ∀ p ∈ ps, p.1 = false ∧ ∀ c ∈ p.2, InTable n c

theorem setsIn_append {n : Str} {a b : Sets} : SetsIn n (a ++ b) ↔ SetsIn n a ∧ SetsIn n b := by
  simp only [SetsIn, List.mem_append]
  constructor
  · intro h; exact ⟨fun p hp => h p (Or.inl hp), fun p hp => h p (Or.inr hp)⟩
  · rintro ⟨h1, h2⟩ p (hp | hp)
    · exact h1 p hp
    · exact h2 p hp

theorem setsIn_whenS {n : Str} {b : Bool} {cs : List LqChange} (h : ∀ c ∈ cs, InTable n c) : SetsIn n (whenS b cs) := by
  cases b
  · intro p hp; simp [whenS] at hp
  · intro p hp
    simp only [whenS, if_true, List.mem_singleton] at hp
    subst hp
    exact ⟨rfl, h⟩

theorem setsIn_one {n : Str} {c : LqChange} (h : InTable n c) : SetsIn n [(false, [c])] := by
  intro p hp
  rw [List.mem_singleton.1 hp]
  exact ⟨rfl, by simpa using h⟩

theorem setsOps_in {env : LqEnv} {n : Str} {ps : Sets} (h : SetsIn n ps) :
    setsOps env ps = (setsTOps env ps).map (.alter n) := by
  induction ps with
  | nil => rfl
  | cons p ps ih =>
    obtain ⟨h1, h2⟩ := h p (by simp)
    rw [setsOps_cons, ih (fun q hq => h q (by simp [hq])), h1]
    simp only [setsTOps, List.flatMap_cons, List.map_append, Bool.false_and, Bool.false_eq_true, if_false]
    congr 1
    clear ih h h1
    generalize p.2 = cs at *
    induction cs with
    | nil => rfl
    | cons c cs ih =>
      rw [List.flatMap_cons, List.flatMap_cons, List.map_append, ih (fun c hc => h2 c (by simp [hc])),
        (h2 c (by simp)).2]

theorem attrSets_in (t : Table) (c o : Column) (uc : Bool) : SetsIn t.name (attrSets t c o uc) := by
  unfold attrSets
  simp only [setsIn_append]
  refine ⟨setsIn_whenS ?_, setsIn_whenS ?_, setsIn_whenS ?_, setsIn_whenS ?_, setsIn_whenS ?_⟩
  all_goals
    intro x hx
    rw [List.mem_singleton] at hx
    subst hx
    first
    | exact ⟨rfl, fun _ => rfl⟩
    | split <;> exact ⟨rfl, fun _ => rfl⟩

theorem columnSets_in {pf : Str → Option Str} {t : Table} {c o : Column} {uc : Bool} {ps : Sets}
    (h : columnSets pf t c o uc = some ps) : SetsIn t.name ps := by
  obtain ⟨d, hd, rfl⟩ := Option.map_eq_some_iff.1 h
  rw [setsIn_append]
  refine ⟨attrSets_in _ _ _ _, ?_⟩
  unfold defaultSets at hd
  split at hd
  · split at hd
    · rw [← Option.some.inj hd]; exact setsIn_one ⟨rfl, fun _ => rfl⟩
    · obtain ⟨ch, hch, rfl⟩ := Option.map_eq_some_iff.1 hd
      obtain ⟨dv, _, rfl⟩ := Option.map_eq_some_iff.1 hch
      exact setsIn_one ⟨rfl, fun _ => rfl⟩
  · rw [← Option.some.inj hd]; intro p hp; cases hp

theorem lqAttr_notNull {uc : Bool} {c : Column} (h : c.primaryKey = true → c.notNull = true) :
    (lqAttrOf uc c).notNull = c.notNull := by
  simp only [lqAttrOf]
  cases hp : c.primaryKey
  · simp
  · simp [h hp]

/-- Changing the attributes of a column. -/
theorem tRuns_columnSets (env : LqEnv) (henv : ∀ g, env.onRetype g = g) {pf : Str → Option Str} {t o : Table} {uc : Bool}
    (hsm : SmoothChange env uc t o) {c b : Column} (hc : c ∈ t.columns) (hb : b ∈ o.columns) (hn : c.name = b.name)
    (hno : (o.columns.map (·.name)).Nodup) (hd : PlainDefault pf c) :
    ∃ ps, columnSets pf t c b uc = some ps ∧ ∀ T : DbTable LqAttr, T.pk = pkNames o →
      T.cols c.name = some (lqAttrOf uc b) →
      TRuns (setsTOps env ps) T { T with cols := upd T.cols c.name (some (lqAttrOf uc c)) } := by
  have hnc := lqAttr_notNull (uc := uc) (hsm.keyNew c hc)
  have hnb := lqAttr_notNull (uc := uc) (hsm.keyOld b hb)
  obtain ⟨d, hd1, hd2⟩ : ∃ d, defaultSets pf t c b = some d ∧
      (setsTOps env d = if c.defaultValue != b.defaultValue then
        [.modify c.name fun g => { g with default := defaultMeaning c.defaultValue }] else []) := by
    unfold defaultSets
    by_cases h1 : (c.defaultValue != b.defaultValue) = true
    · rw [if_pos h1, if_pos h1]
      by_cases h2 : c.defaultValue = []
      · rw [if_pos h2]
        exact ⟨_, rfl, by rw [h2]; rfl⟩
      · rw [if_neg h2]
        obtain ⟨dv, h3, h4⟩ := newLqDefaultValue_plain hd h2
        refine ⟨_, by rw [newAddDefaultValue, h3]; rfl, ?_⟩
        simp [setsTOps, lqTableOps, h4]
    · rw [if_neg h1, if_neg h1]
      exact ⟨_, rfl, rfl⟩
  refine ⟨attrSets t c b uc ++ d, by rw [columnSets, hd1]; rfl, ?_⟩
  intro T hpk hT
  have hname : (c.name != b.name) = false := by simp [hn]
  have e : setsTOps env (attrSets t c b uc) =
      (if (c.type != b.type || c.size != b.size || c.scale != b.scale) = true then
        [.modify c.name fun g => { g with type := getLiquibaseType c }] else []) ++
      ((if (uc && c.description != b.description) = true then
        [.modify c.name fun g => { g with remarks := c.description }] else []) ++
      ((if (c.notNull != b.notNull) = true then
        lqTableOps env (if c.notNull = true then
          .addNotNullConstraint t.name c.name (getLiquibaseType c) c.defaultValue
          else .dropNotNullConstraint t.name c.name (getLiquibaseType c)) else []) ++
      (if (c.autoIncremental != b.autoIncremental && c.autoIncremental) = true then
        [.modify c.name fun g => { g with autoIncrement := true }] else []))) := by
    unfold attrSets
    simp only [setsTOps_append, setsTOps_whenS, hname, Bool.false_eq_true, if_false, List.nil_append, List.flatMap_cons,
      List.flatMap_nil, List.append_nil]
    congr 1
    simp only [lqTableOps, henv]
  rw [setsTOps_append, hd2, e]
  simp only [List.append_assoc]
  have hnn : ∀ (T : DbTable LqAttr) (g : LqAttr), T.pk = pkNames o → T.cols c.name = some g →
      TRuns (if (c.notNull != b.notNull) = true then
          lqTableOps env (if c.notNull = true then
            .addNotNullConstraint t.name c.name (getLiquibaseType c) c.defaultValue
            else .dropNotNullConstraint t.name c.name (getLiquibaseType c)) else []) T
        { T with cols := upd T.cols c.name (some (if (c.notNull != b.notNull) = true then
            { g with notNull := c.notNull } else g)) } := by
    intro T g hpk hg
    by_cases h1 : (c.notNull != b.notNull) = true
    · rw [if_pos h1, if_pos h1]
      by_cases h2 : c.notNull = true
      · rw [if_pos h2, h2]
        exact tRuns_one ⟨g, hg, rfl⟩
      · rw [if_neg h2]
        have h3 : c.notNull = false := by simpa using h2
        rw [h3]
        refine ⟨T, ⟨?_, rfl⟩, tRuns_one ⟨g, hg, rfl⟩⟩
        rw [hpk]
        rintro ⟨x, hx, h4, h5⟩
        have : x = b := eq_of_nodup_map hno hx hb (h5.trans hn)
        subst this
        exact h2 (hsm.leaveKey c hc x hb hn h4)
    · rw [if_neg h1, if_neg h1, ← hg, upd_self]; rfl
  refine tRuns_append (tRuns_modifyIf _ c.name _ T _ hT) ?_
  refine tRuns_append (tRuns_modifyIf _ c.name _ _ _ (upd_same T.cols c.name _)) ?_
  refine tRuns_append (hnn { T with cols := upd (upd T.cols c.name _) c.name _ } _ hpk (upd_same _ c.name _)) ?_
  refine tRuns_append (tRuns_modifyIf _ c.name _ _ _ (upd_same _ c.name _)) ?_
  have h6 : ∀ (T1 T3 : DbTable LqAttr) (g : LqAttr), T1.cols c.name = some g →
      T3 = { T1 with cols := upd T1.cols c.name (some (if c.defaultValue != b.defaultValue then
        { g with default := defaultMeaning c.defaultValue } else g)) } →
      TRuns (if c.defaultValue != b.defaultValue then
        [.modify c.name (fun g : LqAttr => { g with default := defaultMeaning c.defaultValue })] else []) T1 T3 := by
    rintro T1 T3 g h rfl
    exact tRuns_modifyIf (c.defaultValue != b.defaultValue) c.name
      (fun g : LqAttr => { g with default := defaultMeaning c.defaultValue }) T1 g h
  refine h6 _ _ _ (upd_same _ c.name _) ?_
  simp only [upd_upd]
  congr 2
  have e1 : ∀ (b : Bool) (x y : LqAttr), (if b = true then x else y) =
      ⟨if b then x.type else y.type, if b then x.notNull else y.notNull,
       if b then x.autoIncrement else y.autoIncrement, if b then x.default else y.default,
       if b then x.remarks else y.remarks⟩ := by
    intro b x y; cases b <;> rfl
  simp only [e1, ite_self, hnb]
  have e2 : lqAttrOf uc c = ⟨(lqAttrOf uc c).type, c.notNull, c.autoIncremental, defaultMeaning c.defaultValue,
      if uc then c.description else []⟩ := by rw [← hnc]; rfl
  rw [e2]
  simp only [Option.some.injEq, LqAttr.mk.injEq]
  refine ⟨?_, ?_, ?_, ?_, ?_⟩
  · rw [getLiquibaseType_eq]
    simp only [lqAttrOf]
    by_cases h1 : (c.type != b.type || c.size != b.size || c.scale != b.scale) = true
    · rw [if_pos h1]
    · rw [if_neg h1]
      simp only [Bool.or_eq_true, bne_iff_ne, not_or, not_not] at h1
      obtain ⟨⟨h1, h2⟩, h3⟩ := h1
      rw [lqTypeText, lqTypeText, h1, h2, h3]
  · by_cases h : c.notNull = b.notNull <;> simp [h]
  · simp only [lqAttrOf]
    have h1 := hsm.autoIncrement c hc b hb hn
    clear * - h1
    revert h1
    cases c.autoIncremental <;> cases b.autoIncremental <;> simp
  · simp only [lqAttrOf]
    by_cases h : c.defaultValue = b.defaultValue <;> simp [h]
  · simp only [lqAttrOf]
    cases uc
    · simp
    · by_cases h : c.description = b.description <;> simp [h]

end Octo.Lq
