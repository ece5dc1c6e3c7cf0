import Verif.Spec.Octopus
import Verif.Lemmas.Str
import Mathlib.Data.List.Pairwise

/-! Helper lemmas about schema normalisation. -/

namespace Octo
open Spec

theorem lookup_cons_getD {β : Type} (x t : Str) (y d : β) (l : List (Str × β)) :
    (List.lookup t ((x, y) :: l)).getD d = if t = x then y else (List.lookup t l).getD d := by
  simp only [List.lookup]
  by_cases h : t = x
  · simp [h]
  · have : (t == x) = false := by simpa using h
    simp [h, this]

theorem toNormalizedType_eq (t : Str) : toNormalizedType t = (aliases.lookup t).getD t := by
  simp only [toNormalizedType, aliases, lookup_cons_getD]
  rfl

theorem normalizeType_type (c : Column) : c.normalizeType.type = canon c.type := by
  simp [Column.normalizeType, toNormalizedType_eq, canon]

theorem lookup_mem {α β : Type} [BEq α] [LawfulBEq α] {l : List (α × β)} {a : α} {b : β}
    (h : l.lookup a = some b) : (a, b) ∈ l := by
  induction l with
  | nil => simp at h
  | cons p l ih =>
    obtain ⟨x, y⟩ := p
    simp only [List.lookup] at h
    cases hx : a == x with
    | true => rw [hx] at h; simp at h; simp at hx; simp [hx, h]
    | false => rw [hx] at h; exact List.mem_cons_of_mem _ (ih h)

theorem aliases_values : ∀ p ∈ aliases, p.2 ∈ supportedTypes ∧ lower p.2 = p.2 := by decide +kernel
theorem supported_lower : ∀ t ∈ supportedTypes, lower t = t ∧ aliases.lookup t = none := by decide +kernel
theorem integer_supported : ∀ t ∈ integerTypes, t ∈ supportedTypes := by decide

theorem canon_of_supported {t : Str} (h : t ∈ supportedTypes) : canon t = t := by
  simp [canon, (supported_lower t h).1, (supported_lower t h).2]

theorem canon_canon (t : Str) : canon (canon t) = canon t := by
  by_cases h : ∃ u, aliases.lookup (lower t) = some u
  · obtain ⟨u, hu⟩ := h
    have : canon t = u := by simp [canon, hu]
    rw [this]
    exact canon_of_supported (aliases_values _ (lookup_mem hu)).1
  · have h0 : aliases.lookup (lower t) = none := by
      cases hh : aliases.lookup (lower t) with
      | none => rfl
      | some u => exact absurd ⟨u, hh⟩ h
    have : canon t = lower t := by simp [canon, h0]
    rw [this]
    simp [canon, lower_lower, h0]

theorem lower_canon (t : Str) : lower (canon t) = canon t := by
  by_cases h : ∃ u, aliases.lookup (lower t) = some u
  · obtain ⟨u, hu⟩ := h
    have : canon t = u := by simp [canon, hu]
    rw [this]
    exact (aliases_values _ (lookup_mem hu)).2
  · have h0 : aliases.lookup (lower t) = none := by
      cases hh : aliases.lookup (lower t) with
      | none => rfl
      | some u => exact absurd ⟨u, hh⟩ h
    simp [canon, h0, lower_lower]

/-! ### StringSet basics -/

theorem StringSet.mem_add {s : StringSet} {v k : Str} :
    k ∈ (s.add v).keys ↔ k = v ∨ k ∈ s.keys := by
  unfold StringSet.add StringSet.contains
  split_ifs with h
  · simp at h
    constructor
    · exact Or.inr
    · rintro (rfl | h') <;> assumption
  · simp [or_comm]

theorem StringSet.nodup_add {s : StringSet} (h : s.keys.Nodup) (v : Str) :
    (s.add v).keys.Nodup := by
  unfold StringSet.add StringSet.contains
  split_ifs with h'
  · exact h
  · simp at h'
    simp [List.nodup_append, h]
    rintro a ha rfl
    exact h' ha

theorem StringSet.mem_addAll {vs : List Str} {s : StringSet} {k : Str} :
    k ∈ (s.addAll vs).keys ↔ k ∈ vs ∨ k ∈ s.keys := by
  induction vs generalizing s with
  | nil => simp [StringSet.addAll]
  | cons v vs ih =>
    have : s.addAll (v :: vs) = (s.add v).addAll vs := rfl
    rw [this, ih, StringSet.mem_add]
    simp; tauto

theorem StringSet.nodup_addAll {vs : List Str} {s : StringSet} (h : s.keys.Nodup) :
    (s.addAll vs).keys.Nodup := by
  induction vs generalizing s with
  | nil => exact h
  | cons v vs ih => exact ih (StringSet.nodup_add h v)

theorem StringSet.mem_ofList {vs : List Str} {k : Str} : k ∈ (StringSet.ofList vs).keys ↔ k ∈ vs := by
  simp [StringSet.ofList, StringSet.mem_addAll, StringSet.empty]

theorem isValidColType_iff (t : Str) : isValidColType t = true ↔ t ∈ supportedTypes := by
  simp only [isValidColType, StringSet.contains, decide_eq_true_eq, StringSet.mem_ofList]
  rfl

theorem isColTypeAutoIncremental_canon (t : Str) :
    isColTypeAutoIncremental (canon t) = decide (canon t ∈ integerTypes) := by
  have h1 : ∀ u, List.any ["int16"ₛ, "int24"ₛ, "int32"ₛ, "int64"ₛ, "int8"ₛ] (fun t => u == t) =
      decide (u ∈ integerTypes) := by
    intro u
    rw [Bool.eq_iff_iff]
    have hp : List.Perm ["int16"ₛ, "int24"ₛ, "int32"ₛ, "int64"ₛ, "int8"ₛ] integerTypes := by decide
    simp only [List.any_eq_true, beq_iff_eq, decide_eq_true_eq, ← hp.mem_iff]
    exact ⟨fun ⟨x, h, e⟩ => e ▸ h, fun h => ⟨u, h, rfl⟩⟩
  simp only [isColTypeAutoIncremental, containsColType, lower_canon]
  exact h1 _

/-! ### Column validation -/

/-- The outcome of normalising and validating a column in terms of the specification. -/
theorem validate_normalizeType (c : Column) :
    (ValidColumn c → Column.validate true c.normalizeType = (normColumn c, none)) ∧
    (¬ValidColumn c → ∃ e, (Column.validate true c.normalizeType).2 = some e) := by
  have hT := normalizeType_type c
  have hname : c.normalizeType.name = c.name := rfl
  have hvals : c.normalizeType.values = c.values := rfl
  have hauto : c.normalizeType.autoIncremental = c.autoIncremental := rfl
  have hfix : (if (c.normalizeType.autoIncremental &&
      !isColTypeAutoIncremental c.normalizeType.type) = true then
        { c.normalizeType with autoIncremental := false } else c.normalizeType) = normColumn c := by
    rw [hT, isColTypeAutoIncremental_canon, hauto]
    unfold normColumn
    by_cases h1 : canon c.type ∈ integerTypes
    · simp only [h1, decide_true, Bool.not_true, Bool.and_false, Bool.and_true]
      rw [← hT]; rfl
    · cases h2 : c.autoIncremental
      · simp only [h1, decide_false, Bool.not_false, Bool.and_false, Bool.and_true]
        simp only [Bool.false_eq_true, if_false]
        rw [← hT]; rw [← h2]; rfl
      · simp only [h1, decide_false, Bool.not_false, Bool.and_false, Bool.and_true, if_true]
        rw [← hT]; rfl
  have hsplit : Column.validate true c.normalizeType =
      if c.name = [] then (c.normalizeType, some .emptyName)
      else if canon c.type = "set"ₛ ∧ (c.values.length ≤ 0 ∨ c.values.length > 64) then
        (normColumn c, some .invalidValues)
      else if canon c.type = "enum"ₛ ∧ c.values.length ≤ 0 then (normColumn c, some .invalidValues)
      else if !isValidColType (canon c.type) then (normColumn c, some .invalidType)
      else (normColumn c, none) := by
    unfold Column.validate
    simp only [Bool.not_true, Bool.and_false, Bool.false_eq_true, if_false]
    rw [hfix]
    rfl
  rw [hsplit]
  constructor
  · rintro ⟨hn, hs, hset, henum⟩
    have h1 : ¬(canon c.type = "set"ₛ ∧ (c.values.length ≤ 0 ∨ c.values.length > 64)) := by
      rintro ⟨h, h'⟩; have := hset h; omega
    have h2 : ¬(canon c.type = "enum"ₛ ∧ c.values.length ≤ 0) := by
      rintro ⟨h, h'⟩; have := henum h; omega
    rw [if_neg hn, if_neg h1, if_neg h2, (isValidColType_iff _).2 hs]
    simp
  · intro h
    split_ifs with h1 h2 h3 h4
    · exact ⟨_, rfl⟩
    · exact ⟨_, rfl⟩
    · exact ⟨_, rfl⟩
    · exact ⟨_, rfl⟩
    · exfalso; apply h
      refine ⟨h1, ?_, ?_, ?_⟩
      · rw [← isValidColType_iff]; simpa using h4
      · intro hs
        by_contra hc
        exact h2 ⟨hs, by omega⟩
      · intro hs
        by_contra hc
        exact h3 ⟨hs, by omega⟩

theorem normCols_ok {cs : List Column} (h : ∀ c ∈ cs, ValidColumn c) :
    normCols cs = (cs.map normColumn, none) := by
  induction cs with
  | nil => rfl
  | cons c cs ih =>
    have h1 := (validate_normalizeType c).1 (h c (by simp))
    have h2 := ih (fun d hd => h d (List.mem_cons_of_mem _ hd))
    simp [normCols, h1, h2]

theorem normCols_err {cs : List Column} (h : ¬∀ c ∈ cs, ValidColumn c) :
    ∃ e, (normCols cs).2 = some e := by
  induction cs with
  | nil => simp at h
  | cons c cs ih =>
    by_cases hc : ValidColumn c
    · have h1 := (validate_normalizeType c).1 hc
      have h2 : ¬∀ d ∈ cs, ValidColumn d := by
        intro h'; apply h
        intro d hd
        rcases List.mem_cons.1 hd with rfl | hd
        · exact hc
        · exact h' d hd
      obtain ⟨e, he⟩ := ih h2
      exact ⟨e, by simp [normCols, h1, he]⟩
    · obtain ⟨e, he⟩ := (validate_normalizeType c).2 hc
      refine ⟨e, ?_⟩
      have : Column.validate true c.normalizeType =
        ((Column.validate true c.normalizeType).1, some e) := by rw [← he]
      simp only [normCols]
      rw [this]

theorem normCols_none_iff (cs : List Column) :
    (normCols cs).2 = none ↔ ∀ c ∈ cs, ValidColumn c := by
  constructor
  · intro h
    by_contra hc
    obtain ⟨e, he⟩ := normCols_err hc
    rw [h] at he; cases he
  · intro h; rw [normCols_ok h]

theorem normTables_ok {ts : List Table} (h : ∀ t ∈ ts, ValidTable t) :
    normTables ts = (ts.map normTable, none) := by
  induction ts with
  | nil => rfl
  | cons t ts ih =>
    have h1 := normCols_ok (h t (by simp))
    have h2 := ih (fun d hd => h d (List.mem_cons_of_mem _ hd))
    simp [normTables, h1, h2, normTable]

/-- If the table loop stops, it stops at the first table with an unacceptable column. -/
theorem normTables_err {ts : List Table} (h : ¬∀ t ∈ ts, ValidTable t) :
    ∃ pre t post e, ts = pre ++ t :: post ∧ (∀ u ∈ pre, ValidTable u) ∧ ¬ValidTable t ∧
      (normTables ts).2 = some (t.name, e) := by
  induction ts with
  | nil => simp at h
  | cons t ts ih =>
    by_cases ht : ValidTable t
    · have h2 : ¬∀ u ∈ ts, ValidTable u := by
        intro h'; apply h
        intro d hd
        rcases List.mem_cons.1 hd with rfl | hd
        · exact ht
        · exact h' d hd
      obtain ⟨pre, u, post, e, h3, h4, h5, h6⟩ := ih h2
      refine ⟨t :: pre, u, post, e, by simp [h3], ?_, h5, ?_⟩
      · intro d hd
        rcases List.mem_cons.1 hd with rfl | hd
        · exact ht
        · exact h4 d hd
      · simp [normTables, normCols_ok ht, h6]
    · obtain ⟨e, he⟩ := normCols_err (cs := t.columns) ht
      refine ⟨[], t, ts, e, rfl, by simp, ht, ?_⟩
      have : normCols t.columns = ((normCols t.columns).1, some e) := by rw [← he]
      simp only [normTables]
      rw [this]

theorem normTables_none_iff (ts : List Table) :
    (normTables ts).2 = none ↔ ∀ t ∈ ts, ValidTable t := by
  constructor
  · intro h
    by_contra hc
    obtain ⟨_, _, _, _, _, _, _, he⟩ := normTables_err hc
    rw [h] at he; cases he
  · intro h; rw [normTables_ok h]

/-! ### Table order -/

theorem tableLess_iff (a b : Table) : tableLess a b = true ↔ Before a b := by
  unfold tableLess Before
  split_ifs with h1 h2
  · simp [h1]
  · simp [h2, strLt_irrefl]
  · simp [h1, h2]

theorem strLt_of_not_le {a b : Str} (h : strLe a b = false) : strLt b a = true := by
  simp [strLt, h]

theorem not_less_iff (a b : Table) : tableLess b a = false ↔
    strLt a.group b.group = true ∨ (a.group = b.group ∧ strLe a.name b.name = true) := by
  rw [← Bool.not_eq_true, tableLess_iff]
  unfold Before
  constructor
  · intro h
    push Not at h
    obtain ⟨h1, h2⟩ := h
    have h1' : strLe a.group b.group = true := by simpa [strLt] using h1
    by_cases he : a.group = b.group
    · right; refine ⟨he, ?_⟩
      have := h2 he.symm
      simpa [strLt] using this
    · left; exact (strLt_iff _ _).2 ⟨h1', he⟩
  · rintro (h | ⟨h1, h2⟩)
    · rw [strLt_iff] at h
      push Not
      refine ⟨by simp [strLt, h.1], fun e => absurd e.symm h.2⟩
    · push Not
      rw [h1]
      exact ⟨by simp [strLt_irrefl], fun _ => by simp [strLt, h2]⟩

theorem notLess_total (a b : Table) : tableLess b a = false ∨ tableLess a b = false := by
  rw [not_less_iff, not_less_iff]
  rcases strLe_total a.group b.group with h | h
  · by_cases he : a.group = b.group
    · rcases strLe_total a.name b.name with h2 | h2
      · left; right; exact ⟨he, h2⟩
      · right; right; exact ⟨he.symm, h2⟩
    · left; left; exact (strLt_iff _ _).2 ⟨h, he⟩
  · by_cases he : a.group = b.group
    · rcases strLe_total a.name b.name with h2 | h2
      · left; right; exact ⟨he, h2⟩
      · right; right; exact ⟨he.symm, h2⟩
    · right; left; exact (strLt_iff _ _).2 ⟨h, fun e => he e.symm⟩

theorem strLt_le_trans {a b c : Str} (h1 : strLt a b = true) (h2 : strLe b c = true) :
    strLt a c = true := by
  rw [strLt_iff] at h1 ⊢
  refine ⟨strLe_trans h1.1 h2, ?_⟩
  rintro rfl
  exact h1.2 (strLe_antisymm h1.1 h2)

theorem strLt_le {a b : Str} (h : strLt a b = true) : strLe a b = true := ((strLt_iff _ _).1 h).1

theorem notLess_trans {a b c : Table} (h1 : tableLess b a = false) (h2 : tableLess c b = false) :
    tableLess c a = false := by
  rw [not_less_iff] at *
  rcases h1 with h1 | ⟨h1, h1'⟩ <;> rcases h2 with h2 | ⟨h2, h2'⟩
  · left; exact strLt_le_trans h1 (strLt_le h2)
  · left; rw [← h2]; exact h1
  · left; rw [h1]; exact h2
  · right; exact ⟨h1.trans h2, strLe_trans h1' h2'⟩

theorem notLess_antisymm {a b : Table} (h1 : tableLess b a = false) (h2 : tableLess a b = false) :
    a.group = b.group ∧ a.name = b.name := by
  rw [not_less_iff] at *
  rcases h1 with h1 | ⟨h1, h1'⟩ <;> rcases h2 with h2 | ⟨h2, h2'⟩
  · exfalso
    have := strLt_le_trans h1 (strLt_le h2)
    rw [strLt_irrefl] at this; cases this
  · rw [h2, strLt_irrefl] at h1; cases h1
  · rw [h1, strLt_irrefl] at h2; cases h2
  · exact ⟨h1, strLe_antisymm h1' h2'⟩

instance : Std.Total (fun a b : Table => tableLess b a = false) := ⟨notLess_total⟩
instance : IsTrans Table (fun a b : Table => tableLess b a = false) := ⟨fun _ _ _ => notLess_trans⟩

/-- Insertion sort satisfies the guarantee of `sort.Sort`, so that guarantee is satisfiable. -/
theorem tableSort_spec : SortSpec tableSort := fun _ =>
  ⟨List.perm_insertionSort _ _, List.pairwise_insertionSort _ _⟩

/-- On tables with distinct keys a sorted permutation is unique. -/
theorem sorted_tables_unique {l m : List Table}
    (hd : l.Pairwise (fun a b => ¬(a.group = b.group ∧ a.name = b.name)))
    (hl : l.Pairwise (fun a b => tableLess b a = false))
    (hm : m.Pairwise (fun a b => tableLess b a = false)) (h : l.Perm m) : l = m := by
  refine h.eq_of_pairwise ?_ hl hm
  intro a b ha hb h1 h2
  have hk := notLess_antisymm h1 h2
  have hb' : b ∈ l := h.mem_iff.2 hb
  by_contra hne
  have : Std.Symm (fun a b : Table => ¬(a.group = b.group ∧ a.name = b.name)) :=
    ⟨fun _ _ h h' => h ⟨h'.1.symm, h'.2.symm⟩⟩
  exact hd.forall ha hb' hne hk

theorem tableLess_congr {a b a' b' : Table} (ha : a'.group = a.group ∧ a'.name = a.name)
    (hb : b'.group = b.group ∧ b'.name = b.name) : tableLess a' b' = tableLess a b := by
  simp [tableLess, ha.1, ha.2, hb.1, hb.2]

end Octo
