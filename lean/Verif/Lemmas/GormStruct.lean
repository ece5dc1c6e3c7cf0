import Verif.Lemmas.GormText

/-! The structs of the GORM generator and what they say about the tables. -/

namespace Octo.Gorm
open Spec
open Protobuf (LineWord lineWord_ident lineWord_literal)

/-! ### The settings of a field -/

/-- The settings for the type. -/
def typeList (c : Column) : List (Str × Option Str) :=
  if c.type ∈ ["bit"ₛ, "char"ₛ, "varchar"ₛ] then
    if c.size > 0 then [("type"ₛ, some (c.type ++ "("ₛ ++ itoa c.size.toNat ++ ")"ₛ))] else []
  else if c.type ∈ ["double"ₛ, "float"ₛ, "decimal"ₛ] then
    if c.size > 0 ∧ c.scale > 0 then
      [("type"ₛ, some (c.type ++ "("ₛ ++ itoa c.size.toNat ++ ","ₛ ++ itoa c.scale.toNat ++ ")"ₛ))]
    else []
  else []

/-- The settings for the indices. -/
def indexList (t : Table) (column : Str) : List (Str × Option Str) :=
  (t.indices.filter (fun i => column ∈ i.columns)).map fun i =>
    ("index"ₛ, some (i.name ++ if i.columns.length = 1 then [] else ",priority:"ₛ ++ itoa (i.columns.idxOf column + 1)))

/-- The settings of a field. -/
def tagList (t : Table) (u : Str) (override : Bool) (c : Column) : List (Str × Option Str) :=
  (if override then [("column"ₛ, some c.name)] else []) ++
  typeList c ++
  (if c.primaryKey then [("primary_key"ₛ, none)] else []) ++
  (if c.uniqueKey then [if u = [] then ("unique"ₛ, none) else ("unique_index"ₛ, some u)] else []) ++
  indexList t c.name ++
  (if c.autoIncremental then [("auto_increment"ₛ, none)] else []) ++
  (if c.notNull && !c.autoIncremental then [("not null"ₛ, none)] else [])

theorem map_ite {α β : Type} (f : α → β) (p : Prop) [Decidable p] (a b : List α) :
    (if p then a else b).map f = if p then a.map f else b.map f := by split <;> rfl

theorem type_map (c : Column) : (typeList c).map tagStr = if typeTag c = [] then [] else [typeTag c] := by
  unfold typeList typeTag
  split
  · split
    · rw [if_neg (by simp)]
      simp [tagStr]
    · rfl
  · split
    · split
      · rw [if_neg (by simp)]
        simp [tagStr]
      · rfl
    · rfl

theorem index_map (t : Table) (column : Str) : (indexList t column).map tagStr = t.indices.filterMap (indexTag column) := by
  unfold indexList
  rw [List.map_map]
  induction t.indices with
  | nil => rfl
  | cons i l ih =>
    rw [List.filterMap_cons, List.filter_cons]
    unfold indexTag at ih ⊢
    by_cases h : column ∈ i.columns
    · rw [if_pos h, if_pos (by simpa using h), List.map_cons, ih]
      dsimp only
      congr 1
      show "index"ₛ ++ ':' :: (i.name ++ _) = _
      split
      · rw [List.append_nil]; rfl
      · simp
    · rw [if_neg h, if_neg (by simpa using h), ih]

theorem tag_map (t : Table) (u : Str) (f : GoField) :
    fieldTags t u f = (tagList t u f.overrideName f.column).map tagStr := by
  unfold fieldTags tagList
  simp only [List.map_append, map_ite, type_map, index_map]
  congr 6
  split
  · rfl
  · rfl

theorem mem_ite_nil {α : Type} {p : Prop} [Decidable p] {a : α} {l : List α} : a ∈ (if p then l else []) ↔ p ∧ a ∈ l := by
  split
  · rename_i h; simp [h]
  · rename_i h; simp [h]

theorem mem_typeList {c : Column} {k : Str} {v : Option Str} : (k, v) ∈ typeList c ↔ k = "type"ₛ ∧
    ((c.type ∈ ["bit"ₛ, "char"ₛ, "varchar"ₛ] ∧ 0 < c.size ∧ v = some (c.type ++ "("ₛ ++ itoa c.size.toNat ++ ")"ₛ)) ∨
    (c.type ∈ ["double"ₛ, "float"ₛ, "decimal"ₛ] ∧ 0 < c.size ∧ 0 < c.scale ∧
      v = some (c.type ++ "("ₛ ++ itoa c.size.toNat ++ ","ₛ ++ itoa c.scale.toNat ++ ")"ₛ))) := by
  have excl : c.type ∈ ["bit"ₛ, "char"ₛ, "varchar"ₛ] → c.type ∉ ["double"ₛ, "float"ₛ, "decimal"ₛ] := by
    intro h
    generalize c.type = x at h
    revert x
    decide
  unfold typeList
  by_cases h1 : c.type ∈ ["bit"ₛ, "char"ₛ, "varchar"ₛ]
  · rw [if_pos h1, mem_ite_nil, List.mem_singleton, Prod.mk.injEq]
    have := excl h1
    tauto
  · rw [if_neg h1]
    by_cases h2 : c.type ∈ ["double"ₛ, "float"ₛ, "decimal"ₛ]
    · rw [if_pos h2, mem_ite_nil, List.mem_singleton, Prod.mk.injEq]
      tauto
    · rw [if_neg h2]
      constructor
      · intro h; cases h
      · tauto

theorem mem_indexList {t : Table} {n k : Str} {v : Option Str} (h : (k, v) ∈ indexList t n) : k = "index"ₛ := by
  obtain ⟨i, _, e⟩ := List.mem_map.1 h
  exact (congrArg Prod.fst e).symm

theorem mem_tagList {t : Table} {u : Str} {b : Bool} {c : Column} {k : Str} {v : Option Str} :
    (k, v) ∈ tagList t u b c ↔ (b = true ∧ k = "column"ₛ ∧ v = some c.name) ∨ (k, v) ∈ typeList c ∨
      (c.primaryKey = true ∧ k = "primary_key"ₛ ∧ v = none) ∨
      (c.uniqueKey = true ∧ ((u = [] ∧ k = "unique"ₛ ∧ v = none) ∨ (u ≠ [] ∧ k = "unique_index"ₛ ∧ v = some u))) ∨
      (k, v) ∈ indexList t c.name ∨ (c.autoIncremental = true ∧ k = "auto_increment"ₛ ∧ v = none) ∨
      (c.notNull = true ∧ c.autoIncremental = false ∧ k = "not null"ₛ ∧ v = none) := by
  have hu : (k, v) ∈ [if u = [] then ("unique"ₛ, (none : Option Str)) else ("unique_index"ₛ, some u)] ↔
      (u = [] ∧ k = "unique"ₛ ∧ v = none) ∨ (u ≠ [] ∧ k = "unique_index"ₛ ∧ v = some u) := by
    by_cases h : u = []
    · rw [if_pos h, List.mem_singleton, Prod.mk.injEq]; tauto
    · rw [if_neg h, List.mem_singleton, Prod.mk.injEq]; tauto
  unfold tagList
  simp only [List.mem_append, mem_ite_nil, List.mem_singleton, Prod.mk.injEq, or_assoc]
  rw [← List.mem_singleton (a := (k, v)), hu, Bool.and_eq_true, Bool.not_eq_true', and_assoc]

theorem keys_ite {p : Prop} [Decidable p] (k : Str) (v : Option Str) :
    List.Sublist (((if p then [(k, v)] else []).map Prod.fst).filter (fun k => k ≠ "index"ₛ)) [k] := by
  refine List.filter_sublist.trans ?_
  split
  · exact .refl _
  · exact List.nil_sublist _

theorem tags_once (t : Table) (u : Str) (b : Bool) (c : Column) :
    (((tagList t u b c).map Prod.fst).filter (fun k => k ≠ "index"ₛ)).Nodup := by
  have h1 : List.Sublist (((typeList c).map Prod.fst).filter (fun k => k ≠ "index"ₛ)) ["type"ₛ] := by
    refine List.filter_sublist.trans ?_
    unfold typeList
    split
    · split
      · exact .refl _
      · exact List.nil_sublist _
    · split
      · split
        · exact .refl _
        · exact List.nil_sublist _
      · exact List.nil_sublist _
  have h2 : ((indexList t c.name).map Prod.fst).filter (fun k => k ≠ "index"ₛ) = [] := by
    rw [List.filter_eq_nil_iff]
    intro k hk
    obtain ⟨⟨k', v⟩, hp, rfl⟩ := List.mem_map.1 hk
    rw [show (k', v).1 = "index"ₛ from mem_indexList hp]
    decide
  have h3 : List.Sublist (((if c.uniqueKey = true then [if u = [] then ("unique"ₛ, (none : Option Str)) else ("unique_index"ₛ, some u)]
      else []).map Prod.fst).filter (fun k => k ≠ "index"ₛ)) ["unique"ₛ, "unique_index"ₛ] := by
    refine List.filter_sublist.trans ?_
    split
    · split
      · exact .cons_cons _ (List.nil_sublist _)
      · exact .cons _ (.refl _)
    · exact List.nil_sublist _
  have : List.Sublist (((tagList t u b c).map Prod.fst).filter (fun k => k ≠ "index"ₛ))
      (["column"ₛ] ++ ["type"ₛ] ++ ["primary_key"ₛ] ++ ["unique"ₛ, "unique_index"ₛ] ++ [] ++ ["auto_increment"ₛ] ++ ["not null"ₛ]) := by
    unfold tagList
    simp only [List.map_append, List.filter_append]
    refine .append (.append (.append (.append (.append (.append (keys_ite _ _) h1) (keys_ite _ _)) h3) ?_) (keys_ite _ _)) (keys_ite _ _)
    rw [h2]
  exact this.nodup (by decide)

theorem filter_ite_ne {p : Prop} [Decidable p] {k : Str} {v : Option Str} (h : k ≠ "index"ₛ) :
    (if p then [(k, v)] else []).filter (fun p => p.1 = "index"ₛ) = [] := by
  split
  · rw [List.filter_cons, if_neg (by simpa using h)]; rfl
  · rfl

theorem tags_index (t : Table) (u : Str) (b : Bool) (c : Column) :
    (tagList t u b c).filter (fun p => p.1 = "index"ₛ) = indexList t c.name := by
  have h1 : (typeList c).filter (fun p => p.1 = "index"ₛ) = [] := by
    rw [List.filter_eq_nil_iff]
    rintro ⟨k, v⟩ hp
    rw [(mem_typeList.1 hp).1, decide_eq_true_eq]
    exact (by decide : "type"ₛ ≠ "index"ₛ)
  have h2 : (indexList t c.name).filter (fun p => p.1 = "index"ₛ) = indexList t c.name := by
    rw [List.filter_eq_self]
    rintro ⟨k, v⟩ hp
    rw [mem_indexList hp, decide_eq_true_eq]
  have h3 : (if c.uniqueKey = true then [if u = [] then ("unique"ₛ, (none : Option Str)) else ("unique_index"ₛ, some u)]
      else []).filter (fun p => p.1 = "index"ₛ) = [] := by
    rw [List.filter_eq_nil_iff]
    intro p hp
    rw [mem_ite_nil, List.mem_singleton] at hp
    rw [hp.2]
    split
    · rw [decide_eq_true_eq]
      exact (by decide : "unique"ₛ ≠ "index"ₛ)
    · rw [decide_eq_true_eq]
      exact (by decide : "unique_index"ₛ ≠ "index"ₛ)
  unfold tagList
  simp only [List.filter_append]
  rw [h1, h2, h3, filter_ite_ne (by decide), filter_ite_ne (by decide), filter_ite_ne (by decide), filter_ite_ne (by decide)]
  simp

/-- The name of the constraint for several unique columns. -/
def cstName (o : GormOption) (t : Table) : Str := if (uniqueColumns t).length > 1 then t.name ++ o.uniqueNameSuffix else []

theorem cstName_nil {o : GormOption} {t : Table} (h : t.name ≠ []) : cstName o t = [] ↔ (uniqueColumns t).length ≤ 1 := by
  unfold cstName
  split
  · rename_i h'
    constructor
    · intro e; exact absurd (List.append_eq_nil_iff.1 e).1 h
    · intro; omega
  · rename_i h'
    exact ⟨fun _ => by omega, fun _ => rfl⟩

theorem cstName_cons {o : GormOption} {t : Table} (h : 2 ≤ (uniqueColumns t).length) : cstName o t = t.name ++ o.uniqueNameSuffix := by
  unfold cstName
  rw [if_pos (by omega)]

theorem gormTags {sc : Strcase} {o : GormOption} {t : Table} {c : Column} (hne : t.name ≠ []) {b : Bool}
    (hb : b = true ↔ NeedsColumn sc c.name) : GormTags sc o t c (tagList t (cstName o t) b c) where
  column v := by
    rw [mem_tagList]
    constructor
    · rintro (⟨h, _, e⟩ | h | ⟨_, h, _⟩ | ⟨_, ⟨_, h, _⟩ | ⟨_, h, _⟩⟩ | h | ⟨_, h, _⟩ | ⟨_, _, h, _⟩)
      · exact ⟨e, hb.1 h⟩
      · exact absurd (mem_typeList.1 h).1 (by decide)
      all_goals first | exact absurd h (by decide) | exact absurd (mem_indexList h) (by decide)
    · rintro ⟨e, h⟩; exact .inl ⟨hb.2 h, rfl, e⟩
  type v := by
    rw [mem_tagList]
    constructor
    · rintro (⟨_, h, _⟩ | h | ⟨_, h, _⟩ | ⟨_, ⟨_, h, _⟩ | ⟨_, h, _⟩⟩ | h | ⟨_, h, _⟩ | ⟨_, _, h, _⟩)
      · exact absurd h (by decide)
      · exact (mem_typeList.1 h).2
      all_goals first | exact absurd h (by decide) | exact absurd (mem_indexList h) (by decide)
    · intro h; exact .inr (.inl (mem_typeList.2 ⟨rfl, h⟩))
  primary v := by
    rw [mem_tagList]
    constructor
    · rintro (⟨_, h, _⟩ | h | ⟨h, _, e⟩ | ⟨_, ⟨_, h, _⟩ | ⟨_, h, _⟩⟩ | h | ⟨_, h, _⟩ | ⟨_, _, h, _⟩)
      · exact absurd h (by decide)
      · exact absurd (mem_typeList.1 h).1 (by decide)
      · exact ⟨e, h⟩
      all_goals first | exact absurd h (by decide) | exact absurd (mem_indexList h) (by decide)
    · rintro ⟨e, h⟩; exact .inr (.inr (.inl ⟨h, rfl, e⟩))
  auto v := by
    rw [mem_tagList]
    constructor
    · rintro (⟨_, h, _⟩ | h | ⟨_, h, _⟩ | ⟨_, ⟨_, h, _⟩ | ⟨_, h, _⟩⟩ | h | ⟨h, _, e⟩ | ⟨_, _, h, _⟩)
      · exact absurd h (by decide)
      · exact absurd (mem_typeList.1 h).1 (by decide)
      · exact absurd h (by decide)
      · exact absurd h (by decide)
      · exact absurd h (by decide)
      · exact absurd (mem_indexList h) (by decide)
      · exact ⟨e, h⟩
      · exact absurd h (by decide)
    · rintro ⟨e, h⟩; exact .inr (.inr (.inr (.inr (.inr (.inl ⟨h, rfl, e⟩)))))
  notNull v := by
    rw [mem_tagList]
    constructor
    · rintro (⟨_, h, _⟩ | h | ⟨_, h, _⟩ | ⟨_, ⟨_, h, _⟩ | ⟨_, h, _⟩⟩ | h | ⟨_, h, _⟩ | ⟨h1, h2, _, e⟩)
      · exact absurd h (by decide)
      · exact absurd (mem_typeList.1 h).1 (by decide)
      · exact absurd h (by decide)
      · exact absurd h (by decide)
      · exact absurd h (by decide)
      · exact absurd (mem_indexList h) (by decide)
      · exact absurd h (by decide)
      · exact ⟨e, h1, h2⟩
    · rintro ⟨e, h1, h2⟩; exact .inr (.inr (.inr (.inr (.inr (.inr ⟨h1, h2, rfl, e⟩)))))
  unique v := by
    rw [mem_tagList]
    constructor
    · rintro (⟨_, h, _⟩ | h | ⟨_, h, _⟩ | ⟨h1, ⟨h2, _, e⟩ | ⟨_, h, _⟩⟩ | h | ⟨_, h, _⟩ | ⟨_, _, h, _⟩)
      · exact absurd h (by decide)
      · exact absurd (mem_typeList.1 h).1 (by decide)
      · exact absurd h (by decide)
      · exact ⟨e, h1, (cstName_nil hne).1 h2⟩
      all_goals first | exact absurd h (by decide) | exact absurd (mem_indexList h) (by decide)
    · rintro ⟨e, h1, h2⟩; exact .inr (.inr (.inr (.inl ⟨h1, .inl ⟨(cstName_nil hne).2 h2, rfl, e⟩⟩)))
  uniqueIndex v := by
    rw [mem_tagList]
    constructor
    · rintro (⟨_, h, _⟩ | h | ⟨_, h, _⟩ | ⟨h1, ⟨_, h, _⟩ | ⟨h2, _, e⟩⟩ | h | ⟨_, h, _⟩ | ⟨_, _, h, _⟩)
      · exact absurd h (by decide)
      · exact absurd (mem_typeList.1 h).1 (by decide)
      · exact absurd h (by decide)
      · exact absurd h (by decide)
      · rw [Ne, cstName_nil hne, not_le] at h2
        rw [cstName_cons h2] at e
        exact ⟨e, h1, h2⟩
      all_goals first | exact absurd h (by decide) | exact absurd (mem_indexList h) (by decide)
    · rintro ⟨e, h1, h2⟩
      refine .inr (.inr (.inr (.inl ⟨h1, .inr ⟨?_, rfl, ?_⟩⟩)))
      · rw [Ne, cstName_nil hne]; omega
      · rw [cstName_cons h2, e]
  index := by
    rw [tags_index]
    unfold indexList
    rw [List.map_map]
    rfl
  once := tags_once _ _ _ _
  others p hp := by
    obtain ⟨k, v⟩ := p
    rw [mem_tagList] at hp
    show k ∈ _
    rcases hp with ⟨_, h, _⟩ | h | ⟨_, h, _⟩ | ⟨_, ⟨_, h, _⟩ | ⟨_, h, _⟩⟩ | h | ⟨_, h, _⟩ | ⟨_, _, h, _⟩
    · rw [h]; decide
    · rw [(mem_typeList.1 h).1]; decide
    · rw [h]; decide
    · rw [h]; decide
    · rw [h]; decide
    · rw [mem_indexList h]; decide
    · rw [h]; decide
    · rw [h]; decide

/-! ### Plain settings -/

theorem ident_tag {s : Str} (h : s.all isIdent = true) : ∀ c ∈ s, tagBad c = false := by
  intro c hc
  have := List.all_eq_true.1 h c hc
  unfold tagBad
  simp only [Bool.or_eq_false_iff, beq_eq_false_iff_ne]
  refine ⟨⟨⟨⟨?_, ?_⟩, ?_⟩, ?_⟩, ?_⟩ <;> (rintro rfl; revert this; decide)

theorem itoa_tag (n : Nat) : ∀ c ∈ itoa n, tagBad c = false := by
  intro c hc
  have := itoa_digits n c hc
  unfold tagBad
  simp only [Bool.or_eq_false_iff, beq_eq_false_iff_ne]
  refine ⟨⟨⟨⟨?_, ?_⟩, ?_⟩, ?_⟩, ?_⟩ <;> (rintro rfl; revert this; decide)

theorem append_tag {a b : Str} (ha : ∀ c ∈ a, tagBad c = false) (hb : ∀ c ∈ b, tagBad c = false) :
    ∀ c ∈ a ++ b, tagBad c = false := by
  intro c hc
  rcases List.mem_append.1 hc with h | h
  · exact ha c h
  · exact hb c h

theorem plain_some {k v : Str} (h : (k.all (fun c => !tagBad c && c != ':')) = true) (hv : ∀ c ∈ v, tagBad c = false) :
    PlainTag (k, some v) := by
  rw [List.all_eq_true] at h
  refine ⟨fun c hc => ?_, fun hc => ?_, fun x e => ?_⟩
  · have := h c hc
    rw [Bool.and_eq_true, Bool.not_eq_true'] at this
    exact this.1
  · exact absurd (h _ hc) (by decide)
  · cases e; exact hv

theorem plain_none {k : Str} (h : (k.all (fun c => !tagBad c && c != ':')) = true) : PlainTag (k, none) := by
  have := plain_some (v := []) h (by simp)
  refine ⟨this.1, this.2.1, ?_⟩
  intro x e; cases e

theorem plain_tagList {o : GormOption} {s : Schema} (hp : PlainGorm o s) {t : Table} (ht : t ∈ s.tables) {c : Column}
    (hc : c ∈ t.columns) (b : Bool) : ∀ p ∈ tagList t (cstName o t) b c, PlainTag p := by
  rintro ⟨k, v⟩ h
  rw [mem_tagList] at h
  rcases h with ⟨_, rfl, rfl⟩ | h | ⟨_, rfl, rfl⟩ | ⟨_, ⟨_, rfl, rfl⟩ | ⟨hu, rfl, rfl⟩⟩ | h | ⟨_, rfl, rfl⟩ | ⟨_, _, rfl, rfl⟩
  · exact plain_some (by decide) (ident_tag (hp.columns t ht c hc).1.2)
  · obtain ⟨rfl, ⟨h1, _, rfl⟩ | ⟨h1, _, _, rfl⟩⟩ := mem_typeList.1 h
    · have : ∀ x ∈ c.type, tagBad x = false := by
        generalize c.type = x at h1
        revert x
        decide
      exact plain_some (by decide) (append_tag (append_tag (append_tag this (by decide)) (itoa_tag _)) (by decide))
    · have : ∀ x ∈ c.type, tagBad x = false := by
        generalize c.type = x at h1
        revert x
        decide
      exact plain_some (by decide) (append_tag (append_tag (append_tag (append_tag (append_tag this (by decide)) (itoa_tag _))
        (by decide)) (itoa_tag _)) (by decide))
  · exact plain_none (by decide)
  · exact plain_none (by decide)
  · refine plain_some (by decide) ?_
    unfold cstName
    split
    · exact append_tag (ident_tag (hp.tables t ht).1.2) (ident_tag hp.suffix)
    · simp
  · obtain ⟨i, hi, e⟩ := List.mem_map.1 h
    obtain ⟨rfl, rfl⟩ := Prod.mk.inj e
    refine plain_some (by decide) (append_tag (ident_tag (hp.indices t ht i (List.mem_filter.1 hi).1).2) ?_)
    split
    · simp
    · exact append_tag (by decide) (itoa_tag _)
  · exact plain_none (by decide)
  · exact plain_none (by decide)

end Octo.Gorm
