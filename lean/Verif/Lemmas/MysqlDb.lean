import Verif.Spec.MysqlDb
import Verif.Lemmas.Migrate
import Verif.Lemmas.Str

/-! What the exported script builds. -/

namespace Octo
open Spec

section
variable (ty : Column → Str) (suffix : Str) (t : Table)

theorem ddlTable_columns : (ddlTable ty suffix t).columns = t.columns.map (ddlColumn ty) := by
  unfold ddlTable DdlTable.columns
  simp only [List.filterMap_append, List.filterMap_map, Function.comp_def]
  have h1 : ∀ cs : List Column, List.filterMap (fun c => some (ddlColumn ty c)) cs = cs.map (ddlColumn ty) := by
    intro cs; induction cs with
    | nil => rfl
    | cons a r ih => simp [ih]
  have h2 : ∀ cs : List Index, List.filterMap (fun _ => (none : Option DdlColumn)) cs = [] := by
    intro cs; induction cs with
    | nil => rfl
    | cons a r ih => simp [ih]
  rw [h1, h2]
  cases t.columns.filter (·.primaryKey) <;> cases t.columns.filter (·.uniqueKey) <;> simp

theorem ddlTable_keys : (ddlTable ty suffix t).keys =
    if t.columns.filter (·.primaryKey) = [] then [] else [(t.columns.filter (·.primaryKey)).map (·.name)] := by
  unfold ddlTable DdlTable.keys
  simp only [List.filterMap_append, List.filterMap_map, Function.comp_def]
  have h1 : ∀ cs : List Column, List.filterMap (fun _ => (none : Option (List Str))) cs = [] := by
    intro cs; induction cs with
    | nil => rfl
    | cons a r ih => simp [ih]
  have h2 : ∀ cs : List Index, List.filterMap (fun _ => (none : Option (List Str))) cs = [] := by
    intro cs; induction cs with
    | nil => rfl
    | cons a r ih => simp [ih]
  rw [h1, h2]
  cases t.columns.filter (·.primaryKey) <;> cases t.columns.filter (·.uniqueKey) <;> simp

theorem ddlTable_uniqueKeys : (ddlTable ty suffix t).uniqueKeys =
    if t.columns.filter (·.uniqueKey) = [] then []
    else [(t.name ++ suffix, (t.columns.filter (·.uniqueKey)).map (·.name))] := by
  unfold ddlTable DdlTable.uniqueKeys
  simp only [List.filterMap_append, List.filterMap_map, Function.comp_def]
  have h1 : ∀ cs : List Column, List.filterMap (fun _ => (none : Option (Str × List Str))) cs = [] := by
    intro cs; induction cs with
    | nil => rfl
    | cons a r ih => simp [ih]
  have h2 : ∀ cs : List Index, List.filterMap (fun _ => (none : Option (Str × List Str))) cs = [] := by
    intro cs; induction cs with
    | nil => rfl
    | cons a r ih => simp [ih]
  rw [h1, h2]
  cases t.columns.filter (·.primaryKey) <;> cases t.columns.filter (·.uniqueKey) <;> simp

theorem ddlTable_indexKeys : (ddlTable ty suffix t).indexKeys = t.indices.map fun i => (i.name, i.columns) := by
  unfold ddlTable DdlTable.indexKeys
  simp only [List.filterMap_append, List.filterMap_map, Function.comp_def]
  have h1 : ∀ cs : List Column, List.filterMap (fun _ => (none : Option (Str × List Str))) cs = [] := by
    intro cs; induction cs with
    | nil => rfl
    | cons a r ih => simp [ih]
  have h2 : ∀ cs : List Index, List.filterMap (fun i => some (i.name, i.columns)) cs = cs.map fun i => (i.name, i.columns) := by
    intro cs; induction cs with
    | nil => rfl
    | cons a r ih => simp [ih]
  rw [h1, h2]
  cases t.columns.filter (·.primaryKey) <;> cases t.columns.filter (·.uniqueKey) <;> simp

variable {t}

theorem hasUnique_iff_filter : HasUnique t ↔ t.columns.filter (·.uniqueKey) ≠ [] := by
  unfold HasUnique
  rw [ne_eq, List.filter_eq_nil_iff]
  push Not
  rfl

theorem mem_names_filter (p : Column → Bool) (n : Str) :
    n ∈ (t.columns.filter p).map (·.name) ↔ ∃ c ∈ t.columns, p c = true ∧ c.name = n := by
  simp only [List.mem_map, List.mem_filter, and_assoc]

theorem ddlTable_inKey (n : Str) : (ddlTable ty suffix t).inKey n ↔ pkNames t n := by
  unfold DdlTable.inKey pkNames
  rw [ddlTable_keys, ← mem_names_filter]
  split
  · rename_i h; simp [h]
  · simp only [List.mem_singleton, exists_eq_left]

theorem ddlTable_names : ((ddlTable ty suffix t).columns.map (·.name)) = t.columns.map (·.name) := by
  rw [ddlTable_columns, List.map_map]; rfl

theorem ddlTable_creatable (hnd : (t.columns.map (·.name)).Nodup) (hk : GoodKeys suffix t) :
    Creatable (ddlTable ty suffix t) := by
  have hin : ∀ p : Column → Bool, ∀ c ∈ (t.columns.filter p).map (·.name), c ∈ t.columns.map (·.name) := by
    intro p c hc
    obtain ⟨x, hx, _, rfl⟩ := (mem_names_filter p c).1 hc
    exact List.mem_map_of_mem hx
  refine ⟨?_, ?_, ?_, ?_, ?_⟩
  · rw [ddlTable_columns]
    exact fun e => hk.columns (List.map_eq_nil_iff.1 e)
  · rw [ddlTable_names]; exact hnd
  · rw [ddlTable_keys]; split <;> simp
  · rw [ddlTable_uniqueKeys, ddlTable_indexKeys, List.map_append, List.map_map]
    have hi : List.map ((fun x : Str × List Str => x.1) ∘ fun i : Index => (i.name, i.columns)) t.indices = t.indices.map (·.name) := rfl
    rw [hi]
    split
    · exact hk.indexNames
    · rename_i h
      exact List.nodup_cons.2 ⟨hk.noClash (hasUnique_iff_filter.2 h), hk.indexNames⟩
  · intro cs hcs c hc
    rw [ddlTable_names]
    rw [ddlTable_keys, ddlTable_uniqueKeys, ddlTable_indexKeys] at hcs
    simp only [List.map_append, List.mem_append] at hcs
    rcases hcs with h | h | h
    · split at h
      · cases h
      · rw [List.mem_singleton] at h; subst h; exact hin _ c hc
    · split at h
      · cases h
      · simp only [List.map_cons, List.map_nil, List.mem_singleton] at h; subst h; exact hin _ c hc
    · simp only [List.mem_map] at h
      obtain ⟨_, ⟨i, hi, rfl⟩, rfl⟩ := h
      exact hk.indexColumns i hi c hc

open Classical in
theorem create_cols (n : Str) : ∃ f : Column → DdlColumn, (ddlTable ty suffix t).create.cols n = (columnNamed t n).map f ∧
    ∀ c, columnNamed t n = some c → (f c).notNull = (c.notNull || decide (pkNames t n)) ∧
      f c = { ddlColumn ty c with notNull := (f c).notNull } := by
  classical
  refine ⟨fun c => { ddlColumn ty c with notNull := c.notNull || decide ((ddlTable ty suffix t).inKey n) }, ?_, ?_⟩
  · unfold DdlTable.create columnNamed
    dsimp only
    rw [ddlTable_columns, List.find?_map, Option.map_map]
    rfl
  · intro c _
    refine ⟨?_, rfl⟩
    dsimp only
    rw [decide_eq_decide.2 (ddlTable_inKey ty suffix n)]

theorem create_uniques (k : Str) : (ddlTable ty suffix t).create.uniques k =
    if t.columns.filter (·.uniqueKey) = [] then none else if t.name ++ suffix = k then some (uqNames t) else none := by
  have hu : (fun n => n ∈ (t.columns.filter (·.uniqueKey)).map (·.name)) = uqNames t := by
    funext n; exact propext (mem_names_filter _ n)
  unfold DdlTable.create
  dsimp only
  rw [ddlTable_uniqueKeys]
  split
  · rfl
  · by_cases h : t.name ++ suffix = k
    · rw [if_pos h, List.find?_cons_of_pos (by simpa using h), Option.map_some, hu]
    · rw [if_neg h, List.find?_cons_of_neg (by simpa using h), List.find?_nil, Option.map_none]

end

theorem valueMeaning_text (ty v : Str) : (valueMeaning ty v).text = v := by
  unfold valueMeaning
  split
  · rename_i h
    obtain ⟨r, rfl⟩ := (hasPrefix_iff _ _).1 h
    rfl
  · split <;> rfl

theorem valueMeaning_meaning (ty v : Str) :
    some (valueMeaning ty v).meaning = if hasPrefix v "fn::"ₛ then some (.call (v.drop 4)) else some (.literal v) := by
  unfold valueMeaning
  split
  · rfl
  · split <;> rfl

/-- The table of the script and the table of the changelog agree. -/
theorem sameTable (sys : Str → Prop) (uc : Bool) (ty : Column → Str) (suffix : Str) {t : Table}
    (hnd : (t.columns.map (·.name)).Nodup) {U : DbTable LqAttr}
    (h : HoldsTable sys uc true suffix t U) : SameTable sys uc (ddlTable ty suffix t).create U := by
  classical
  refine ⟨?_, ?_, ?_, ?_⟩
  · intro n
    obtain ⟨f, hf, hf'⟩ := create_cols ty suffix (t := t) n
    cases hc : columnNamed t n with
    | none => exact Or.inl ⟨by rw [hf, hc]; rfl, by rw [h.cols, hc]; rfl⟩
    | some c =>
      refine Or.inr ⟨f c, lqAttrOf uc c, by rw [hf, hc]; rfl, by rw [h.cols, hc]; rfl, ?_⟩
      obtain ⟨h1, h2⟩ := hf' c hc
      obtain ⟨hm, rfl⟩ := (columnNamed_eq_some hnd).1 hc
      have hp : decide (pkNames t c.name) = c.primaryKey := by
        cases hk : c.primaryKey with
        | true => exact decide_eq_true ⟨c, hm, hk, rfl⟩
        | false =>
          refine decide_eq_false ?_
          rintro ⟨c', hm', hk', he⟩
          have := List.inj_on_of_nodup_map hnd hm' hm he
          rw [this, hk] at hk'
          cases hk'
      refine ⟨?_, ?_, ?_, ?_⟩
      · rw [h1, hp, lqAttrOf]
      · rw [h2]; rfl
      · rw [h2]
        show Option.map SqlValue.meaning (if c.defaultValue = [] then none else some (valueMeaning c.type c.defaultValue)) =
          defaultMeaning c.defaultValue
        unfold defaultMeaning
        split
        · rfl
        · exact valueMeaning_meaning _ _
      · intro hu
        rw [h2]
        show (if c.description = [] then none else some c.description : Option Str).getD [] = if uc = true then c.description else []
        rw [if_pos hu]
        split
        · rename_i e; exact e.symm
        · rfl
  · intro n
    rw [h.pk]
    exact ddlTable_inKey ty suffix n
  · intro k s hs
    rw [create_uniques] at hs
    split at hs
    · cases hs
    · rename_i hu
      split at hs
      · rename_i e
        rw [← e, h.named rfl (hasUnique_iff_filter.2 hu), hs]
      · cases hs
  · intro k s hs
    obtain ⟨h1, rfl, h2⟩ := h.only k s hs
    have h3 : (ddlTable ty suffix t).create.uniques (t.name ++ suffix) = some (uqNames t) := by
      rw [create_uniques, if_neg (hasUnique_iff_filter.1 h1), if_pos rfl]
    rcases h2 with rfl | h2
    · exact Or.inl h3
    · exact Or.inr ⟨h2, _, h3⟩

/-- A script of creatable tables with distinct and free names runs. -/
theorem ddlRuns (ty : Column → Str) (suffix : Str) : ∀ (ts : List Table) (d : Db DdlColumn),
    (ts.map (·.name)).Nodup → (∀ t ∈ ts, Creatable (ddlTable ty suffix t)) → (∀ t ∈ ts, d t.name = none) →
    ∃ d', DdlRuns (ts.map (ddlTable ty suffix)) d d' ∧ (∀ t ∈ ts, d' t.name = some (ddlTable ty suffix t).create) ∧
      ∀ n, n ∉ ts.map (·.name) → d' n = d n := by
  intro ts
  induction ts with
  | nil => intro d _ _ _; exact ⟨d, rfl, by simp, fun _ _ => rfl⟩
  | cons t ts ih =>
    intro d hnd hcr hfree
    rw [List.map_cons, List.nodup_cons] at hnd
    have hne : ∀ u ∈ ts, u.name ≠ t.name := fun u hu e => hnd.1 (e ▸ List.mem_map_of_mem hu)
    obtain ⟨d', h1, h2, h3⟩ := ih (upd d t.name (some (ddlTable ty suffix t).create)) hnd.2
      (fun u hu => hcr u (List.mem_cons_of_mem _ hu)) (fun u hu => by
        unfold upd; rw [if_neg (hne u hu)]; exact hfree u (List.mem_cons_of_mem _ hu))
    refine ⟨d', ⟨_, Or.inr ⟨hfree t List.mem_cons_self, hcr t List.mem_cons_self, rfl⟩, h1⟩, ?_, ?_⟩
    · intro u hu
      rcases List.mem_cons.1 hu with rfl | hu
      · rw [h3 _ hnd.1]; unfold upd; rw [if_pos rfl]
      · exact h2 u hu
    · intro n hn
      rw [List.map_cons, List.mem_cons, not_or] at hn
      rw [h3 n hn.2]; unfold upd; rw [if_neg hn.1]

/-- Statements are deterministic. -/
theorem ddlRuns_unique : ∀ {ts : List DdlTable} {d d₁ d₂ : Db DdlColumn}, DdlRuns ts d d₁ → DdlRuns ts d d₂ → d₁ = d₂ := by
  intro ts
  induction ts with
  | nil => intro d d₁ d₂ h1 h2; rw [h1, h2]
  | cons t ts ih =>
    rintro d d₁ d₂ ⟨e1, s1, r1⟩ ⟨e2, s2, r2⟩
    have : e1 = e2 := by
      rcases s1 with ⟨a, rfl⟩ | ⟨a, _, rfl⟩ <;> rcases s2 with ⟨b, rfl⟩ | ⟨b, _, rfl⟩
      · rfl
      · rw [b] at a; cases a
      · rw [a] at b; cases b
      · rfl
    subst this
    exact ih r1 r2

/-- A script run twice has the effect of running it once. -/
theorem ddlRuns_known : ∀ {ts : List DdlTable} {d : Db DdlColumn}, (∀ t ∈ ts, (d t.name).isSome) → DdlRuns ts d d := by
  intro ts
  induction ts with
  | nil => intro d _; rfl
  | cons t ts ih =>
    intro d h
    exact ⟨d, Or.inl ⟨h t List.mem_cons_self, rfl⟩, ih fun u hu => h u (List.mem_cons_of_mem _ hu)⟩

end Octo
