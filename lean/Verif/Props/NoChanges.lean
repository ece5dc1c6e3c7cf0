import Verif.Props.ExactDiff
import Verif.Props.Flyway
import Verif.Props.LiquibaseDb
import Verif.Props.ExactLqDiff

/-! Property C159: when a diff is empty. -/

namespace Octo.Spec

/-- What is the same about a column of two versions when nothing is reported about it. -/
structure ColumnSame (uc : Bool) (c b : Column) : Prop where
  type : SameDeclared c b
  description : uc = true → c.description = b.description
  notNull : c.notNull = b.notNull
  default : c.defaultValue = b.defaultValue

/-- What is the same about a table of two versions when nothing is reported about it: all old columns are still there, those in both versions
are the same, and the same columns make up the primary key and the unique constraint. -/
structure TableSame (uc : Bool) (t o : Table) : Prop where
  description : uc = true → t.description = o.description
  stay : ∀ b ∈ o.columns, b.name ∈ t.columns.map (·.name)
  columns : ∀ c ∈ t.columns, ∀ b ∈ o.columns, c.name = b.name → ColumnSame uc c b
  key : SameKey t o
  unique : SameUnique t o

/-- The same tables, compared with `same`. -/
def TablesSame (filter : Option (Table → Bool)) (same : Table → Table → Prop) (old new : Schema) : Prop :=
  (∀ o ∈ old.tables, o.name ∈ (new.tables.filter (passes filter)).map (·.name)) ∧
  ∀ t ∈ new.tables, passes filter t = true → ∃ o ∈ old.tables, o.name = t.name ∧ same t o

end Octo.Spec

namespace Octo
open Spec

theorem number_nil (author : Str) (m : Nat) (bs : List Block) : number author m bs = [] ↔ ∀ b ∈ bs, b = [] := by
  induction bs generalizing m with
  | nil => simp [number]
  | cons b bs ih => simp [number, stamp, ih]

theorem toBlock_nil (k : Nat) (ps : Pieces) : toBlock k ps = [] ↔ ∀ p ∈ ps, p.1 = false := by
  induction ps generalizing k with
  | nil => simp [toBlock]
  | cons p ps ih => obtain ⟨e, cs⟩ := p; cases e <;> simp [toBlock, ih]

section
variable {α : Type} (get : Str → Option α) (m : α → α → Bool)

theorem findRenames_none (as : List α) : findRenames get m as ⟨[]⟩ = (as.map fun a => (a, none), ⟨[]⟩) := by
  induction as with
  | nil => rfl
  | cons a as ih =>
    rw [findRenames_cons]
    split
    · next n h => exact absurd (find_slice_spec get m a _ n h).1 (by simp)
    · rw [ih]; rfl

theorem renames_nil (name : α → Str) (hname : ∀ n r, get n = some r → name r = n) (as : List α) (rem : StringSet) (h : rem.keys.Nodup) :
    renamedPairs (findRenames get m as rem).1 = [] ∧ (findRenames get m as rem).2.slice = [] ↔ rem = ⟨[]⟩ := by
  have hp := findRenames_partition get m name hname as rem h
  constructor
  · rintro ⟨h1, h2⟩
    have h3 : (findRenames get m as rem).2.keys = [] := by
      have := slice_perm (findRenames get m as rem).2
      rw [h2] at this
      exact this.symm.eq_nil
    rw [h1, h3] at hp
    have := hp.symm.eq_nil
    cases rem; exact congrArg _ this
  · rintro rfl
    rw [findRenames_none]
    exact ⟨by simp [renamedPairs], slice_nil⟩

theorem notRenamed_none (as : List α) : notRenamed (findRenames get m as ⟨[]⟩).1 = as := by
  rw [findRenames_none]
  simp [notRenamed]
end

/-- The columns that no longer exist. -/
theorem removedNames_nil {t o : Table} : removedNames t o = ⟨[]⟩ ↔ ∀ b ∈ o.columns, b.name ∈ t.columns.map (·.name) := by
  constructor
  · intro h b hb
    by_contra hn
    have : b.name ∈ (removedNames t o).keys := mem_removedNames.2 ⟨List.mem_map_of_mem hb, hn⟩
    rw [h] at this; cases this
  · intro h
    refine set_eq_empty fun n hn => ?_
    obtain ⟨h1, h2⟩ := mem_removedNames.1 hn
    obtain ⟨b, hb, rfl⟩ := List.mem_map.1 h1
    exact h2 (h b hb)

theorem columnRenames_nil {t o : Table} {uc : Bool} :
    renamedPairs (columnRenames t o uc).1 = [] ∧ (columnRenames t o uc).2.slice = [] ↔ ∀ b ∈ o.columns, b.name ∈ t.columns.map (·.name) := by
  rw [← removedNames_nil]
  exact renames_nil _ _ Column.name (fun n r h => (lastBy_some h).2) _ _ (nodup_removedNames t o)

theorem sched_nil {β : Type} {f : List β → List β} (h : ∀ l, (f l).Perm l) (l : List β) : f l = [] ↔ l = [] :=
  ⟨fun e => by have := h l; rw [e] at this; exact this.symm.eq_nil, fun e => by subst e; exact (h []).eq_nil⟩

theorem uniqueSize_pos (t : Table) : t.uniqueKeyNameSet.size > 0 ↔ HasUnique t := by
  unfold StringSet.size HasUnique
  rw [gt_iff_lt, List.length_pos_iff_exists_mem]
  simp only [mem_uniqueKeyNameSet]
  exact ⟨fun ⟨n, c, hc, hu, _⟩ => ⟨c, hc, hu⟩, fun ⟨c, hc, hu⟩ => ⟨c.name, c, hc, hu, rfl⟩⟩

theorem unique_quiet (t o : Table) : ((uniqueChanged t o && decide (o.uniqueKeyNameSet.size > 0)) = false ∧
    (uniqueChanged t o && decide (t.uniqueKeyNameSet.size > 0)) = false) ↔ SameUnique t o := by
  unfold SameUnique
  rw [← uniqueChanged_iff]
  cases h : uniqueChanged t o with
  | false => simp
  | true =>
    simp only [Bool.true_and, decide_eq_false_iff_not, uniqueSize_pos, Bool.true_eq_false, iff_false]
    rintro ⟨h1, h2⟩
    have : uniqueChanged t o = false := (uniqueChanged_iff t o).2 fun n =>
      ⟨fun ⟨c, hc, hu, _⟩ => absurd ⟨c, hc, hu⟩ h2, fun ⟨c, hc, hu, _⟩ => absurd ⟨c, hc, hu⟩ h1⟩
    rw [h] at this; cases this

theorem columnPieces_quiet (t : Table) (c b : Column) (uc : Bool) (hn : c.name = b.name) :
    (∀ p ∈ columnPieces t c b uc, p.1 = false) ↔ ColumnSame uc c b ∧ c.autoIncremental = b.autoIncremental := by
  have hw : ∀ (x : Bool) (l : List Change), (∀ p ∈ whenP x l, p.1 = false) ↔ x = false := by
    intro x l; cases x <;> simp [whenP]
  simp only [columnPieces, List.forall_mem_append, hw]
  constructor
  · rintro ⟨-, h2, h3, h4, h5, h6⟩
    simp only [Bool.or_eq_false_iff, bne_eq_false_iff_eq, Bool.and_eq_false_iff] at h2 h3 h4 h5 h6
    refine ⟨⟨⟨h2.1.1, h2.1.2, h2.2⟩, fun hu => ?_, h4, h6⟩, h5⟩
    rcases h3 with h3 | h3
    · rw [hu] at h3; cases h3
    · exact h3
  · rintro ⟨⟨⟨h1, h2, h3⟩, h4, h5, h6⟩, h7⟩
    refine ⟨?_, ?_, ?_, ?_, ?_, ?_⟩
    · simp [hn]
    · simp [h1, h2, h3]
    · cases uc
      · rfl
      · simp [h4 rfl]
    · simp [h5]
    · simp [h7]
    · simp [h6]

theorem tableBlock_quiet (sched : List (Column × Column) → List (Column × Column)) (hs : ∀ l, (sched l).Perm l) (t o : Table) (uc : Bool)
    (suffix : Str) (ho : (o.columns.map (·.name)).Nodup) : tableBlock sched t o uc suffix = [] ↔
    TableSame uc t o ∧ ∀ c ∈ t.columns, ∀ b ∈ o.columns, c.name = b.name → c.autoIncremental = b.autoIncremental := by
  have hw : ∀ (x : Bool) (l : List Change), (∀ p ∈ whenP x l, p.1 = false) ↔ x = false := by
    intro x l; cases x <;> simp [whenP]
  have hm : ∀ {β : Type} (l : List β) (f : β → List Change), (∀ p ∈ l.map (fun x => (true, f x)), p.1 = false) ↔ l = [] := by
    intro β l f; cases l <;> simp
  have hmid : ∀ p ∈ (if (notRenamed (columnRenames t o uc).1).length > 0 then
      [(false, (notRenamed (columnRenames t o uc).1).map (Change.addColumn t))] else []), p.1 = false := by
    split <;> simp
  have hk : (∀ p ∈ (keptColumns t o).flatMap (fun p => columnPieces t p.1 p.2 uc), p.1 = false) ↔
      ∀ c ∈ t.columns, ∀ b ∈ o.columns, c.name = b.name → ColumnSame uc c b ∧ c.autoIncremental = b.autoIncremental := by
    constructor
    · intro h c hc b hb e
      have hkc : (c, b) ∈ keptColumns t o := mem_keptColumns.2 ⟨hc, by rw [e]; exact lastBy_nodup ho hb⟩
      exact (columnPieces_quiet t c b uc e).1 fun p hp => h p (List.mem_flatMap.2 ⟨_, hkc, hp⟩)
    · intro h p hp
      obtain ⟨⟨c, b⟩, hkc, hp⟩ := List.mem_flatMap.1 hp
      obtain ⟨h1, h2⟩ := mem_keptColumns.1 hkc
      obtain ⟨h3, h4⟩ := lastBy_some h2
      exact (columnPieces_quiet t c b uc h4.symm).2 (h c h1 b h3 h4.symm) p hp
  have hkey : (!t.primaryKeyNameSet.equals o.primaryKeyNameSet) = false ↔ SameKey t o := by
    rw [Bool.not_eq_false']; exact primaryChanged_iff t o
  unfold tableBlock tablePieces
  rw [toBlock_nil]
  simp only [List.forall_mem_append, hw, hm, sched_nil hs]
  rw [hk, hkey]
  constructor
  · rintro ⟨h1, h2, h3, h4, h5, -, h6, h7⟩
    refine ⟨⟨fun hu => ?_, columnRenames_nil.1 ⟨h5, h4⟩, fun c hc b hb e => (h2 c hc b hb e).1, h6, (unique_quiet t o).1 ⟨h3, h7⟩⟩,
      fun c hc b hb e => (h2 c hc b hb e).2⟩
    rw [hu] at h1; simpa using h1
  · rintro ⟨⟨h1, h2, h3, h4, h5⟩, h6⟩
    obtain ⟨h7, h8⟩ := columnRenames_nil.2 h2
    obtain ⟨h9, h10⟩ := (unique_quiet t o).2 h5
    refine ⟨?_, fun c hc b hb e => ⟨h3 c hc b hb e, h6 c hc b hb e⟩, h9, h8, h7, hmid, h4, h10⟩
    cases uc
    · rfl
    · simp [h1 rfl]

theorem removedTableNames_nil {opt : DiffOption} : removedTableNames opt = ⟨[]⟩ ↔
    ∀ o ∈ opt.diffFrom.tables, o.name ∈ (opt.diffTo.tables.filter (passes opt.tableFilter)).map (·.name) := by
  constructor
  · intro h b hb
    by_contra hn
    have : b.name ∈ (removedTableNames opt).keys := mem_removedTableNames.2 ⟨List.mem_map_of_mem hb, hn⟩
    rw [h] at this; cases this
  · intro h
    refine set_eq_empty fun n hn => ?_
    obtain ⟨h1, h2⟩ := mem_removedTableNames.1 hn
    obtain ⟨b, hb, rfl⟩ := List.mem_map.1 h1
    exact h2 (h b hb)

/-- Without removed tables all added tables are new. -/
theorem tableRenames_quiet (opt : DiffOption) :
    (renamedPairs (tableRenames opt).1 = [] ∧ (tableRenames opt).2.slice = [] ∧ notRenamed (tableRenames opt).1 = []) ↔
    removedTableNames opt = ⟨[]⟩ ∧ addedTables opt = [] := by
  have h := renames_nil opt.diffFrom.tablesByName (fun a b => a.columns == b.columns) (·.name) (fun n r h => (lastBy_some h).2)
    (addedTables opt) (removedTableNames opt) (nodup_removedTableNames opt)
  constructor
  · rintro ⟨h1, h2, h3⟩
    have hr := h.1 ⟨h1, h2⟩
    refine ⟨hr, ?_⟩
    rw [tableRenames, hr, notRenamed_none] at h3
    exact h3
  · rintro ⟨h1, h2⟩
    obtain ⟨h3, h4⟩ := h.2 h1
    refine ⟨h3, h4, ?_⟩
    rw [tableRenames, h1, notRenamed_none]
    exact h2

theorem tablesSame_iff {opt : DiffOption} (hfrom : (opt.diffFrom.tables.map (·.name)).Nodup) (same : Table → Table → Prop) :
    (removedTableNames opt = ⟨[]⟩ ∧ addedTables opt = [] ∧ ∀ e ∈ keptTables opt, same e.2.1 e.2.2) ↔
    TablesSame opt.tableFilter same opt.diffFrom opt.diffTo := by
  rw [removedTableNames_nil]
  constructor
  · rintro ⟨h1, h2, h3⟩
    refine ⟨h1, fun t ht hp => ?_⟩
    have : t.name ∈ opt.diffFrom.tables.map (·.name) := by
      by_contra hn
      have := mem_addedTables.2 ⟨ht, hp, hn⟩
      rw [h2] at this; cases this
    obtain ⟨o, ho, e⟩ := List.mem_map.1 this
    obtain ⟨i, hi⟩ := List.mem_iff_getElem?.1 ht
    exact ⟨o, ho, e, h3 (i, t, o) (mem_keptTables.2 ⟨hi, hp, by rw [← e]; exact lastBy_nodup hfrom ho⟩)⟩
  · rintro ⟨h1, h2⟩
    refine ⟨h1, List.eq_nil_iff_forall_not_mem.2 fun t ht => ?_, ?_⟩
    · obtain ⟨h3, h4, h5⟩ := mem_addedTables.1 ht
      obtain ⟨o, ho, e, -⟩ := h2 t h3 h4
      exact h5 (e ▸ List.mem_map_of_mem ho)
    · rintro ⟨i, t, o⟩ he
      obtain ⟨h3, h4, h5⟩ := mem_keptTables.1 he
      obtain ⟨o', ho', e, h6⟩ := h2 t (List.mem_of_getElem? h3) h4
      rw [← e, Schema.tablesByName, lastBy_nodup hfrom ho', Option.some.injEq] at h5
      exact h5 ▸ h6

/-- **C159** for the report: it is empty if and only if the versions have the same tables, in them all columns of the old version are still
there with the same type, nullability, auto-increment and default (and description, if those are compared), and the keys and unique
constraints are the same. Further columns are allowed. -/
theorem C159_report_exact (opt : DiffOption) (sched : Sched) (hs : sched.Fair) (hfrom : DistinctNames opt.diffFrom) :
    getDiff opt sched = [] ↔ TablesSame opt.tableFilter (fun t o => TableSame opt.useComments t o ∧
      ∀ c ∈ t.columns, ∀ b ∈ o.columns, c.name = b.name → c.autoIncremental = b.autoIncremental) opt.diffFrom opt.diffTo := by
  rw [← tablesSame_iff hfrom.1, getDiff_eq, number_nil, ← and_assoc, ← tableRenames_quiet]
  simp only [diffBlocks, List.forall_mem_append]
  have hk : (∀ b ∈ keptBlocks opt sched, b = []) ↔ ∀ e ∈ keptTables opt, TableSame opt.useComments e.2.1 e.2.2 ∧
      ∀ c ∈ e.2.1.columns, ∀ b ∈ e.2.2.columns, c.name = b.name → c.autoIncremental = b.autoIncremental := by
    have he : ∀ e ∈ keptTables opt, tableBlock (sched.columns e.1) e.2.1 e.2.2 opt.useComments opt.uniqueNameSuffix = [] ↔
        (TableSame opt.useComments e.2.1 e.2.2 ∧
      ∀ c ∈ e.2.1.columns, ∀ b ∈ e.2.2.columns, c.name = b.name → c.autoIncremental = b.autoIncremental) := by
      rintro ⟨i, t, o⟩ he
      obtain ⟨-, -, h5⟩ := mem_keptTables.1 he
      exact tableBlock_quiet _ (hs.2 i) t o _ _ (hfrom.2 o (lastBy_some h5).1)
    constructor
    · intro h e hm
      refine (he e hm).1 ?_
      by_contra hne
      exact hne (h _ (List.mem_filter.2 ⟨List.mem_map.2 ⟨e, hm, rfl⟩, by simpa using hne⟩))
    · intro h b hb
      obtain ⟨h1, h2⟩ := List.mem_filter.1 hb
      obtain ⟨e, hm, rfl⟩ := List.mem_map.1 h1
      exact (he e hm).2 (h e hm)
  have hd : (∀ b ∈ dropBlocks opt, b = []) ↔ (tableRenames opt).2.slice = [] := by
    constructor
    · intro h
      refine List.eq_nil_iff_forall_not_mem.2 fun n hn => ?_
      obtain ⟨t, ht⟩ := Option.isSome_iff_exists.1 (lastBy_isSome.2
        (mem_removedTableNames.1 (findRenames_rest_subset _ _ _ _ n (mem_slice.1 hn))).1)
      exact List.cons_ne_nil _ _ (h _ (List.mem_map.2 ⟨t, List.mem_filterMap.2 ⟨n, hn, ht⟩, rfl⟩))
    · intro h b hb
      unfold dropBlocks at hb
      rw [h] at hb; cases hb
  have hr : (∀ b ∈ renameBlocks opt sched, b = []) ↔ renamedPairs (tableRenames opt).1 = [] := by
    rw [← sched_nil hs.1]
    unfold renameBlocks
    cases sched.tables (renamedPairs (tableRenames opt).1) <;> simp [renameBlock]
  have hc : (∀ b ∈ createBlocks opt, b = []) ↔ notRenamed (tableRenames opt).1 = [] := by
    unfold createBlocks
    cases notRenamed (tableRenames opt).1 <;> simp
  rw [hk, hd, hr, hc]
  tauto

namespace Lq

theorem lqNumber_nil (author : Str) (m : Nat) (bs : List LqBlock) : number author m bs = [] ↔ ∀ b ∈ bs, b = [] := by
  induction bs generalizing m with
  | nil => simp [number]
  | cons b bs ih => simp [number, stamp, ih]

theorem whenS_nil (x : Bool) (l : List LqChange) : whenS x l = [] ↔ x = false := by cases x <;> simp [whenS]

theorem columnSets_quiet (pf : Str → Option Str) (t : Table) (c b : Column) (uc : Bool) (hn : c.name = b.name) :
    columnSets pf t c b uc = some [] ↔ ColumnSame uc c b ∧ (c.autoIncremental = true → b.autoIncremental = true) := by
  have hd : defaultSets pf t c b = some [] ↔ c.defaultValue = b.defaultValue := by
    unfold defaultSets
    split
    · next h =>
      have hne : c.defaultValue ≠ b.defaultValue := by simpa using h
      split
      · simp [hne]
      · cases newAddDefaultValue pf t c <;> simp [hne]
    · next h => simpa using h
  have ha : attrSets t c b uc = [] ↔ SameDeclared c b ∧ (uc = true → c.description = b.description) ∧ c.notNull = b.notNull ∧
      (c.autoIncremental = true → b.autoIncremental = true) := by
    unfold attrSets SameDeclared
    simp only [List.append_eq_nil_iff, whenS_nil, Bool.or_eq_false_iff, bne_eq_false_iff_eq, Bool.and_eq_false_iff, hn, true_and]
    constructor
    · rintro ⟨⟨⟨h1, h2⟩, h3⟩, h4, h5, h6⟩
      refine ⟨⟨h1, h2, h3⟩, fun hu => h4.resolve_left (by rw [hu]; decide), h5, fun ha => ?_⟩
      rcases h6 with h6 | h6
      · rw [← h6]; exact ha
      · rw [ha] at h6; cases h6
    · rintro ⟨⟨h1, h2, h3⟩, h4, h5, h6⟩
      refine ⟨⟨⟨h1, h2⟩, h3⟩, ?_, h5, ?_⟩
      · cases uc
        · exact Or.inl rfl
        · exact Or.inr (h4 rfl)
      · cases ha : c.autoIncremental
        · exact Or.inr rfl
        · exact Or.inl (h6 ha).symm
  have : columnSets pf t c b uc = some [] ↔ defaultSets pf t c b = some [] ∧ attrSets t c b uc = [] := by
    unfold columnSets
    cases defaultSets pf t c b with
    | none => simp
    | some d => simp [and_comm]
  rw [this, hd, ha]
  exact ⟨fun ⟨h1, h2, h3, h4, h5⟩ => ⟨⟨h2, h3, h4, h1⟩, h5⟩, fun ⟨⟨h2, h3, h4, h1⟩, h5⟩ => ⟨h1, h2, h3, h4, h5⟩⟩

/-- What the changelog does not change about a table. -/
def LqSame (uc : Bool) (t o : Table) : Prop :=
  TableSame uc t o ∧ (∀ c ∈ t.columns, c.name ∈ o.columns.map (·.name)) ∧
  ∀ c ∈ t.columns, ∀ b ∈ o.columns, c.name = b.name → c.autoIncremental = true → b.autoIncremental = true

theorem tableSets_quiet (pf : Str → Option Str) (sched : List (Column × Column) → List (Column × Column)) (hs : ∀ l, (sched l).Perm l)
    (t o : Table) (uc : Bool) (suffix : Str) (ho : (o.columns.map (·.name)).Nodup) :
    tableSets pf sched t o uc suffix = some [] ↔ LqSame uc t o := by
  have hkey : (!t.primaryKeyNameSet.equals o.primaryKeyNameSet) = false ↔ SameKey t o := by
    rw [Bool.not_eq_false']; exact primaryChanged_iff t o
  have hadd : ∀ cols, addSets pf t cols uc = some [] ↔ cols = [] := by
    intro cols
    unfold addSets
    cases cols with
    | nil => simp
    | cons c cols => cases newAddColumn pf t (c :: cols) uc <;> simp
  have hren : (sched (renamedPairs (columnRenames t o uc).1)).flatMap (renameSets t) = [] ↔ renamedPairs (columnRenames t o uc).1 = [] := by
    rw [← sched_nil hs]
    cases sched (renamedPairs (columnRenames t o uc).1) <;> simp [renameSets]
  have hmid : midSets sched t o uc suffix = [] ↔ SameUnique t o ∧ ∀ b ∈ o.columns, b.name ∈ t.columns.map (·.name) := by
    unfold midSets SameUnique
    simp only [List.append_eq_nil_iff, whenS_nil, List.map_eq_nil_iff, hren, uniqueChanged_iff]
    rw [← columnRenames_nil (uc := uc), and_comm (a := (columnRenames t o uc).2.slice = [])]
  have hend : endSets t o suffix = [] ↔ SameKey t o ∧ SameUnique t o := by
    unfold endSets SameUnique
    simp only [List.append_eq_nil_iff, whenS_nil, uniqueChanged_iff]
    rw [hkey]
  have hnew : (∀ b ∈ o.columns, b.name ∈ t.columns.map (·.name)) →
      (notRenamed (columnRenames t o uc).1 = [] ↔ ∀ c ∈ t.columns, c.name ∈ o.columns.map (·.name)) := by
    intro h
    rw [columnRenames, removedNames_nil.2 h, notRenamed_none]
    constructor
    · intro he c hc
      by_contra hn
      have := mem_addedColumns.2 ⟨hc, hn⟩
      rw [he] at this; cases this
    · intro h
      exact List.eq_nil_iff_forall_not_mem.2 fun c hc => (mem_addedColumns.1 hc).2 (h c (mem_addedColumns.1 hc).1)
  unfold tableSets
  constructor
  · intro h
    obtain ⟨cs, hcs, h⟩ := Option.bind_eq_some_iff.1 h
    obtain ⟨add, ha, h⟩ := Option.map_eq_some_iff.1 h
    simp only [List.append_eq_nil_iff, whenS_nil, hmid, hend, List.flatten_eq_nil_iff] at h
    obtain ⟨h1, h2, ⟨h3, h4⟩, rfl, h5, -⟩ := h
    refine ⟨⟨fun hu => ?_, h4, ?_, h5, h3⟩, (hnew h4).1 ((hadd _).1 ha), ?_⟩
    · rw [hu] at h1; simpa using h1
    all_goals
      intro c hc b hb e
      have hkc : (c, b) ∈ keptColumns t o := mem_keptColumns.2 ⟨hc, by rw [e]; exact lastBy_nodup ho hb⟩
      obtain ⟨x, hx, h6⟩ := forall₂_mem_left (mapM_some_iff.1 hcs) (c, b) hkc
      rw [h2 x hx] at h6
    · exact ((columnSets_quiet pf t c b uc e).1 h6).1
    · exact ((columnSets_quiet pf t c b uc e).1 h6).2
  · rintro ⟨⟨h1, h2, h3, h4, h5⟩, h6, h7⟩
    have hk : (keptColumns t o).mapM (fun p => columnSets pf t p.1 p.2 uc) = some ((keptColumns t o).map fun _ => []) := by
      rw [mapM_some_iff, List.forall₂_map_right_iff, List.forall₂_same]
      rintro ⟨c, b⟩ hp
      obtain ⟨h8, h9⟩ := mem_keptColumns.1 hp
      obtain ⟨h10, h11⟩ := lastBy_some h9
      exact (columnSets_quiet pf t c b uc h11.symm).2 ⟨h3 c h8 b h10 h11.symm, h7 c h8 b h10 h11.symm⟩
    rw [hk, (hadd _).2 ((hnew h2).2 h6), hmid.2 ⟨h5, h2⟩, hend.2 ⟨h4, h5⟩]
    have hu : (uc && t.description != o.description) = false := by
      cases uc
      · rfl
      · simp [h1 rfl]
    simp [hu, whenS]

end Lq
open Lq

/-- **C159** for the changelog: it is empty if and only if the versions have the same tables with the same columns, types, nullability and
defaults (and descriptions, if those are compared), keys and unique constraints, and no column gets auto-increment; auto-increment may be
switched off. -/
theorem C159_changelog_exact (pf : Str → Option Str) (opt : DiffOption) (sched : Sched) (hs : sched.Fair) (hfrom : DistinctNames opt.diffFrom) :
    generate pf opt sched = some [] ↔ TablesSame opt.tableFilter (LqSame opt.useComments) opt.diffFrom opt.diffTo := by
  rw [← tablesSame_iff hfrom.1, ← and_assoc, ← tableRenames_quiet, generate_eq]
  have hr : (∀ b ∈ (sched.tables (renamedPairs (tableRenames opt).1)).map (Lq.renameBlock opt.uniqueNameSuffix), b = []) ↔
      renamedPairs (tableRenames opt).1 = [] := by
    rw [← sched_nil hs.1]
    cases sched.tables (renamedPairs (tableRenames opt).1) <;> simp [Lq.renameBlock]
  have hd : (∀ b ∈ (tableRenames opt).2.slice.map Lq.dropBlock, b = []) ↔ (tableRenames opt).2.slice = [] := by
    cases (tableRenames opt).2.slice <;> simp [Lq.dropBlock]
  have hq : ∀ e ∈ keptTables opt, tableSets pf (sched.columns e.1) e.2.1 e.2.2 opt.useComments opt.uniqueNameSuffix = some [] ↔
      LqSame opt.useComments e.2.1 e.2.2 := by
    rintro ⟨i, t, o⟩ he
    obtain ⟨-, -, h5⟩ := mem_keptTables.1 he
    exact tableSets_quiet pf _ (hs.2 i) t o _ _ (hfrom.2 o (lastBy_some h5).1)
  constructor
  · intro h
    obtain ⟨ks, hks, h⟩ := Option.bind_eq_some_iff.1 h
    obtain ⟨cs, hcs, h⟩ := Option.map_eq_some_iff.1 h
    rw [lqNumber_nil] at h
    simp only [Lq.diffBlocks, List.forall_mem_append] at h
    obtain ⟨h1, h2, h3, h4⟩ := h
    refine ⟨⟨hr.1 h3, hd.1 h2, ?_⟩, fun e he => (hq e he).1 ?_⟩
    · refine List.eq_nil_iff_forall_not_mem.2 fun t ht => ?_
      obtain ⟨x, hx, h6⟩ := forall₂_mem_left (mapM_some_iff.1 hcs) t ht
      have := fromSets_eq_nil.1 (h4 _ (List.mem_map_of_mem hx))
      subst this
      unfold createSets at h6
      obtain ⟨_, _, h7⟩ := Option.map_eq_some_iff.1 h6
      cases h7
    · obtain ⟨x, hx, h6⟩ := forall₂_mem_left (mapM_some_iff.1 hks) e he
      have : x = [] := by
        by_contra hne
        have hf : fromSets 0 x ≠ [] := fun e => hne (fromSets_eq_nil.1 e)
        exact hf (h1 _ (List.mem_filter.2 ⟨List.mem_map_of_mem hx, by simpa using hf⟩))
      rw [this] at h6; exact h6
  · rintro ⟨⟨h1, h2, h3⟩, h4⟩
    have hk : keptSets pf opt sched = some ((keptTables opt).map fun _ => []) := by
      unfold keptSets
      rw [mapM_some_iff, List.forall₂_map_right_iff, List.forall₂_same]
      exact fun e he => (hq e he).2 (h4 e he)
    have hc : createdSets pf opt = some [] := by unfold createdSets; rw [h3]; rfl
    rw [hk, hc, Option.bind_some, Option.map_some, (lqNumber_nil _ _ _).2]
    simp only [Lq.diffBlocks, List.forall_mem_append]
    refine ⟨fun b hb => ?_, hd.2 h2, hr.2 h1, fun b hb => by cases hb⟩
    obtain ⟨h5, h6⟩ := List.mem_filter.1 hb
    obtain ⟨x, hx, rfl⟩ := List.mem_map.1 h5
    obtain ⟨e, _, rfl⟩ := List.mem_map.1 hx
    rfl

/-- **C159**, what an empty report means: the MySQL scripts of both versions build the same database if and only if no column was added and
the columns also have the same MySQL type, on-update value and comment. -/
theorem C159_database_exact (opt : DiffOption) (sched : Sched) (hs : sched.Fair) (hf : opt.tableFilter = none)
    (hsuf : UnescapedName opt.uniqueNameSuffix) (hfrom : Scriptable opt.uniqueNameSuffix opt.diffFrom)
    (hto : Scriptable opt.uniqueNameSuffix opt.diffTo) (h : getDiff opt sched = []) :
    (∃ d, BuiltBy (Mysql.exportSchema none opt.uniqueNameSuffix opt.diffFrom) d ∧
      BuiltBy (Mysql.exportSchema none opt.uniqueNameSuffix opt.diffTo) d) ↔
    ∀ o ∈ opt.diffFrom.tables, ∀ t ∈ opt.diffTo.tables, o.name = t.name →
      (∀ c ∈ t.columns, c.name ∈ o.columns.map (·.name)) ∧
      ∀ b ∈ o.columns, ∀ c ∈ t.columns, b.name = c.name → ddlColumn Mysql.toMysqlColumnType b = ddlColumn Mysql.toMysqlColumnType c := by
  have hmig : ∀ d d', Migrates (flyway opt.uniqueNameSuffix (getDiff opt sched)) d d' ↔ d' = d := by
    intro d d'
    have hr : readScript [] = some [] := by decide +kernel
    rw [h]
    unfold Migrates flyway
    rw [List.flatMap_nil, hr]
    exact ⟨fun ⟨acts, h1, h2⟩ => by cases h1; exact h2, fun e => ⟨[], rfl, e⟩⟩
  obtain ⟨hsame1, hsame2⟩ := (C159_report_exact opt sched hs ⟨hfrom.tables, hfrom.columns⟩).1 h
  have hpair : ∀ o ∈ opt.diffFrom.tables, ∀ t ∈ opt.diffTo.tables, o.name = t.name → TableSame opt.useComments t o ∧
      ∀ c ∈ t.columns, ∀ b ∈ o.columns, c.name = b.name → c.autoIncremental = b.autoIncremental := by
    intro o ho t ht e
    obtain ⟨o', ho', e', h'⟩ := hsame2 t ht (by rw [hf]; rfl)
    have : o' = o := List.inj_on_of_nodup_map hfrom.tables ho' ho (e'.trans e.symm)
    exact this ▸ h'
  have hmoves : SchemaMoves Mysql.toMysqlColumnType opt.diffFrom opt.diffTo ↔
      ∀ o ∈ opt.diffFrom.tables, ∀ t ∈ opt.diffTo.tables, o.name = t.name →
      (∀ c ∈ t.columns, c.name ∈ o.columns.map (·.name)) ∧
      ∀ b ∈ o.columns, ∀ c ∈ t.columns, b.name = c.name → ddlColumn Mysql.toMysqlColumnType b = ddlColumn Mysql.toMysqlColumnType c := by
    constructor
    · intro hm o ho t ht e
      obtain ⟨h1, h2⟩ := hpair o ho t ht e
      have h3 := hm.kept o ho t ht e
      refine ⟨fun c hc => (h3.names _).2 (List.mem_map_of_mem hc), fun b hb c hc e2 => ?_⟩
      rcases h3.columns b hb c hc e2 with h4 | ⟨h4, h5⟩ | ⟨h4, -⟩
      · exact h4
      · rw [h2 c hc b hb e2.symm, h4] at h5; cases h5
      · exact absurd (h1.columns c hc b hb e2.symm).notNull.symm h4
    · intro hm
      refine ⟨fun o ho t ht e => ?_, fun o ho hn => ?_⟩
      · obtain ⟨h1, h2⟩ := hpair o ho t ht e
        obtain ⟨h3, h4⟩ := hm o ho t ht e
        refine ⟨fun n => ⟨fun hn => ?_, fun hn => ?_⟩, fun b hb c hc e2 => Or.inl (h4 b hb c hc e2), ?_, fun n => (h1.unique n).symm,
          Or.inl fun n => (h1.key n).symm⟩
        · obtain ⟨b, hb, rfl⟩ := List.mem_map.1 hn; exact h1.stay b hb
        · obtain ⟨c, hc, rfl⟩ := List.mem_map.1 hn; exact h3 c hc
        · rintro ⟨b, hb, c, hc, e2, h5 | h5⟩
          · exact absurd (h1.columns c hc b hb e2.symm).notNull.symm h5
          · exact absurd (h2 c hc b hb e2.symm).symm h5
      · obtain ⟨t, ht, e⟩ := List.mem_map.1 (hsame1 o ho)
        exact absurd (e ▸ List.mem_map_of_mem (List.mem_filter.1 ht).1) hn
  rw [← hmoves]
  constructor
  · rintro ⟨d, h1, h2⟩
    exact (C143_exact opt hf sched hs hsuf hfrom hto d d h1 h2).1 ((hmig d d).2 rfl)
  · intro hm
    obtain ⟨d, hd⟩ := C143_built _ hsuf _ hfrom
    obtain ⟨d', hd'⟩ := C143_built _ hsuf _ hto
    have := (hmig d d').1 ((C143_exact opt hf sched hs hsuf hfrom hto d d' hd hd').2 hm)
    exact ⟨d, hd, this ▸ hd'⟩

/-- **C159**, what an empty changelog means: a database that holds the old version holds the new version if and only if auto-increment is not
switched off anywhere. -/
theorem C159_holds_exact (env : LqEnv) (hlist : env.listed = true) (pf : Str → Option Str) (opt : DiffOption) (sched : Sched) (hs : sched.Fair)
    (hf : opt.tableFilter = none) (hfrom : DistinctNames opt.diffFrom) (hto : (opt.diffTo.tables.map (·.name)).Nodup)
    (hclean : ∀ t ∈ opt.diffTo.tables, CleanTable pf t) (hno : ∀ t ∈ opt.diffTo.tables, ¬env.system (t.name ++ opt.uniqueNameSuffix))
    (h : generate pf opt sched = some []) (d : Db LqAttr)
    (hd : HoldsDb env.system opt.useComments true opt.uniqueNameSuffix opt.diffFrom.tables d) :
    HoldsDb env.system opt.useComments true opt.uniqueNameSuffix opt.diffTo.tables d ↔
    ∀ o ∈ opt.diffFrom.tables, ∀ t ∈ opt.diffTo.tables, o.name = t.name → ∀ b ∈ o.columns, ∀ c ∈ t.columns, b.name = c.name →
      b.autoIncremental = true → c.autoIncremental = true := by
  have h40 := C40_exact env hlist pf opt sched hs hf hfrom hto hclean hno d hd
  obtain ⟨-, hsame2⟩ := (C159_changelog_exact pf opt sched hs hfrom).1 h
  have hpair : ∀ o ∈ opt.diffFrom.tables, ∀ t ∈ opt.diffTo.tables, o.name = t.name → LqSame opt.useComments t o := by
    intro o ho t ht e
    obtain ⟨o', ho', e', h'⟩ := hsame2 t ht (by rw [hf]; rfl)
    have : o' = o := List.inj_on_of_nodup_map hfrom.1 ho' ho (e'.trans e.symm)
    exact this ▸ h'
  have hleft : HoldsDb env.system opt.useComments true opt.uniqueNameSuffix opt.diffTo.tables d ↔
      ∃ sets, generate pf opt sched = some sets ∧ ∃ d', Runs (changelogOps env sets) d d' ∧
        HoldsDb env.system opt.useComments true opt.uniqueNameSuffix opt.diffTo.tables d' := by
    constructor
    · intro h1; exact ⟨[], h, d, rfl, h1⟩
    · rintro ⟨sets, h1, d', h2, h3⟩
      rw [h] at h1; cases h1
      have : d' = d := h2
      exact this ▸ h3
  rw [hleft, h40]
  have hret : ∀ o ∈ opt.diffFrom.tables, ∀ t ∈ opt.diffTo.tables, o.name = t.name → ∀ c ∈ t.columns, ∀ b ∈ o.columns, c.name = b.name →
      retyped env opt.useComments c b = lqAttrOf opt.useComments b := by
    intro o ho t ht e c hc b hb e2
    unfold retyped
    rw [if_pos ((hpair o ho t ht e).1.columns c hc b hb e2).type]
  constructor
  · intro hm o ho t ht e b hb c hc e2 ha
    have := ((hm t ht o ho e).1.columns c hc b hb e2.symm true (by simp [(hpair o ho t ht e).1.key])).autoIncrement
    rw [hret o ho t ht e c hc b hb e2.symm] at this
    simp only [lqAttrOf, ha, Bool.true_or] at this
    exact this.symm
  · intro hm t ht o ho e
    obtain ⟨h1, h2, h3⟩ := hpair o ho t ht e
    refine ⟨⟨?_, ?_, fun hu => absurd h1.unique hu, Or.inl h1.key⟩, fun hu => absurd h1.unique hu⟩
    · intro c hc b hb e2 k hk
      have h4 := h1.columns c hc b hb e2
      have hkey : c.primaryKey = b.primaryKey := by
        have h5 := h1.key c.name
        have hc1 : pkNames t c.name ↔ c.primaryKey = true :=
          ⟨fun ⟨x, hx, h6, h7⟩ => (List.inj_on_of_nodup_map (hclean t ht).1 hx hc h7) ▸ h6, fun h6 => ⟨c, hc, h6, rfl⟩⟩
        have hb1 : pkNames o c.name ↔ b.primaryKey = true :=
          ⟨fun ⟨x, hx, h6, h7⟩ => (List.inj_on_of_nodup_map (hfrom.2 o ho) hx hb (h7.trans e2)) ▸ h6, fun h6 => ⟨b, hb, h6, e2.symm⟩⟩
        rw [hc1, hb1] at h5
        exact Bool.eq_iff_iff.2 h5
      have hauto : c.autoIncremental = b.autoIncremental :=
        Bool.eq_iff_iff.2 ⟨h3 c hc b hb e2, hm o ho t ht e b hb c hc e2.symm⟩
      refine ⟨fun h5 h6 => ?_, fun _ => ?_, ?_, fun _ => ?_, fun h5 => ?_⟩
      · rw [h4.notNull, h5] at h6; cases h6
      all_goals rw [hret o ho t ht e c hc b hb e2]
      · have : k = true := hk.2 h1.key
        simp [lqAttrOf, this, h4.notNull, hkey]
      · simp [lqAttrOf, hauto]
      · simp [lqAttrOf, h4.default]
      · unfold lqAttrOf
        dsimp only
        split
        · next hu => exact (h4.description hu).symm
        · rfl
    · rintro c b ⟨hc, hb, h5, -⟩
      exact absurd (h2 c hc) h5

/-- A check of what `TableSame` requires. -/
theorem tableSame_of {uc : Bool} {t o : Table} (h0 : t.description = o.description) (h1 : ∀ b ∈ o.columns, b.name ∈ t.columns.map (·.name))
    (h2 : ∀ c ∈ t.columns, ∀ b ∈ o.columns, c.name = b.name → (c.type = b.type ∧ c.size = b.size ∧ c.scale = b.scale) ∧
      c.description = b.description ∧ c.notNull = b.notNull ∧ c.defaultValue = b.defaultValue)
    (h3 : t.primaryKeyNameSet.equals o.primaryKeyNameSet = true) (h4 : uniqueChanged t o = false) : TableSame uc t o :=
  ⟨fun _ => h0, h1, fun c hc b hb e => ⟨(h2 c hc b hb e).1, fun _ => (h2 c hc b hb e).2.1, (h2 c hc b hb e).2.2.1, (h2 c hc b hb e).2.2.2⟩,
    (primaryChanged_iff t o).1 h3, (uniqueChanged_iff t o).1 h4⟩

theorem oneUser_same {a b : List Column} {same : Table → Table → Prop}
    (h : same { name := "user"ₛ, columns := b } { name := "user"ₛ, columns := a }) : TablesSame none same (oneUser a) (oneUser b) := by
  refine ⟨fun o ho => ?_, fun t ht _ => ⟨_, List.mem_cons_self, ?_, ?_⟩⟩
  · cases List.mem_singleton.1 ho; exact List.mem_cons_self
  · cases List.mem_singleton.1 ht; rfl
  · cases List.mem_singleton.1 ht; exact h

theorem oneUser_distinct {a : List Column} (h : (a.map (·.name)).Nodup) : DistinctNames (oneUser a) :=
  ⟨List.nodup_singleton _, fun t ht => by cases List.mem_singleton.1 ht; exact h⟩

/-- A column is added. -/
def withColumn (author : Str) (uc : Bool) : DiffOption :=
  { diffFrom := oneUser [plainId], diffTo := oneUser [plainId, plainN], author := author, uniqueNameSuffix := "_uq"ₛ, useComments := uc }

/-- Auto-increment is switched off. -/
def withoutAuto (author : Str) (uc : Bool) : DiffOption :=
  { diffFrom := oneUser [{ plainId with primaryKey := true, autoIncremental := true }], diffTo := oneUser [{ plainId with primaryKey := true }]
    author := author, uniqueNameSuffix := "_uq"ₛ, useComments := uc }

/-- The on-update value changes. -/
def withOnUpdate (author : Str) (uc : Bool) : DiffOption :=
  { diffFrom := oneUser [plainN], diffTo := oneUser [{ plainN with onUpdate := "1"ₛ }]
    author := author, uniqueNameSuffix := "_uq"ₛ, useComments := uc }

/-- **C159 is violated**: the report is empty although a column was added and the scripts build different databases; the changelog is empty
although auto-increment was switched off and no database holds both versions; and both are empty although the on-update value of a column
has changed and the scripts build different databases. -/
theorem C159_violated (sched : Sched) (hs : sched.Fair) (author : Str) (uc : Bool) :
    (getDiff (withColumn author uc) sched = [] ∧
      ¬∃ d, BuiltBy (Mysql.exportSchema none "_uq"ₛ (withColumn author uc).diffFrom) d ∧
        BuiltBy (Mysql.exportSchema none "_uq"ₛ (withColumn author uc).diffTo) d) ∧
    (generate some (withoutAuto author uc) sched = some [] ∧
      ¬∃ d, HoldsDb demoEnv.system uc true "_uq"ₛ (withoutAuto author uc).diffFrom.tables d ∧
        HoldsDb demoEnv.system uc true "_uq"ₛ (withoutAuto author uc).diffTo.tables d) ∧
    (getDiff (withOnUpdate author uc) sched = [] ∧ generate some (withOnUpdate author uc) sched = some [] ∧
      ¬∃ d, BuiltBy (Mysql.exportSchema none "_uq"ₛ (withOnUpdate author uc).diffFrom) d ∧
        BuiltBy (Mysql.exportSchema none "_uq"ₛ (withOnUpdate author uc).diffTo) d) := by
  have hsuf : UnescapedName "_uq"ₛ := by unfold UnescapedName; decide
  refine ⟨?_, ?_, ?_⟩
  · have h : getDiff (withColumn author uc) sched = [] := (C159_report_exact (withColumn author uc) sched hs (oneUser_distinct (by decide))).2 (oneUser_same
      ⟨tableSame_of rfl (by decide) (by decide +kernel) (by decide +kernel) (by decide +kernel), by decide +kernel⟩)
    refine ⟨h, fun hd => ?_⟩
    have := (C159_database_exact (withColumn author uc) sched hs rfl hsuf (scriptable_of_check _ (s := oneUser [plainId]) (by decide +kernel))
      (scriptable_of_check _ (s := oneUser [plainId, plainN]) (by decide +kernel)) h).1 hd
    exact absurd ((this _ List.mem_cons_self _ List.mem_cons_self rfl).1 plainN (List.mem_cons_of_mem _ List.mem_cons_self)) (by decide +kernel)
  · have h : generate some (withoutAuto author uc) sched = some [] := (C159_changelog_exact some (withoutAuto author uc) sched hs (oneUser_distinct (by decide))).2 (oneUser_same
      ⟨tableSame_of rfl (by decide) (by decide +kernel) (by decide +kernel) (by decide +kernel), by decide +kernel, by decide +kernel⟩)
    refine ⟨h, fun ⟨d, hd, hd'⟩ => ?_⟩
    have hc : ∀ t ∈ (withoutAuto author uc).diffTo.tables, CleanTable some t := by
      intro t ht
      cases List.mem_singleton.1 ht
      exact cleanTable_of (by decide) (by decide +kernel)
    have := (C159_holds_exact demoEnv rfl some (withoutAuto author uc) sched hs rfl (oneUser_distinct (by decide)) (List.nodup_singleton _) hc
      (fun t _ => demoEnv_system t.name) h d hd).1 hd' _ List.mem_cons_self _ List.mem_cons_self rfl _ List.mem_cons_self _ List.mem_cons_self rfl rfl
    cases this
  · have h0 : ∀ uc, TableSame uc { name := "user"ₛ, columns := [{ plainN with onUpdate := "1"ₛ }] } { name := "user"ₛ, columns := [plainN] } :=
      fun _ => tableSame_of rfl (by decide) (by decide +kernel) (by decide +kernel) (by decide +kernel)
    have h : getDiff (withOnUpdate author uc) sched = [] := (C159_report_exact (withOnUpdate author uc) sched hs (oneUser_distinct (by decide))).2 (oneUser_same ⟨h0 _, by decide +kernel⟩)
    refine ⟨h, (C159_changelog_exact some (withOnUpdate author uc) sched hs (oneUser_distinct (by decide))).2
      (oneUser_same ⟨h0 _, by decide +kernel, by decide +kernel⟩), fun hd => ?_⟩
    have := (C159_database_exact (withOnUpdate author uc) sched hs rfl hsuf (scriptable_of_check _ (s := oneUser [plainN]) (by decide +kernel))
      (scriptable_of_check _ (s := oneUser [{ plainN with onUpdate := "1"ₛ }]) (by decide +kernel)) h).1 hd
    exact absurd ((this _ List.mem_cons_self _ List.mem_cons_self rfl).2 _ List.mem_cons_self _ List.mem_cons_self rfl) (by decide +kernel)

/-- The hypotheses of `C159_database_exact` and `C159_holds_exact` are met by two versions that differ in the order of the columns
and in a reference only. -/
example : ∃ opt : DiffOption, opt.diffFrom ≠ opt.diffTo ∧ opt.tableFilter = none ∧ getDiff opt idSched = [] ∧ generate some opt idSched = some [] ∧
    (∃ d, BuiltBy (Mysql.exportSchema none opt.uniqueNameSuffix opt.diffFrom) d ∧ BuiltBy (Mysql.exportSchema none opt.uniqueNameSuffix opt.diffTo) d) := by
  have hsuf : UnescapedName "_uq"ₛ := by unfold UnescapedName; decide
  let opt : DiffOption :=
    { diffFrom := oneUser [{ plainId with primaryKey := true }, plainN]
      diffTo := oneUser [{ plainN with ref := some ⟨"x"ₛ, "y"ₛ, []⟩ }, { plainId with primaryKey := true }], uniqueNameSuffix := "_uq"ₛ }
  refine ⟨opt, by decide +kernel, rfl, ?_⟩
  have h0 : TableSame false { name := "user"ₛ, columns := [{ plainN with ref := some ⟨"x"ₛ, "y"ₛ, []⟩ }, { plainId with primaryKey := true }] }
      { name := "user"ₛ, columns := [{ plainId with primaryKey := true }, plainN] } :=
    tableSame_of rfl (by decide) (by decide +kernel) (by decide +kernel) (by decide +kernel)
  have h := (C159_report_exact opt idSched idSched_fair (oneUser_distinct (by decide))).2 (oneUser_same ⟨h0, by decide +kernel⟩)
  refine ⟨h, (C159_changelog_exact some opt idSched idSched_fair (oneUser_distinct (by decide))).2
      (oneUser_same ⟨h0, by decide +kernel, by decide +kernel⟩), ?_⟩
  refine (C159_database_exact opt idSched idSched_fair rfl hsuf (scriptable_of_check _ (by decide +kernel)) (scriptable_of_check _ (by decide +kernel)) h).2 ?_
  intro o ho t ht _
  cases List.mem_singleton.1 ho; cases List.mem_singleton.1 ht
  exact ⟨by decide +kernel, by decide +kernel⟩

end Octo
