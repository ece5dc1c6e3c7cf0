import Verif.Lemmas.Json
import Verif.Spec.Ojson
import Mathlib.Data.List.Forall2

/-! Lemmas about the import of version 1 documents. -/

namespace Octo.Ojson
open Spec Json

theorem toReference_of (r : Reference) : toReference (ofReference r) = some r := by
  have hf := @field_at [("table", optStr r.table), ("column", optStr r.column)] ["table", "column"] rfl (by decide)
  unfold ofReference toReference
  simp only []
  rw [hf 0 rfl, hf 1 rfl, toStr_optStr, toStr_optStr]
  rfl

theorem toPtr_of (r : Option Reference) : toPtr toReference (r.map ofReference) = some r := by
  cases r with
  | none => rfl
  | some r =>
    show toPtr toReference (some (ofReference r)) = _
    have h := toReference_of r
    unfold ofReference at h ⊢
    show (toReference _).map some = _
    rw [h]; rfl

theorem toColumn_of (c : Column) : toColumn (ofColumn c) = some c := by
  have hf := @field_at [("name", some (.str c.name)), ("type", some (.str c.type)), ("description", optStr c.description),
    ("size", optNum c.size), ("scale", optNum c.scale), ("notnull", optBool c.notNull), ("pk", optBool c.primaryKey),
    ("unique", optBool c.uniqueKey), ("autoinc", optBool c.autoIncremental), ("default", optStr c.defaultValue),
    ("ref", c.ref.map ofReference)]
    ["name", "type", "description", "size", "scale", "notnull", "pk", "unique", "autoinc", "default", "ref"]
    rfl (by decide)
  unfold ofColumn toColumn
  simp only []
  rw [hf 0 rfl, hf 1 rfl, hf 2 rfl, hf 3 rfl, hf 4 rfl, hf 5 rfl, hf 6 rfl, hf 7 rfl, hf 8 rfl, hf 9 rfl, hf 10 rfl,
    toStr_optStr, toStr_optStr, toNum_optNum, toNum_optNum, toBool_optBool,
    toBool_optBool, toBool_optBool, toBool_optBool, toPtr_of]
  rfl

theorem toTable_of (t : Table) : toTable (ofTable t) = some t := by
  have hf := @field_at [("name", optStr t.name), ("columns", optArr (t.columns.map ofColumn)),
    ("desc", optStr t.description), ("group", optStr t.group), ("className", optStr t.className)]
    ["name", "columns", "desc", "group", "className"] rfl (by decide)
  unfold ofTable toTable
  simp only []
  rw [hf 0 rfl, hf 1 rfl, hf 2 rfl, hf 3 rfl, hf 4 rfl, toStr_optStr, toStr_optStr, toStr_optStr, toStr_optStr,
    toList_optArr toColumn_of]
  rfl

/-- A written version 1 document is read as the schema that was written. -/
theorem toSchema_of (s : Schema) : toSchema (ofSchema s) = some s := by
  have hf := @field_at [("author", optStr s.author), ("name", optStr s.name), ("version", optStr s.version),
    ("tables", optArr (s.tables.map ofTable))] ["author", "name", "version", "tables"] rfl (by decide)
  unfold ofSchema toSchema
  simp only []
  rw [hf 0 rfl, hf 1 rfl, hf 2 rfl, hf 3 rfl, toStr_optStr, toStr_optStr, toStr_optStr, toList_optArr toTable_of]
  rfl

theorem lookup_cons_ite {β : Type} (x t : Str) (y : β) (l : List (Str × β)) :
    ((x, y) :: l).lookup t = if t = x then some y else l.lookup t := by
  by_cases h : t = x
  · rw [if_pos h, h]; exact List.lookup_cons_self
  · rw [if_neg h, List.lookup_cons, beq_eq_false_iff_ne.2 h]

theorem ite_or_else {α : Type} (a b : Prop) [Decidable a] [Decidable b] (x y : α) :
    (if a ∨ b then x else y) = if a then x else if b then x else y := by
  by_cases ha : a <;> by_cases hb : b <;> simp [ha, hb]

/-- The chain of tests is the table of types. -/
theorem normalizeColumnType_eq (t : Str) : normalizeColumnType t = v1Types.lookup (lower t) := by
  unfold normalizeColumnType v1Types
  dsimp only
  generalize lower t = x
  simp only [lookup_cons_ite, List.lookup_nil, ite_or_else]

theorem lookup_mem' {β : Type} {x : Str} {y : β} : ∀ {l : List (Str × β)}, l.lookup x = some y → (x, y) ∈ l := by
  intro l
  induction l with
  | nil => intro h; cases h
  | cons p l ih =>
    obtain ⟨a, b⟩ := p
    intro h
    rw [lookup_cons_ite] at h
    by_cases hx : x = a
    · rw [if_pos hx] at h; cases h; subst hx; exact List.mem_cons_self
    · rw [if_neg hx] at h; exact List.mem_cons_of_mem _ (ih h)

theorem mapM_forall₂ {α β : Type} {f : α → Option β} : ∀ {l : List α} {r : List β}, l.mapM f = some r →
    List.Forall₂ (fun a b => f a = some b) l r := by
  intro l
  induction l with
  | nil => intro r h; cases h; exact .nil
  | cons a l ih =>
    intro r h
    rw [List.mapM_cons] at h
    cases ha : f a with
    | none => rw [ha] at h; cases h
    | some b =>
      rw [ha] at h
      cases hl : (l.mapM f : Option (List β)) with
      | none => rw [hl] at h; cases h
      | some bs => rw [hl] at h; cases h; exact .cons ha (ih hl)

theorem mapM_none {α β : Type} {f : α → Option β} {l : List α} : l.mapM f = none ↔ ∃ a ∈ l, f a = none := by
  induction l with
  | nil => simp
  | cons a l ih =>
    rw [List.mapM_cons]
    cases ha : f a with
    | none => simp [ha]
    | some b =>
      cases hl : (l.mapM f : Option (List β)) with
      | none =>
        obtain ⟨x, hx, hn⟩ := ih.1 hl
        simp only [Option.bind_eq_bind, Option.bind_some, Option.bind_none, true_iff]
        exact ⟨x, List.mem_cons_of_mem _ hx, hn⟩
      | some bs =>
        have : ¬∃ a ∈ l, f a = none := fun h => by rw [ih.2 h] at hl; cases hl
        simp only [Option.bind_eq_bind, Option.bind_some, Option.pure_def, reduceCtorEq, false_iff]
        rintro ⟨x, hx, hn⟩
        rcases List.mem_cons.1 hx with rfl | hx
        · rw [ha] at hn; cases hn
        · exact this ⟨x, hx, hn⟩

theorem normalize_none (c : Column) : c.normalize = none ↔ BadV1Column c := by
  unfold Column.normalize BadV1Column
  rw [normalizeColumnType_eq]
  have hmem : (∃ t, v1Types.lookup (lower c.type) = some t) ↔ lower c.type ∈ v1Types.map Prod.fst := by
    constructor
    · rintro ⟨t, h⟩; exact List.mem_map.2 ⟨_, lookup_mem' h, rfl⟩
    · intro h
      cases hl : v1Types.lookup (lower c.type) with
      | some t => exact ⟨t, rfl⟩
      | none =>
        rw [List.lookup_eq_none_iff] at hl
        obtain ⟨p, hp, e⟩ := List.mem_map.1 h
        have := hl p hp
        rw [e] at this; simp at this
  rw [← hmem]
  cases hl : v1Types.lookup (lower c.type) with
  | none => simp
  | some t =>
    simp only [Column.validate]
    by_cases hn : c.name = []
    · simp [hn]
    · rw [if_neg hn]
      constructor
      · intro h; split at h <;> cases h
      · intro h; exact absurd h.1 hn

theorem normalize_kept {c d : Column} (h : c.normalize = some d) : KeptColumn c (fromColumn d) := by
  have hty : v1Type c.type = (normalizeColumnType c.type).getD c.type := by
    rw [normalizeColumnType_eq]; rfl
  unfold Column.normalize at h
  cases hn : normalizeColumnType c.type with
  | none =>
    rw [hn] at h hty
    cases h
    exact ⟨rfl, hty.symm, rfl, ⟨rfl, rfl⟩, ⟨rfl, rfl, rfl⟩, fun h => h, fun _ => rfl, by
      simp [fromColumn, Option.map_map, Function.comp_def]⟩
  | some t =>
    rw [hn] at h hty
    unfold Column.validate at h
    dsimp only at h
    split at h
    · cases h
    · split at h
      · rename_i hbad
        cases h
        refine ⟨rfl, hty.symm, rfl, ⟨rfl, rfl⟩, ⟨rfl, rfl, rfl⟩, fun h => absurd h (by simp [fromColumn]), ?_, by
          simp [fromColumn, Option.map_map, Function.comp_def]⟩
        rintro (e | e)
        · rw [hty] at e; exact absurd e hbad.2.1
        · rw [hty] at e; exact absurd e hbad.2.2
      · cases h
        exact ⟨rfl, hty.symm, rfl, ⟨rfl, rfl⟩, ⟨rfl, rfl, rfl⟩, fun h => h, fun _ => rfl, by
          simp [fromColumn, Option.map_map, Function.comp_def]⟩

/-- The fields that normalisation does not touch. -/
theorem normalize_frame {c d : Column} (h : c.normalize = some d) :
    d.description = c.description ∧ d.defaultValue = c.defaultValue ∧ d.name = c.name := by
  unfold Column.normalize at h
  split at h
  · unfold Column.validate at h
    split at h
    · cases h
    · split at h <;> (cases h; exact ⟨rfl, rfl, rfl⟩)
  · cases h; exact ⟨rfl, rfl, rfl⟩

theorem forall₂_imp_map {α β γ : Type} {R : α → β → Prop} {S : α → γ → Prop} {g : β → γ} (h : ∀ a b, R a b → S a (g b))
    {l : List α} {m : List β} (hl : List.Forall₂ R l m) : List.Forall₂ S l (m.map g) := by
  induction hl with
  | nil => exact .nil
  | cons h1 _ ih => exact .cons (h _ _ h1) ih

theorem table_kept {t u : Table} (h : t.normalize = some u) : KeptTable t (fromTable u) := by
  unfold Table.normalize at h
  split at h
  · rename_i cs hcs
    cases h
    exact ⟨rfl, rfl, rfl, forall₂_imp_map (fun _ _ h => normalize_kept h) (mapM_forall₂ hcs)⟩
  · cases h

theorem table_none (t : Table) : t.normalize = none ↔ ∃ c ∈ t.columns, BadV1Column c := by
  have e : t.normalize = none ↔ t.columns.mapM Column.normalize = none := by
    unfold Table.normalize
    cases hm : (t.columns.mapM Column.normalize : Option (List Column)) <;> simp
  rw [e, mapM_none]
  simp only [normalize_none]

theorem less_iff (a b : Table) : less a b = true ↔ V1Before a b := by
  unfold less V1Before
  by_cases h1 : strLt a.group b.group = true
  · simp [h1]
  · by_cases h2 : a.group = b.group <;> simp [h1, h2]

end Octo.Ojson
