import Verif.Lemmas.Ojson
import Verif.Lemmas.Octopus

/-! Property C49: the import of version 1 documents. -/

namespace Octo
open Spec

/-- C49 (partial): a version 1 document that is imported yields one table per table, in the order of group and
name, and one column per column, with name, type, description, sizes, flags and reference target.  Missing:
the default values and class names, see the `C49_violated` theorems. -/
theorem C49_import_partial (sorter : List Ojson.Table → List Ojson.Table) (hs : V1SortSpec sorter) (s : Ojson.Schema)
    (r : Schema) (h : Ojson.importJSON sorter (readJson (Json.print 0 (Ojson.ofSchema s))) = .ok r) :
    r.author = s.author ∧ r.name = s.name ∧ r.version = s.version ∧
    ∃ l, l.Perm s.tables ∧ l.Pairwise (fun a b => ¬V1Before b a) ∧ List.Forall₂ KeptTable l r.tables := by
  rw [Json.readJson_print, Ojson.importJSON, Option.bind_some, Ojson.toSchema_of] at h
  dsimp only at h
  unfold Ojson.Schema.normalize at h
  cases hm : ((sorter s.tables).mapM Ojson.Table.normalize : Option (List Ojson.Table)) with
  | none => rw [hm] at h; cases h
  | some ts =>
    rw [hm] at h
    cases h
    exact ⟨rfl, rfl, rfl, sorter s.tables, (hs _).1,
      (hs _).2.imp (fun h hb => by rw [(Ojson.less_iff _ _).2 hb] at h; cases h),
      Ojson.forall₂_imp_map (fun _ _ h => Ojson.table_kept h) (Ojson.mapM_forall₂ hm)⟩

/-- C49: a version 1 document is always readable, and its import panics exactly if a column of a known type
has no name. -/
theorem C49_panics_iff (sorter : List Ojson.Table → List Ojson.Table) (hs : V1SortSpec sorter) (s : Ojson.Schema) :
    Ojson.importJSON sorter (readJson (Json.print 0 (Ojson.ofSchema s))) ≠ .error ∧
    (Ojson.importJSON sorter (readJson (Json.print 0 (Ojson.ofSchema s))) = .panic ↔
      ∃ t ∈ s.tables, ∃ c ∈ t.columns, BadV1Column c) := by
  rw [Json.readJson_print, Ojson.importJSON, Option.bind_some, Ojson.toSchema_of]
  dsimp only
  have hn : s.normalize sorter = none ↔ ∃ t ∈ s.tables, ∃ c ∈ t.columns, BadV1Column c := by
    have e : s.normalize sorter = none ↔ (sorter s.tables).mapM Ojson.Table.normalize = none := by
      unfold Ojson.Schema.normalize
      cases hm : ((sorter s.tables).mapM Ojson.Table.normalize : Option (List Ojson.Table)) <;> simp
    rw [e, Ojson.mapM_none]
    simp only [Ojson.table_none, (hs s.tables).1.mem_iff]
  rw [← hn]
  cases hm : s.normalize sorter <;> simp

/-- What becomes of the default values and class names. -/
theorem imported_defaults {sorter : List Ojson.Table → List Ojson.Table} {s : Ojson.Schema} {r : Schema}
    (h : Ojson.importJSON sorter (readJson (Json.print 0 (Ojson.ofSchema s))) = .ok r) :
    ∀ t ∈ r.tables, t.className = [] ∧ ∀ c ∈ t.columns, c.defaultValue = c.description := by
  rw [Json.readJson_print, Ojson.importJSON, Option.bind_some, Ojson.toSchema_of] at h
  dsimp only at h
  cases hm : s.normalize sorter with
  | none => rw [hm] at h; cases h
  | some s' =>
    rw [hm] at h
    cases h
    intro t ht
    obtain ⟨u, _, rfl⟩ := List.mem_map.1 ht
    refine ⟨rfl, ?_⟩
    intro c hc
    obtain ⟨d, _, rfl⟩ := List.mem_map.1 hc
    rfl

/-- A version 1 document: one table with a class name, and a column with a default value. -/
def v1Demo : Ojson.Schema :=
  { name := "s"ₛ
    tables := [
      { name := "user"ₛ, className := "User"ₛ, group := "g"ₛ
        columns := [
          { name := "id"ₛ, type := "BigInt"ₛ, primaryKey := true, autoIncremental := true, description := "the id"ₛ },
          { name := "n"ₛ, type := "varchar"ₛ, size := 10, defaultValue := "x"ₛ, ref := some ⟨"t"ₛ, "c"ₛ⟩ },
          { name := "k"ₛ, type := "json"ₛ }] }] }

/-- What the import makes of `v1Demo`. -/
def v1DemoResult : Schema :=
  { name := "s"ₛ
    tables := [
      { name := "user"ₛ, group := "g"ₛ
        columns := [
          { name := "id"ₛ, type := "long"ₛ, primaryKey := true, autoIncremental := true, description := "the id"ₛ,
            defaultValue := "the id"ₛ },
          { name := "n"ₛ, type := "string"ₛ, size := 10, ref := some ⟨"t"ₛ, "c"ₛ, []⟩ },
          { name := "k"ₛ, type := "json"ₛ }] }] }

theorem v1Demo_imported (sorter : List Ojson.Table → List Ojson.Table) (hs : V1SortSpec sorter) :
    Ojson.importJSON sorter (readJson (Json.print 0 (Ojson.ofSchema v1Demo))) = .ok v1DemoResult := by
  rw [Json.readJson_print, Ojson.importJSON, Option.bind_some, Ojson.toSchema_of]
  dsimp only
  unfold Ojson.Schema.normalize
  rw [show sorter v1Demo.tables = v1Demo.tables from List.perm_singleton.1 (hs v1Demo.tables).1]
  decide +kernel

/-- C49 fails as stated: every imported column has its description as default value; so a column whose default
value is not its description loses it, and there is such a document. -/
theorem C49_violated_default (sorter : List Ojson.Table → List Ojson.Table) (hs : V1SortSpec sorter) :
    (∀ (s : Ojson.Schema) (r : Schema),
      Ojson.importJSON sorter (readJson (Json.print 0 (Ojson.ofSchema s))) = .ok r →
      ∀ t ∈ s.tables, ∀ c ∈ t.columns, c.defaultValue ≠ c.description →
      ∀ u ∈ r.tables, ∀ d ∈ u.columns, KeptColumn c d → d.defaultValue ≠ c.defaultValue) ∧
    ∃ (s : Ojson.Schema) (r : Schema), Ojson.importJSON sorter (readJson (Json.print 0 (Ojson.ofSchema s))) = .ok r ∧
      ∃ t ∈ s.tables, ∃ c ∈ t.columns, c.defaultValue ≠ [] ∧ ∀ u ∈ r.tables, ∀ d ∈ u.columns,
        d.name = c.name → d.defaultValue = [] := by
  constructor
  · intro s r h t _ c _ hd u hu d hdu hk e
    have := (imported_defaults h u hu).2 d hdu
    rw [e, hk.description] at this
    exact hd this
  · refine ⟨v1Demo, v1DemoResult, v1Demo_imported sorter hs, v1Demo.tables.head!, by decide +kernel,
      (v1Demo.tables.head!).columns[1]!, by decide +kernel, by decide +kernel, by decide +kernel⟩

/-- C49 fails as stated: no imported table has a class name, although a document may give one. -/
theorem C49_violated_className (sorter : List Ojson.Table → List Ojson.Table) (hs : V1SortSpec sorter) :
    (∀ (s : Ojson.Schema) (r : Schema),
      Ojson.importJSON sorter (readJson (Json.print 0 (Ojson.ofSchema s))) = .ok r → ∀ t ∈ r.tables, t.className = []) ∧
    ∃ (s : Ojson.Schema) (r : Schema), Ojson.importJSON sorter (readJson (Json.print 0 (Ojson.ofSchema s))) = .ok r ∧
      r.tables ≠ [] ∧ ∀ t ∈ s.tables, t.className ≠ [] :=
  ⟨fun _ _ h t ht => (imported_defaults h t ht).1,
    v1Demo, v1DemoResult, v1Demo_imported sorter hs, by decide +kernel, by decide +kernel⟩

/-! ### Examples -/

theorem less_eq (a b : Ojson.Table) : Ojson.less a b = tableLess (Ojson.fromTable a) (Ojson.fromTable b) := rfl

instance : Std.Total (fun a b : Ojson.Table => Ojson.less b a = false) :=
  ⟨fun a b => by rw [less_eq, less_eq]; exact notLess_total _ _⟩
instance : IsTrans Ojson.Table (fun a b => Ojson.less b a = false) :=
  ⟨fun a b c h1 h2 => by rw [less_eq] at *; exact notLess_trans h1 h2⟩

/-- There is a sorter. -/
theorem v1Sort_exists : ∃ sorter, V1SortSpec sorter :=
  ⟨fun l => l.insertionSort fun a b => Ojson.less b a = false, fun _ =>
    ⟨List.perm_insertionSort _ _, List.pairwise_insertionSort _ _⟩⟩

example : ∃ sorter, V1SortSpec sorter ∧
    Ojson.importJSON sorter (readJson (Json.print 0 (Ojson.ofSchema v1Demo))) = .ok v1DemoResult := by
  obtain ⟨sorter, h⟩ := v1Sort_exists
  exact ⟨sorter, h, v1Demo_imported sorter h⟩

example : BadV1Column { type := "INT"ₛ } := by unfold BadV1Column; decide +kernel

example : ¬BadV1Column { type := "json"ₛ } := by unfold BadV1Column; decide +kernel

end Octo
