import Verif.Lemmas.Plantuml
import Verif.Props.Quickdbd

/-! Property C53: the PlantUML generator. -/

namespace Octo
open Spec Plantuml

/-- C53, for texts without special characters: the diagram has one entity per table, in order, with all columns of the
table, in order, and one edge per reference. Key columns that come before all other columns are above the separator, and
nothing else is. Missing: key columns after other columns (`C53_violated`). There is no selection of tables. -/
theorem C53_diagram_partial (s : Schema) (h : ∀ t ∈ s.tables, PlainPuTable t) :
    ∃ d, readPu (generate s) = some d ∧ d.edges = schemaEdges s ∧
      List.Forall₂ (fun (t : Table) (e : PuEntity) => e.name = t.name ∧
        List.Forall₂ PuDescribes t.columns (e.above ++ e.below) ∧ (∀ c ∈ e.above, c.pk = true) ∧
        (KeysFirst t → ∀ c ∈ e.below, c.pk = false)) s.tables d.entities := by
  refine ⟨_, read_generate h, rfl, ?_⟩
  show List.Forall₂ _ s.tables (s.tables.map readEntity)
  rw [List.forall₂_map_right_iff]
  refine List.forall₂_same.2 fun t _ => ⟨rfl, ?_, ?_, ?_⟩
  · show List.Forall₂ PuDescribes t.columns (above t.columns ++ below t.columns)
    unfold above below
    rw [← List.map_append, List.takeWhile_append_dropWhile, List.forall₂_map_right_iff]
    exact List.forall₂_same.2 fun c _ => ⟨rfl, rfl, rfl, ⟨rfl, rfl⟩, rfl⟩
  · intro d hd
    obtain ⟨c, hc, rfl⟩ := List.mem_map.1 hd
    exact List.mem_takeWhile_imp (p := fun c : Column => c.primaryKey) hc
  · intro hk d hd
    obtain ⟨c, hc, rfl⟩ := List.mem_map.1 hd
    show c.primaryKey = false
    by_contra hp
    rw [Bool.not_eq_false] at hp
    obtain ⟨l, r, e⟩ := List.append_of_mem hc
    have e' : t.columns = (t.columns.takeWhile (·.primaryKey) ++ l) ++ c :: r := by
      rw [List.append_assoc, ← e, List.takeWhile_append_dropWhile]
    have hall := hk _ _ _ e' hp
    cases l with
    | nil =>
      have := List.head?_dropWhile_not (fun c : Column => c.primaryKey) t.columns
      rw [e] at this
      exact absurd hp (by simpa using this)
    | cons x l =>
      have := List.head?_dropWhile_not (fun c : Column => c.primaryKey) t.columns
      rw [e] at this
      exact absurd (hall x (by simp)) (by simpa using this)

/-- C53 is violated: the separator comes before the first column that is no key, so exactly the tables with a key column
after another column have a key column below the separator. -/
theorem C53_violated : (∀ s t, (∀ t ∈ s.tables, PlainPuTable t) → t ∈ s.tables → ¬KeysFirst t →
      ∃ d e c, readPu (generate s) = some d ∧ e ∈ d.entities ∧ e.name = t.name ∧ c ∈ e.below ∧ c.pk = true) ∧
    ∃ t, PlainPuTable t ∧ ¬KeysFirst t := by
  constructor
  · intro s t h ht hk
    unfold KeysFirst at hk
    push Not at hk
    obtain ⟨pre, c, post, e, hc, x, hx, hxp⟩ := hk
    refine ⟨_, readEntity t, Plantuml.readColumn c, read_generate h, List.mem_map_of_mem ht, rfl, ?_, hc⟩
    refine List.mem_map_of_mem ?_
    rw [e]
    obtain ⟨l, r, rfl⟩ := List.append_of_mem hx
    have key : ∀ l m : List Column, c ∈ m → (l ++ x :: m).dropWhile (·.primaryKey) ⊇ x :: m := by
      intro l m hm
      induction l with
      | nil =>
        rw [List.nil_append, List.dropWhile_cons_of_neg (by simpa using hxp)]
        exact List.Subset.refl _
      | cons y l ih =>
        rw [List.cons_append, List.dropWhile_cons]
        split
        · exact ih
        · intro z hz; exact List.mem_cons_of_mem _ (List.mem_append_right _ hz)
    have := key l (r ++ c :: post) (by simp)
    rw [List.append_assoc, List.cons_append]
    exact this (by simp)
  · refine ⟨{ name := "t"ₛ, columns := [{ name := "a"ₛ, type := "int"ₛ },
      { name := "b"ₛ, type := "int"ₛ, primaryKey := true }] }, ⟨by decide, ?_⟩, ?_⟩
    · intro c hc
      simp only [List.mem_cons, List.not_mem_nil, or_false] at hc
      rcases hc with rfl | rfl <;> exact ⟨by decide, by decide, nofun⟩
    · intro h
      exact absurd (h [_] _ [] rfl rfl _ (List.mem_singleton.2 rfl)) (by decide)

example : generate qdDemo = "@startuml\nentity user {\n    * id: int64 <<PK>>\n    --\n    group_id: int <<FK>>\n    name: varchar <<UQ>>\n}\nentity group {\n    * id: int <<PK>>\n}\nuser }o-|| group\n@enduml"ₛ := by
  decide +kernel

example : ∀ t ∈ qdDemo.tables, PlainPuTable t ∧ KeysFirst t := by
  have hk : ∀ t : Table, t.columns.Pairwise (fun a b => b.primaryKey = true → a.primaryKey = true) → KeysFirst t := by
    intro t h pre c post e hc d hd
    rw [e] at h
    exact (List.pairwise_append.1 h).2.2 d hd c (by simp) hc
  intro t ht
  refine ⟨?_, hk t ?_⟩
  · simp only [qdDemo, List.mem_cons, List.not_mem_nil, or_false] at ht
    rcases ht with rfl | rfl
    · refine ⟨by decide, ?_⟩
      intro c hc
      simp only [List.mem_cons, List.not_mem_nil, or_false] at hc
      rcases hc with rfl | rfl | rfl
      · exact ⟨by decide, by decide, nofun⟩
      · refine ⟨by decide, by decide, ?_⟩
        rintro r ⟨⟩; decide
      · exact ⟨by decide, by decide, nofun⟩
    · refine ⟨by decide, ?_⟩
      intro c hc
      rw [List.mem_singleton.1 hc]
      exact ⟨by decide, by decide, nofun⟩
  · simp only [qdDemo, List.mem_cons, List.not_mem_nil, or_false] at ht
    rcases ht with rfl | rfl <;> decide

/-- C77 is violated for PlantUML diagrams as well: they do not depend on the declared sizes. -/
theorem C77_violated_plantuml : (∀ s, generate s = generate (eraseSizes s)) ∧
    ∃ s, eraseSizes s ≠ s ∧ generate (eraseSizes s) = generate s := by
  have hl : ∀ (cs : List Column) (b : Bool),
      columnLines b (cs.map fun c => { c with size := 0, scale := 0 }) = columnLines b cs := by
    intro cs
    induction cs with
    | nil => intro b; rfl
    | cons c cs ih => intro b; rw [List.map_cons, columnLines, columnLines, ih, ih]; rfl
  have h : ∀ s, generate s = generate (eraseSizes s) := by
    intro s
    unfold generate eraseSizes
    rw [List.flatMap_map, List.flatMap_map]
    have h1 : s.tables.flatMap tableLines = s.tables.flatMap fun t =>
        tableLines { t with columns := t.columns.map fun c => { c with size := 0, scale := 0 } } := by
      congr 1
      funext t
      unfold tableLines
      rw [hl]
    rw [h1]
    congr 4
    funext t
    dsimp only
    rw [List.filterMap_map]
    rfl
  refine ⟨h, qdDemo, ?_, (h _).symm⟩
  intro e
  have := congrArg (fun s : Schema => (s.tables.flatMap Table.columns).map Column.size) e
  exact absurd this (by decide)

end Octo
