import Verif.Props.Dbml
import Verif.Props.Plantuml
import Verif.Props.Quickdbd

/-! Property C151: the three diagrams of a schema show the same. -/

namespace Octo.Spec

/-- A column in a diagram. -/
structure DrawnColumn where
  name : Str
  type : Str
  key : Bool
  unique : Bool
  mandatory : Bool
  deriving DecidableEq, Repr

/-- How many rows a row of the one table and a row of the other table can be connected to. -/
inductive Arity
  | manyToOne
  | oneToMany
  | oneToOne
  deriving DecidableEq, Repr

/-- The connections of DBML. -/
def dbmlArity (rel : Str) : Option Arity :=
  [(">"ₛ, Arity.manyToOne), ("<"ₛ, .oneToMany), ("-"ₛ, .oneToOne)].lookup rel

/-- The connections of PlantUML. -/
def puArity (rel : Str) : Option Arity :=
  [("}o-||"ₛ, Arity.manyToOne), ("||-o{"ₛ, .oneToMany), ("||-||"ₛ, .oneToOne)].lookup rel

/-- The connections of QuickDBD. -/
def qdArity (rel : Str) : Option Arity :=
  [(">-"ₛ, Arity.manyToOne), ("-<"ₛ, .oneToMany), ("-"ₛ, .oneToOne)].lookup rel

/-- The tables of a DBML document. -/
def dbmlShown (d : DbmlDoc) : List (Str × List DrawnColumn) := d.tables.map fun t => (t.name, t.columns.map fun c =>
  ⟨c.name, c.type, decide (.pk ∈ c.settings), decide (.unique ∈ c.settings), decide (.notNull ∈ c.settings)⟩)

/-- The tables of a PlantUML diagram. -/
def puShown (d : PuDoc) : List (Str × List DrawnColumn) := d.entities.map fun e => (e.name, (e.above ++ e.below).map fun c =>
  ⟨c.name, c.type, c.pk, c.unique, c.mandatory⟩)

/-- The tables of a QuickDBD document. -/
def qdShown (d : List QdTable) : List (Str × List DrawnColumn) := d.map fun t => (t.name, t.columns.map fun c =>
  ⟨c.name, c.type, c.pk, c.unique, !c.nullable⟩)

/-- The lines between tables of a DBML document. -/
def dbmlLines (d : DbmlDoc) : List (Str × Option Arity × Str) := (d.inlineRefs ++ d.refs).map fun r => (r.table, dbmlArity r.rel, r.toTable)

/-- The lines between tables of a PlantUML diagram. -/
def puLines (d : PuDoc) : List (Str × Option Arity × Str) := d.edges.map fun e => (e.1, puArity e.2.1, e.2.2)

/-- The lines between columns of a QuickDBD document. -/
def qdColumnLines (d : List QdTable) : List ((Str × Str) × Option Arity × (Str × Str)) :=
  d.flatMap fun t => t.columns.filterMap fun c => c.fk.map fun r => ((t.name, c.name), qdArity r.1, (r.2.1, r.2.2))

/-- The lines between tables of a QuickDBD document. -/
def qdLines (d : List QdTable) : List (Str × Option Arity × Str) := (qdColumnLines d).map fun l => (l.1.1, l.2.1, l.2.2.1)

/-- The lines between columns of a DBML document. -/
def dbmlColumnLines (d : DbmlDoc) : List ((Str × Str) × Option Arity × (Str × Str)) :=
  (d.inlineRefs ++ d.refs).map fun r => ((r.table, r.column), dbmlArity r.rel, (r.toTable, r.toColumn))

end Octo.Spec

namespace Octo
open Spec

/-- The three tables of connections mean the same. -/
theorem arity_same (r : Str) : ∃ a, dbmlArity (dbmlRel r) = some a ∧ puArity (puRel r) = some a ∧ qdArity (qdRel r) = some a := by
  by_cases h1 : r = "n:1"ₛ
  · subst h1; exact ⟨.manyToOne, by decide, by decide, by decide⟩
  by_cases h2 : r = "1:n"ₛ
  · subst h2; exact ⟨.oneToMany, by decide, by decide, by decide⟩
  by_cases h3 : r = "1:1"ₛ
  · subst h3; exact ⟨.oneToOne, by decide, by decide, by decide⟩
  have hl : ∀ {α : Type} (a b c : α), List.lookup r [("n:1"ₛ, a), ("1:n"ₛ, b), ("1:1"ₛ, c)] = none := by
    intro α a b c
    rw [List.lookup_cons, beq_false_of_ne h1, List.lookup_cons, beq_false_of_ne h2, List.lookup_cons, beq_false_of_ne h3]
    rfl
  refine ⟨.manyToOne, ?_, ?_, ?_⟩
  · unfold dbmlRel; rw [hl]; decide
  · unfold puRel; rw [hl]; decide
  · unfold qdRel; rw [hl]; decide

theorem decide_of_iff {p : Prop} [Decidable p] {b : Bool} (h : p ↔ b = true) : decide p = b := by
  cases b
  · exact decide_eq_false fun hp => Bool.false_ne_true (h.1 hp)
  · exact decide_eq_true (h.2 rfl)

theorem drawn_map {α β γ : Type} {R : α → β → Prop} {f : α → γ} {g : β → γ} {l : List α} {r : List β} (h : List.Forall₂ R l r)
    (hf : ∀ a b, R a b → g b = f a) : r.map g = l.map f := by
  induction h with
  | nil => rfl
  | cons h _ ih => rw [List.map_cons, List.map_cons, hf _ _ h, ih]

theorem drawn_flatMap {α β γ : Type} {R : α → β → Prop} {f : α → List γ} {g : β → List γ} {l : List α} {r : List β}
    (h : List.Forall₂ R l r) (hf : ∀ a b, R a b → g b = f a) : r.flatMap g = l.flatMap f := by
  induction h with
  | nil => rfl
  | cons h _ ih => rw [List.flatMap_cons, List.flatMap_cons, hf _ _ h, ih]

theorem drawn_filterMap {α β γ : Type} {R : α → β → Prop} {f : α → Option γ} {g : β → Option γ} {l : List α} {r : List β}
    (h : List.Forall₂ R l r) (hf : ∀ a b, R a b → g b = f a) : r.filterMap g = l.filterMap f := by
  induction h with
  | nil => rfl
  | cons h _ ih => rw [List.filterMap_cons, List.filterMap_cons, hf _ _ h, ih]

/-- The tables of a schema as a diagram should show them. -/
def schemaDrawn (s : Schema) : List (Str × List DrawnColumn) := s.tables.map fun t => (t.name, t.columns.map fun c =>
  ⟨c.name, c.type, c.primaryKey, c.uniqueKey, c.notNull⟩)

/-- C151: the diagrams that DBML, PlantUML and QuickDBD show of a schema have the same tables in the same order, with the same columns in
the same order, of the same types, and with the same marks for keys, unique columns and mandatory columns; and the same lines between
tables, of the same kinds. The lines of PlantUML and QuickDBD come in the same order. The lines of DBML and QuickDBD lead from and to the
same columns. -/
theorem C151_same_partial (filter : Option (Table → Bool)) (s : Schema) (h1 : ∀ t ∈ s.tables, PlainDbmlTable t)
    (h2 : ∀ t ∈ s.tables, PlainPuTable t) (h3 : ∀ t ∈ s.tables, PlainQdTable t) :
    ∃ a b c, readDbml (Dbml.exportText filter s) = some a ∧ readPu (Plantuml.generate s) = some b ∧
      readQd (Quickdbd.exportText s) = some c ∧
      dbmlShown a = puShown b ∧ puShown b = qdShown c ∧ puLines b = qdLines c ∧ (dbmlLines a).Perm (puLines b) ∧
      (dbmlColumnLines a).Perm (qdColumnLines c) ∧ ∀ l ∈ puLines b, l.2.1 ≠ none := by
  obtain ⟨a, ha, hat, har, _⟩ := C51_relations_partial filter s h1
  obtain ⟨b, hb, hbe, hbt⟩ := C53_diagram_partial s h2
  obtain ⟨c, hc, hct⟩ := C54_blocks_partial s h3
  have ea : dbmlShown a = schemaDrawn s := by
    refine drawn_map hat fun t u hu => ?_
    rw [hu.1, drawn_map hu.2 (f := fun c : Column => (⟨c.name, c.type, c.primaryKey, c.uniqueKey, c.notNull⟩ : DrawnColumn)) ?_]
    intro c d hd
    rw [hd.name, hd.type, decide_of_iff hd.pk, decide_of_iff hd.unique, decide_of_iff hd.notNull]
  have eb : puShown b = schemaDrawn s := by
    refine drawn_map hbt fun t u hu => ?_
    rw [hu.1, drawn_map hu.2.1 (f := fun c : Column => (⟨c.name, c.type, c.primaryKey, c.uniqueKey, c.notNull⟩ : DrawnColumn)) ?_]
    intro c d hd
    rw [hd.name, hd.type, hd.keys.1, hd.keys.2, hd.mandatory]
  have ec : qdShown c = schemaDrawn s := by
    refine drawn_map hct fun t u hu => ?_
    rw [hu.1, drawn_map hu.2.2 (f := fun c : Column => (⟨c.name, c.type, c.primaryKey, c.uniqueKey, c.notNull⟩ : DrawnColumn)) ?_]
    intro c d hd
    rw [hd.name, hd.type, hd.keys.1, hd.keys.2.1, hd.nullable, Bool.not_not]
  have lc : qdColumnLines c = s.tables.flatMap fun t => t.columns.filterMap fun c => c.ref.map fun r =>
      ((t.name, c.name), qdArity (qdRel r.relationship), (r.table, r.column)) := by
    refine drawn_flatMap hct fun t u hu => ?_
    refine drawn_filterMap hu.2.2 fun c d hd => ?_
    rw [hd.fk, hd.name, hu.1, Option.map_map]
    rfl
  have la : ∀ {γ : Type} (g : DbmlRef → γ), ((a.inlineRefs ++ a.refs).map g).Perm
      (s.tables.flatMap fun t => t.columns.filterMap fun c => c.ref.map fun r => g ⟨t.name, c.name, dbmlRel r.relationship, r.table, r.column⟩) := by
    intro γ g
    have e : (schemaRefs s).map g = s.tables.flatMap fun t => t.columns.filterMap fun c => c.ref.map fun r =>
        g ⟨t.name, c.name, dbmlRel r.relationship, r.table, r.column⟩ := by
      unfold schemaRefs
      rw [List.map_flatMap]
      refine congrArg (fun f => s.tables.flatMap f) (funext fun t => ?_)
      rw [List.map_filterMap]
      refine congrArg (fun f => t.columns.filterMap f) (funext fun c => ?_)
      unfold refOfColumn
      rw [Option.map_map]
      rfl
    rw [← e]
    exact har.map g
  have lb : puLines b = s.tables.flatMap fun t => t.columns.filterMap fun c => c.ref.map fun r =>
      (t.name, puArity (puRel r.relationship), r.table) := by
    unfold puLines
    rw [hbe]
    unfold schemaEdges
    rw [List.map_flatMap]
    refine congrArg (fun f => s.tables.flatMap f) (funext fun t => ?_)
    rw [List.map_filterMap]
    refine congrArg (fun f => t.columns.filterMap f) (funext fun c => ?_)
    rw [Option.map_map]
    rfl
  have hpq : ∀ r : Str, puArity (puRel r) = qdArity (qdRel r) := fun r => by
    obtain ⟨x, _, e2, e3⟩ := arity_same r
    rw [e2, e3]
  have hdq : ∀ r : Str, dbmlArity (dbmlRel r) = qdArity (qdRel r) := fun r => by
    obtain ⟨x, e1, _, e3⟩ := arity_same r
    rw [e1, e3]
  refine ⟨a, b, c, ha, hb, hc, by rw [ea, eb], by rw [eb, ec], ?_, ?_, ?_, ?_⟩
  · unfold qdLines
    rw [lb, lc, List.map_flatMap]
    refine congrArg (fun f => s.tables.flatMap f) (funext fun t => ?_)
    rw [List.map_filterMap]
    refine congrArg (fun f => t.columns.filterMap f) (funext fun c => ?_)
    rw [Option.map_map]
    refine congrArg (fun f => c.ref.map f) (funext fun r => ?_)
    rw [hpq]
    rfl
  · rw [lb]
    have := la fun r => (r.table, dbmlArity r.rel, r.toTable)
    simp only [hdq] at this
    simp only [hpq]
    exact this
  · rw [lc]
    have := la fun r => ((r.table, r.column), dbmlArity r.rel, (r.toTable, r.toColumn))
    simp only [hdq] at this
    exact this
  · intro l hl
    rw [lb] at hl
    obtain ⟨t, _, hl⟩ := List.mem_flatMap.1 hl
    obtain ⟨c, _, hl⟩ := List.mem_filterMap.1 hl
    obtain ⟨r, _, rfl⟩ := Option.map_eq_some_iff.1 hl
    obtain ⟨x, _, e2, _⟩ := arity_same r.relationship
    show puArity (puRel r.relationship) ≠ none
    rw [e2]
    exact Option.some_ne_none _

/-- A schema whose default value DBML cannot show. -/
def callDemo : Schema :=
  { tables := [{ name := "log"ₛ, columns := [{ name := "at"ₛ, type := "datetime"ₛ, defaultValue := "fn::NOW"ₛ }] }] }

/-- C151 is violated: where a column has a function call without backquotes as its default value, PlantUML and QuickDBD show the schema
while the DBML document cannot be read. -/
theorem C151_violated : ∃ s b c, readPu (Plantuml.generate s) = some b ∧ readQd (Quickdbd.exportText s) = some c ∧
    puShown b = schemaDrawn s ∧ qdShown c = schemaDrawn s ∧ readDbml (Dbml.exportText none s) = none := by
  refine ⟨callDemo, (readPu (Plantuml.generate callDemo)).get (by decide +kernel),
    (readQd (Quickdbd.exportText callDemo)).get (by decide +kernel), ?_, ?_, by decide +kernel, by decide +kernel, by decide +kernel⟩
  · exact (Option.some_get _).symm
  · exact (Option.some_get _).symm

/-- A schema for all three: relations of three kinds, forward and backward. -/
def drawnDemo : Schema :=
  { tables := [
      { name := "user"ₛ, description := "the users"ₛ, columns := [
        { name := "id"ₛ, type := "int64"ₛ, primaryKey := true, notNull := true, autoIncremental := true },
        { name := "team_id"ₛ, type := "int64"ₛ, ref := some ⟨"team"ₛ, "id"ₛ, "n:1"ₛ⟩ },
        { name := "name"ₛ, type := "varchar"ₛ, size := 20, uniqueKey := true, defaultValue := "none"ₛ, description := "a name"ₛ }] },
      { name := "team"ₛ, columns := [
        { name := "id"ₛ, type := "int64"ₛ, primaryKey := true, notNull := true },
        { name := "owner"ₛ, type := "int64"ₛ, ref := some ⟨"user"ₛ, "id"ₛ, "1:1"ₛ⟩ },
        { name := "member"ₛ, type := "int64"ₛ, ref := some ⟨"user"ₛ, "team_id"ₛ, "1:n"ₛ⟩ }] }] }

theorem drawnDemo_dbml : ∀ t ∈ drawnDemo.tables, PlainDbmlTable t := by
  intro t ht
  have hc : ∀ t ∈ drawnDemo.tables, Ident t.name ∧ ∀ c ∈ t.columns, Ident c.name ∧ c.type ∈ colTypes ∧ PlainDbmlDefault c ∧
      PlainQuoted '"' c.description ∧ c.ref.all (fun r => decide (Ident r.table ∧ Ident r.column)) = true := by
    decide +kernel
  obtain ⟨h1, h2⟩ := hc t ht
  refine ⟨h1, fun c hc => ?_⟩
  obtain ⟨k1, k2, k3, k4, k5⟩ := h2 c hc
  refine ⟨k1, k2, k3, k4, fun r hr => ?_⟩
  rw [hr] at k5
  exact of_decide_eq_true k5

theorem drawnDemo_pu : ∀ t ∈ drawnDemo.tables, PlainPuTable t := by
  intro t ht
  have hc : ∀ t ∈ drawnDemo.tables, Ident t.name ∧ ∀ c ∈ t.columns, Ident c.name ∧ Ident c.type ∧
      c.ref.all (fun r => decide (Ident r.table)) = true := by
    decide +kernel
  obtain ⟨h1, h2⟩ := hc t ht
  refine ⟨h1, fun c hc => ?_⟩
  obtain ⟨k1, k2, k5⟩ := h2 c hc
  refine ⟨k1, k2, fun r hr => ?_⟩
  rw [hr] at k5
  exact of_decide_eq_true k5

theorem drawnDemo_qd : ∀ t ∈ drawnDemo.tables, PlainQdTable t := by
  intro t ht
  have hc : ∀ t ∈ drawnDemo.tables, Ident t.name ∧ '\n' ∉ t.description ∧ ∀ c ∈ t.columns, Ident c.name ∧ Ident c.type ∧
      (c.defaultValue = [] ∨ c.defaultValue = "none"ₛ) ∧ '\n' ∉ c.description ∧
      c.ref.all (fun r => decide (Ident r.table ∧ Ident r.column)) = true := by
    decide +kernel
  obtain ⟨h1, h2, h3⟩ := hc t ht
  refine ⟨h1, h2, fun c hc => ?_⟩
  obtain ⟨k1, k2, k3, k4, k5⟩ := h3 c hc
  refine ⟨k1, k2, ?_, k4, fun r hr => ?_⟩
  · rcases k3 with k3 | k3
    · exact Or.inl k3
    · rw [k3]
      exact Or.inr ⟨by unfold Word; decide, by decide⟩
  · rw [hr] at k5
    exact of_decide_eq_true k5

/-- C151: the demo meets the hypotheses. -/
example := C151_same_partial none drawnDemo drawnDemo_dbml drawnDemo_pu drawnDemo_qd

/-- C151: the lines of the demo. -/
example : (readPu (Plantuml.generate drawnDemo)).map puLines = some [("user"ₛ, some .manyToOne, "team"ₛ),
    ("team"ₛ, some .oneToOne, "user"ₛ), ("team"ₛ, some .oneToMany, "user"ₛ)] := by
  decide +kernel

end Octo
