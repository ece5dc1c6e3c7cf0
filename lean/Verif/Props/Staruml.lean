import Verif.Lemmas.Staruml

/-! Property C50: the import of StarUML documents. -/

namespace Octo
open Spec Staruml

/-- C50 (partial): an imported document has a data model, and the tables are, in order, the entities of the
first one, with one column per attribute, each described by name, keys, nullability, documentation, type and
size; references lead to the stated column and entity.  Missing: lengths given as numbers, see
`C50_violated_length`. -/
theorem C50_import_partial (root : Element) (s : Schema) (h : toSchema root = .ok s) :
    s.version = root.info.name ∧ ∃ m, FirstModel root m ∧
      List.Forall₂ (DescribesEntity root) (m.owned.filter fun e => e.info.elemType = "ERDEntity"ₛ) s.tables := by
  unfold toSchema at h
  split at h
  · cases h
  · rename_i m ms hm
    split at h
    · cases h
    · rename_i ts hts
      cases h
      exact ⟨rfl, m, firstModel_of_findByType hm, (Ojson.mapM_forall₂ hts).imp fun _ _ h => tableOf_some h⟩

/-- C50: with distinct ids a reference names the entity and the column that it leads to. -/
theorem C50_reference (root c : Element) (hd : DistinctIds root) (d : Column) (h : RefFollows root c d)
    (r : Str) (hr : c.info.referenceTo = some r) (target table : Element) (hl : Leads root r target table) :
    d.ref = some ⟨table.info.name, target.info.name, []⟩ := by
  obtain ⟨target', table', ⟨h1, h2, h3, h4⟩, h5⟩ := h.2 r hr
  obtain ⟨g1, g2, g3, g4⟩ := hl
  have e1 := hd target' target h1 g1 (h2.trans g2.symm)
  subst e1
  rw [g4] at h4
  have e2 := hd table' table h3 g3 (Option.some.inj h4).symm
  subst e2
  exact h5

/-- C50: an import fails with an error exactly if there is no data model. -/
theorem C50_error_iff (root : Element) : toSchema root = .error ↔ ¬∃ m, FirstModel root m := by
  unfold toSchema
  split
  · rename_i h; exact ⟨fun _ => no_model h, fun _ => rfl⟩
  · rename_i m ms hm
    constructor
    · intro h; split at h <;> cases h
    · intro h; exact absurd ⟨m, firstModel_of_findByType hm⟩ h

/-- C50: with distinct ids, the import panics exactly if a column of an entity of the first data model has a
reference that leads nowhere. -/
theorem C50_panic_iff (root : Element) (hd : DistinctIds root) : toSchema root = .panic ↔
    ∃ m, FirstModel root m ∧ ∃ e ∈ m.owned, e.info.elemType = "ERDEntity"ₛ ∧
      ∃ c ∈ e.columns, c.info.elemType = "ERDColumn"ₛ ∧ ∃ r, c.info.referenceTo = some r ∧
        ¬∃ target table, Leads root r target table := by
  have hcol : ∀ c, columnOf root c = none ↔ ∃ r, c.info.referenceTo = some r ∧
      ¬∃ target table, Leads root r target table := by
    intro c
    constructor
    · intro h
      obtain ⟨r, h1, h2⟩ := columnOf_none h
      exact ⟨r, h1, h2 hd⟩
    · rintro ⟨r, h1, h2⟩
      cases hc : columnOf root c with
      | none => rfl
      | some d => exact absurd (columnOf_isSome hc h1) h2
  have htab : ∀ e, tableOf root e = none ↔ ∃ c ∈ e.columns, c.info.elemType = "ERDColumn"ₛ ∧
      ∃ r, c.info.referenceTo = some r ∧ ¬∃ target table, Leads root r target table := by
    intro e
    have : tableOf root e = none ↔ (findByType e.columns "ERDColumn"ₛ).mapM (columnOf root) = none := by
      unfold tableOf
      cases hm : ((findByType e.columns "ERDColumn"ₛ).mapM (columnOf root) : Option (List Column)) <;> simp
    rw [this, Ojson.mapM_none]
    simp only [findByType, List.mem_filter, decide_eq_true_eq, hcol, and_assoc]
  unfold toSchema
  split
  · rename_i h
    constructor
    · intro h; cases h
    · rintro ⟨m, hm, _⟩; exact absurd ⟨m, hm⟩ (no_model h)
  · rename_i m ms hm
    have hfm := firstModel_of_findByType hm
    have hmm : ((findByType m.owned "ERDEntity"ₛ).mapM (tableOf root) = none) ↔
        ∃ e ∈ m.owned, e.info.elemType = "ERDEntity"ₛ ∧
      ∃ c ∈ e.columns, c.info.elemType = "ERDColumn"ₛ ∧ ∃ r, c.info.referenceTo = some r ∧
        ¬∃ target table, Leads root r target table := by
      rw [Ojson.mapM_none]
      simp only [findByType, List.mem_filter, decide_eq_true_eq, htab, and_assoc]
    have houter : (∃ m', FirstModel root m' ∧ ∃ e ∈ m'.owned, e.info.elemType = "ERDEntity"ₛ ∧
      ∃ c ∈ e.columns, c.info.elemType = "ERDColumn"ₛ ∧ ∃ r, c.info.referenceTo = some r ∧
        ¬∃ target table, Leads root r target table) ↔ ∃ e ∈ m.owned, e.info.elemType = "ERDEntity"ₛ ∧
      ∃ c ∈ e.columns, c.info.elemType = "ERDColumn"ₛ ∧ ∃ r, c.info.referenceTo = some r ∧
        ¬∃ target table, Leads root r target table := by
      constructor
      · rintro ⟨m', h1, h2⟩
        rw [firstModel_unique h1 hfm] at h2
        exact h2
      · intro h; exact ⟨m, hfm, h⟩
    rw [houter, ← hmm]
    cases ((findByType m.owned "ERDEntity"ₛ).mapM (tableOf root) : Option (List Table)) <;> simp

/-! ### Violations and examples -/

/-- A document with the entities `user` and `post`; `post.author` refers to `user.id`. -/
def umlDemo (len : Length) (target : Str) : Element :=
  .mk { elemType := "Project"ₛ, id := "p"ₛ, name := "demo"ₛ }
    [.mk { elemType := "ERDDataModel"ₛ, id := "m"ₛ, parent := some "p"ₛ }
      [.mk { elemType := "ERDEntity"ₛ, id := "u"ₛ, parent := some "m"ₛ, name := "user"ₛ } []
        [.mk { elemType := "ERDColumn"ₛ, id := "ui"ₛ, parent := some "u"ₛ, name := "id"ₛ, type := "bigint"ₛ,
               primaryKey := true } [] [],
         .mk { elemType := "ERDColumn"ₛ, id := "un"ₛ, parent := some "u"ₛ, name := "name"ₛ, type := "varchar(7)"ₛ,
               length := len, nullable := true } [] []],
       .mk { elemType := "ERDEntity"ₛ, id := "q"ₛ, parent := some "m"ₛ, name := "post"ₛ } []
        [.mk { elemType := "ERDColumn"ₛ, id := "qa"ₛ, parent := some "q"ₛ, name := "author"ₛ, type := "bigint"ₛ,
               referenceTo := some target } [] []]]
      []] []

/-- What is imported from it. -/
def umlDemoResult (size : UInt16) : Schema :=
  { version := "demo"ₛ
    tables := [
      { name := "user"ₛ, columns := [
        { name := "id"ₛ, type := "bigint"ₛ, primaryKey := true, notNull := true },
        { name := "name"ₛ, type := "varchar"ₛ, size := size }] },
      { name := "post"ₛ, columns := [
        { name := "author"ₛ, type := "bigint"ₛ, notNull := true, ref := some ⟨"user"ₛ, "id"ₛ, []⟩ }] }] }

/-- C50 fails as stated: a length given as a JSON number is ignored, whatever it is: the size is the one given
with the type. -/
theorem C50_violated_length :
    (∀ (root c : Element) (d : Column) (n : Nat), c.info.length = .num n → columnOf root c = some d →
      d.size = (parseType c.info.type).2.1) ∧
    (∀ n, ∃ s, toSchema (umlDemo (.num n) "ui"ₛ) = .ok s ∧ s = umlDemoResult 7) ∧
    toSchema (umlDemo (.str "20"ₛ) "ui"ₛ) = .ok (umlDemoResult 20) := by
  refine ⟨?_, ?_, ?_⟩
  · intro root c d n hn h
    unfold columnOf at h
    dsimp only at h
    split at h
    · cases h
    · cases h
      show (if toUInt16 (toInt c.info.length 0) = 0 then _ else _) = _
      rw [hn, if_pos (by show toUInt16 0 = 0; decide)]
  · intro n
    exact ⟨_, rfl, rfl⟩
  · rfl

/-- C50 fails as stated: a length that is negative is stored as a size, -1 as 65535. -/
theorem C50_violated_negative : toSchema (umlDemo (.str "-1"ₛ) "ui"ₛ) = .ok (umlDemoResult 65535) := rfl

theorem demo_ids (len : Length) (target : Str) : DistinctIds (umlDemo len target) := by
  have hn : ((walk (umlDemo len target)).map fun e => e.info.id).Nodup := by
    show ["p"ₛ, "m"ₛ, "u"ₛ, "ui"ₛ, "un"ₛ, "q"ₛ, "qa"ₛ].Nodup
    decide
  intro a b ha hb h
  exact List.inj_on_of_nodup_map hn (mem_walk_of_partOf ha) (mem_walk_of_partOf hb) h

/-- C50 fails as stated: a reference to a column that is not in the document crashes the import. -/
theorem C50_violated_reference : ∃ root, DistinctIds root ∧ (∃ m, FirstModel root m) ∧ toSchema root = .panic :=
  ⟨umlDemo .none "zz"ₛ, demo_ids _ _, ⟨_, [], [], rfl, rfl, by simp⟩, rfl⟩

example : ∃ root s, DistinctIds root ∧ toSchema root = .ok s ∧ s = umlDemoResult 20 :=
  ⟨umlDemo (.str "20"ₛ) "ui"ₛ, _, demo_ids _ _, rfl, rfl⟩

example : toSchema (.mk {} [] []) = .error := rfl

end Octo
