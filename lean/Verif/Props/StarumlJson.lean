import Verif.Lemmas.StarumlJson
import Verif.Props.Staruml
import Verif.Lemmas.Json

/-! Property C124: reading StarUML documents. -/

namespace Octo
open Spec Staruml

/-- C124: a document that describes a project is imported like the project, whatever the order of its members and whatever other members
it has. -/
theorem C124_import (j : Json) (e : Element) (h : ElementDoc j e) : importJson (some j) = Staruml.toSchema e := by
  have hd := decode_of e h
  cases e with
  | mk i o c =>
    rw [ElementDoc] at h
    obtain ⟨l, os, cs, rfl, -⟩ := h
    unfold importJson
    simp only [hd]
    rfl

/-- C124: a document describes at most one project. -/
theorem C124_unique (j : Json) (e e' : Element) (h : ElementDoc j e) (h' : ElementDoc j e') : e = e' := by
  have h1 := decode_of e h
  rw [decode_of e' h'] at h1
  cases e; cases e'
  injection h1 with h1 h2 h3
  simp only [Element.info, Element.owned, Element.columns] at h1 h2 h3
  rw [h1, h2, h3]

/-- C124: a document describes a project when all its elements have members of the expected kinds and none is null. -/
theorem C124_described (j : Json) (hd : AllDistinctKeys j) (h : ∀ x, ElementOf x j → WellTyped x ∧ x ≠ .null) : ∃ e, ElementDoc j e :=
  describes_of _ j (Nat.lt_succ_self _) hd h

/-- C124: a member of an unexpected kind in any element of the document is an error. -/
theorem C124_wrong (j x : Json) (hd : AllDistinctKeys j) (hx : ElementOf x j) (h : ¬WellTyped x) : importJson (some j) = .error := by
  have he : (decode j).error = true := (decode_error _ j (Nat.lt_succ_self _) hd).2 ⟨x, hx, h⟩
  unfold importJson
  cases j with
  | null => rw [decode] at he; cases he
  | _ => simp only [he, if_true]

/-- C124: an element that is null crashes the import, unless the document is in error or just null. -/
theorem C124_null (j : Json) (hd : AllDistinctKeys j) (hj : j ≠ .null) (h : ∀ x, ElementOf x j → WellTyped x) (hx : ElementOf .null j) :
    importJson (some j) = .panic := by
  have he : (decode j).error = false := by
    rw [← Bool.not_eq_true, decode_error _ j (Nat.lt_succ_self _) hd]
    rintro ⟨x, hx, hw⟩
    exact hw (h x hx)
  have hn : (decode j).null = true := (decode_null _ j (Nat.lt_succ_self _)).2 hx
  unfold importJson
  cases j with
  | null => exact absurd rfl hj
  | _ => simp [he, hn]

/-- C124: a file that is not JSON, or just null, is an error. -/
theorem C124_empty : importJson none = .error ∧ importJson (some .null) = .error := ⟨rfl, rfl⟩

/-! ### Examples -/

def refDoc : Option Str → Json
  | none => .null
  | some r => .obj [("$ref"ₛ, .str r)]

def lengthDoc : Length → Json
  | .none => .null
  | .str s => .str s
  | .num n => .num n
  | .other => .bool true

mutual
/-- A document that describes an element. -/
def docOf : Element → Json
  | .mk i o c => .obj [("_type"ₛ, .str i.elemType), ("_id"ₛ, .str i.id), ("_parent"ₛ, refDoc i.parent), ("name"ₛ, .str i.name),
      ("length"ₛ, lengthDoc i.length), ("type"ₛ, .str i.type), ("primaryKey"ₛ, .bool i.primaryKey), ("unique"ₛ, .bool i.unique),
      ("nullable"ₛ, .bool i.nullable), ("documentation"ₛ, .str i.documentation), ("referenceTo"ₛ, refDoc i.referenceTo),
      ("ownedElements"ₛ, .arr (docsOf o)), ("columns"ₛ, .arr (docsOf c)), ("left"ₛ, .num 7)]
def docsOf : List Element → List Json
  | [] => []
  | e :: l => docOf e :: docsOf l
end

theorem refDoc_isRef (r : Option Str) : IsRef (refDoc r) r := by
  cases r with
  | none => exact .inl ⟨rfl, rfl⟩
  | some r =>
    exact .inr ⟨_, r, rfl, List.nodup_singleton _, .inl ⟨("$ref"ₛ, .str r), List.mem_singleton.2 rfl, rfl, .inl rfl⟩, rfl⟩

theorem lengthDoc_isLength (x : Length) : IsLength (lengthDoc x) x := by
  cases x <;> rfl

mutual
/-- C124: every element is described by some document. -/
theorem C124_docOf : ∀ e : Element, ElementDoc (docOf e) e
  | .mk i o c => by
    rw [docOf, ElementDoc]
    refine ⟨_, docsOf o, docsOf c, rfl, by unfold DistinctKeys; simp only [List.map_cons, List.map_nil]; decide, ?_, ?_, C124_docsOf o, ?_, C124_docsOf c⟩
    · refine ⟨.inl ⟨("_type"ₛ, .str i.elemType), List.mem_of_getElem? (i := 0) rfl, rfl, .inl rfl⟩, .inl ⟨("_id"ₛ, .str i.id), List.mem_of_getElem? (i := 1) rfl, rfl, .inl rfl⟩,
        .inl ⟨("_parent"ₛ, refDoc i.parent), List.mem_of_getElem? (i := 2) rfl, rfl, refDoc_isRef _⟩, .inl ⟨("name"ₛ, .str i.name), List.mem_of_getElem? (i := 3) rfl, rfl, .inl rfl⟩,
        .inl ⟨("length"ₛ, lengthDoc i.length), List.mem_of_getElem? (i := 4) rfl, rfl, lengthDoc_isLength _⟩,
        .inl ⟨("type"ₛ, .str i.type), List.mem_of_getElem? (i := 5) rfl, rfl, .inl rfl⟩, .inl ⟨("primaryKey"ₛ, .bool i.primaryKey), List.mem_of_getElem? (i := 6) rfl, rfl, .inl rfl⟩,
        .inl ⟨("unique"ₛ, .bool i.unique), List.mem_of_getElem? (i := 7) rfl, rfl, .inl rfl⟩, .inl ⟨("nullable"ₛ, .bool i.nullable), List.mem_of_getElem? (i := 8) rfl, rfl, .inl rfl⟩,
        .inl ⟨("documentation"ₛ, .str i.documentation), List.mem_of_getElem? (i := 9) rfl, rfl, .inl rfl⟩,
        .inl ⟨("referenceTo"ₛ, refDoc i.referenceTo), List.mem_of_getElem? (i := 10) rfl, rfl, refDoc_isRef _⟩, ?_⟩
      intro key hkey
      refine ⟨none, .inr ⟨?_, rfl⟩⟩
      simp only [List.mem_cons, List.not_mem_nil, or_false] at hkey
      rcases hkey with rfl | rfl | rfl | rfl <;>
      · simp only [List.forall_mem_cons, List.not_mem_nil, false_implies, implies_true, and_true]
        decide
    · exact .inl ⟨("ownedElements"ₛ, .arr (docsOf o)), List.mem_of_getElem? (i := 11) rfl, rfl, .inl rfl⟩
    · exact .inl ⟨("columns"ₛ, .arr (docsOf c)), List.mem_of_getElem? (i := 12) rfl, rfl, .inl rfl⟩
theorem C124_docsOf : ∀ l : List Element, ElementDocs (docsOf l) l
  | [] => by rw [docsOf, ElementDocs]
  | e :: l => by rw [docsOf, ElementDocs]; exact ⟨_, _, rfl, C124_docOf e, C124_docsOf l⟩
end

/-- C124: the text of such a document is read back. -/
theorem C124_text (e : Element) : importJson (readJson (Json.print 0 (docOf e))) = Staruml.toSchema e := by
  rw [Json.readJson_print]
  exact C124_import _ _ (C124_docOf e)

/-- C124: the document of the demonstration of C50 is imported. -/
example : importJson (readJson (Json.print 0 (docOf (umlDemo (.str "20"ₛ) "ui"ₛ)))) = .ok (umlDemoResult 20) := C124_text _

/-- C124: the kind of a member matters wherever the element is. -/
example : importJson (some (.obj [("ownedElements"ₛ, .arr [.obj [("_type"ₛ, .str "ERDDataModel"ₛ)],
    .obj [("_type"ₛ, .str "UMLModel"ₛ), ("type"ₛ, .obj [("$ref"ₛ, .str "x"ₛ)])]])])) = .error := rfl

example : importJson (some (.obj [("ownedElements"ₛ, .arr [.obj [("_type"ₛ, .str "ERDDataModel"ₛ)], .null])])) = .panic := rfl

end Octo
