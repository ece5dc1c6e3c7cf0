import Verif.Lemmas.Quickdbd
import Verif.Lemmas.Ojson

/-! Property C54: the QuickDBD exporter. -/

namespace Octo
open Spec Quickdbd

/-- C54, for texts without special characters: the document has one block per table, in order, with the name and the
description of the table, and one line per column, in order, with its type, flags, default value and reference.
Missing: texts with special characters, for which the property fails (`C54_violated`). There is no selection of tables. -/
theorem C54_blocks_partial (s : Schema) (h : ∀ t ∈ s.tables, PlainQdTable t) :
    ∃ d, readQd (exportText s) = some d ∧ List.Forall₂ (fun (t : Table) (b : QdTable) => b.name = t.name ∧
      b.comment = (optText t.description).map trimSpace ∧ List.Forall₂ QdDescribes t.columns b.columns) s.tables d := by
  refine ⟨_, read_export h, ?_⟩
  rw [List.forall₂_map_right_iff]
  refine List.forall₂_same.2 fun t _ => ⟨rfl, rfl, ?_⟩
  show List.Forall₂ QdDescribes t.columns (t.columns.map readColumn)
  rw [List.forall₂_map_right_iff]
  exact List.forall₂_same.2 fun c _ => ⟨rfl, rfl, ⟨rfl, rfl, rfl⟩, rfl, rfl, rfl, rfl⟩

def qdDemo : Schema :=
  { tables := [
      { name := "user"ₛ, description := "the users"ₛ, columns := [
          { name := "id"ₛ, type := "int64"ₛ, primaryKey := true, autoIncremental := true, notNull := true },
          { name := "group_id"ₛ, type := "int"ₛ, ref := some ⟨"group"ₛ, "id"ₛ, "n:1"ₛ⟩ },
          { name := "name"ₛ, type := "varchar"ₛ, size := 20, defaultValue := "none"ₛ, uniqueKey := true,
            description := "a name"ₛ } ] },
      { name := "group"ₛ, columns := [{ name := "id"ₛ, type := "int"ₛ, primaryKey := true, notNull := true }] } ] }

example : exportText qdDemo =
    "user # the users\n----\nid int64 PK AUTOINCREMENT\ngroup_id int NULLABLE FK >- group.id\nname varchar UNIQUE NULLABLE default=none # a name\n\ngroup\n-----\nid int PK\n"ₛ := by
  decide +kernel

example : ∀ t ∈ qdDemo.tables, PlainQdTable t := by
  intro t ht
  simp only [qdDemo, List.mem_cons, List.not_mem_nil, or_false] at ht
  rcases ht with rfl | rfl
  · refine ⟨by decide, by decide, ?_⟩
    intro c hc
    simp only [List.mem_cons, List.not_mem_nil, or_false] at hc
    rcases hc with rfl | rfl | rfl
    · exact ⟨by decide, by decide, Or.inl rfl, by decide, nofun⟩
    · refine ⟨by decide, by decide, Or.inl rfl, by decide, ?_⟩
      rintro r ⟨⟩; decide
    · exact ⟨by decide, by decide, Or.inr ⟨⟨by decide, by decide⟩, by decide⟩, by decide, nofun⟩
  · refine ⟨by decide, by decide, ?_⟩
    intro c hc
    rw [List.mem_singleton.1 hc]
    exact ⟨by decide, by decide, Or.inl rfl, by decide, nofun⟩

/-- C54 is violated: default values are not quoted. With a default value that ends in ` PK` every column is written as
a key, although it is none. -/
theorem C54_violated (n ty v : Str) (hn : Ident n) (ht : Ident ty) (hv : Ident v) :
    let c : Column := { name := n, type := ty, notNull := true, defaultValue := v ++ " PK"ₛ }
    ∃ d, readQdColumn (columnDef c) = some d ∧ c.primaryKey = false ∧ d.pk = true ∧ ¬QdDescribes c d := by
  intro c
  have hne : c.defaultValue ≠ [] := by simp [c]
  have e : columnDef c = join " "ₛ [n, ty, "default="ₛ ++ v, "PK"ₛ] := by
    show n ++ " "ₛ ++ join " "ₛ (params c) = _
    have : params c = [ty, "default="ₛ ++ (v ++ " PK"ₛ)] := by
      show [ty] ++ [] ++ [] ++ [] ++ [] ++ (if c.defaultValue = [] then [] else ["default="ₛ ++ c.defaultValue]) ++ [] ++ [] = _
      rw [if_neg hne]
      rfl
    rw [this, join_cons_cons, join_cons_cons, join_cons_cons, join_cons_cons]
    simp only [join, List.append_assoc]
    rfl
  have hi : ∀ {s}, Ident s → Good sqlSep s ∧ s ≠ [] := fun h => ⟨good_ident h, h.1⟩
  have hg : ∀ x ∈ [n, ty, "default="ₛ ++ v, "PK"ₛ], Good sqlSep x ∧ x ≠ [] ∧ '#' ∉ x := by
    intro x hx
    simp only [List.mem_cons, List.not_mem_nil, or_false] at hx
    rcases hx with rfl | rfl | rfl | rfl
    · exact ⟨(hi hn).1, hn.1, ident_not (by decide) hn⟩
    · exact ⟨(hi ht).1, ht.1, ident_not (by decide) ht⟩
    · refine ⟨.append _ _ (good_literal _ (by decide)) (good_ident hv), by simp, ?_⟩
      rw [List.mem_append, not_or]
      exact ⟨by decide, ident_not (by decide) hv⟩
    · exact ⟨good_literal _ (by decide), by decide, by decide⟩
  refine ⟨{ name := n, type := ty, pk := true, default := some v }, ?_, rfl, rfl, fun h => ?_⟩
  · unfold readQdColumn
    rw [e, splitN2_no_sep (sharp_join (by decide) fun x hx => (hg x hx).2.2)]
    dsimp only
    rw [tokens_join fun x hx => ⟨Good.blank (hg x hx).1, (hg x hx).2.1⟩]
    dsimp only
    have h1 := read_default v { name := n, type := ty } rfl ["PK"ₛ]
    rw [if_neg hv.1] at h1
    rw [show ["default="ₛ ++ v, "PK"ₛ] = ["default="ₛ ++ v] ++ ["PK"ₛ] from rfl]
    show readQdWords _ _ = _
    rw [Option.map_none, h1, readQdWords.eq_def]
    dsimp only
    rw [if_pos rfl, readQdWords.eq_def]
    dsimp only
    rw [optText, if_neg hv.1]
  · exact Bool.noConfusion (show true = false from h.keys.1)

example : Ident "name"ₛ ∧ Ident "varchar"ₛ ∧ Ident "a"ₛ := by decide

/-- The schema without the declared sizes. -/
def Spec.eraseSizes (s : Schema) : Schema :=
  { s with tables := s.tables.map fun t => { t with columns := t.columns.map fun c => { c with size := 0, scale := 0 } } }

/-- C77 is violated: QuickDBD documents do not depend on the declared sizes, so schemas that differ in them cannot be told
apart. -/
theorem C77_violated_quickdbd : (∀ s, exportText s = exportText (eraseSizes s)) ∧
    ∃ s, eraseSizes s ≠ s ∧ exportText (eraseSizes s) = exportText s := by
  have h : ∀ s, exportText s = exportText (eraseSizes s) := by
    intro s
    unfold exportText eraseSizes
    rw [List.flatMap_map]
    congr 2
    funext t
    unfold tableLines
    rw [List.map_map]
    rfl
  refine ⟨h, qdDemo, ?_, (h _).symm⟩
  intro e
  have := congrArg (fun s : Schema => (s.tables.flatMap Table.columns).map Column.size) e
  exact absurd this (by decide)

end Octo
