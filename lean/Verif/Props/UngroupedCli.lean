import Verif.Props.ExactSheetCli
import Verif.Props.Ungrouped

/-! C157 on the command line: `export xlsx` and `import xlsx` of a file without groups. -/

namespace Octo.Cli
open Xlsx Spec

/-- The export to a spreadsheet, for a file that can be read and one that can be written. -/
theorem exportXlsx_eq {w : World} {v : Values} {fs : Files} {s : Schema} (h : load w fs (v "input"ₛ) = some s)
    (hwr : w.writable (pathOf (v "output"ₛ)) = true) :
    action w .exportXlsx v fs = match exportSchema w.accepts (v.bool "useNullColumn"ₛ) s with
      | none => ⟨fs, .error⟩
      | some wb => ⟨fs.set (pathOf (v "output"ₛ)) (.book wb), .ok⟩ := by
  have e : action w .exportXlsx v fs = exportXlsxAction w v fs := rfl
  rw [e]
  unfold exportXlsxAction write
  rw [withSchema_some h]
  simp only [if_pos hwr]
  cases exportSchema w.accepts (v.bool "useNullColumn"ₛ) s <;> rfl

/-- The import of a spreadsheet does not depend on the other files. -/
theorem importXlsx_frame {w : World} {v' : Values} {fs fs' : Files} {p : Path} {c : Content} (hp : p = pathOf (v' "input"ₛ)) :
    (action w .importXlsx v' (fs.set p c)).status = (action w .importXlsx v' (fs'.set p c)).status ∧
    ((action w .importXlsx v' (fs'.set p c)).status = .ok →
      load w (action w .importXlsx v' (fs.set p c)).files (v' "output"ₛ) =
      load w (action w .importXlsx v' (fs'.set p c)).files (v' "output"ₛ)) := by
  subst hp
  have e : ∀ fs : Files, action w .importXlsx v' fs = importXlsxAction w v' fs := fun _ => rfl
  rw [e, e]
  unfold importXlsxAction
  rw [files_set_at, files_set_at]
  cases c with
  | book wb =>
    dsimp only
    cases importWorkbook w.sheets wb with
    | none => exact ⟨rfl, fun h => by cases h⟩
    | some s' =>
      dsimp only
      unfold save
      cases s'.toJson w.sorter with
      | none => exact ⟨rfl, fun h => by cases h⟩
      | some text =>
        dsimp only
        unfold write
        split
        · refine ⟨rfl, fun _ => ?_⟩
          unfold load Files.text
          dsimp only
          rw [files_set_at, files_set_at]
        · exact ⟨rfl, fun h => by cases h⟩
  | _ => exact ⟨rfl, fun h => by cases h⟩

/-- **C157** on the command line, exactly: a file without groups that is exported to a spreadsheet and imported again has for every other
command the same meta data and the same tables in the same order, in the group `Common`, if and only if the spreadsheet can represent every
table and the library accepts the names of the sheets.  Reading the file does not repair what the spreadsheet has lost. -/
theorem C157_commands_exact (w : World) (hw : Faithful w) (v v' : Values) (fs : Files) (s : Schema)
    (hst : Stored w fs (v "input"ₛ) s) (hg : ∀ t ∈ s.tables, t.group = []) (hin : v' "input"ₛ = v "output"ₛ)
    (ho : IsOctopus (v' "output"ₛ))
    (hwr : w.writable (pathOf (v "output"ₛ)) = true) (hwr' : w.writable (pathOf (v' "output"ₛ)) = true) :
    ((action w .exportXlsx v fs).status = .ok ∧
      (action w .importXlsx v' (action w .exportXlsx v fs).files).status = .ok ∧
      load w (action w .importXlsx v' (action w .exportXlsx v fs).files).files (v' "output"ₛ) =
        some { s with tables := s.tables.map fun t => { t with group := "Common"ₛ } }) ↔
    (∀ t ∈ s.tables, SheetTable t) ∧ (s.tables ≠ [] → w.accepts "Common"ₛ = true) ∧ w.accepts "Meta"ₛ = true := by
  obtain ⟨s', hs'⟩ : ∃ s' : Schema, s' = { s with tables := s.tables.map commoned } := ⟨_, rfl⟩
  have hgoal : ({ s with tables := s.tables.map fun t => { t with group := "Common"ₛ } } : Schema) = s' := hs'.symm
  rw [hgoal]
  obtain ⟨hsorted, hnorm⟩ := stored_sorted hw hst
  -- the schema in the group `Common` in a file of its own
  have hd' : DistinctTables s' := by
    rw [hs']
    unfold DistinctTables
    rw [List.pairwise_map]
    refine List.Pairwise.imp_of_mem ?_ (stored_distinct hw hst)
    intro a b ha hb h h'
    exact h ⟨(hg a ha).trans (hg b hb).symm, h'.2⟩
  have hsorted' : s'.tables.Pairwise (fun a b => tableLess b a = false) := by
    rw [hs']
    show (s.tables.map commoned).Pairwise _
    rw [List.pairwise_map]
    refine List.Pairwise.imp_of_mem ?_ hsorted
    intro a b ha hb h
    unfold tableLess at h ⊢
    rw [hg a ha, hg b hb, strLt_irrefl, if_neg (by decide), if_pos rfl] at h
    show (if strLt "Common"ₛ "Common"ₛ = true then true else if "Common"ₛ = "Common"ₛ then strLt b.name a.name else false) = false
    rw [strLt_irrefl, if_neg (by decide), if_pos rfl]
    exact h
  have hnorm' : ∀ t ∈ s'.tables, ValidTable t ∧ normTable t = t := by
    rw [hs']
    intro t ht
    obtain ⟨u, hu, rfl⟩ := List.mem_map.1 ht
    obtain ⟨h1, h2⟩ := hnorm u hu
    refine ⟨h1, ?_⟩
    have e : normTable (commoned u) = commoned (normTable u) := rfl
    rw [e, h2]
  have hfix := normalize_fix hw.sorter hd' hsorted' hnorm'
  obtain ⟨text, htext⟩ := C07_saves w.sorter hw.sorter s' fun t ht => (hnorm' t ht).1
  have hst' : Stored w (fs.set (pathOf (v "input"ₛ)) (.text text)) (v "input"ₛ) s' :=
    ⟨hst.1, s', text, hd', htext, files_set_at _ _ _, by rw [hfix]⟩
  have key := C119_exact w hw v v' _ s' hst' hin ho hwr hwr'
  rw [exportXlsx_eq (load_stored hw hst') hwr] at key
  rw [exportXlsx_eq (load_stored hw hst) hwr, export_commoned _ _ s hg, ← hs']
  have hright : ((∀ t ∈ s'.tables, SheetTable t) ∧ (∀ t ∈ s'.tables, SheetGroup w.accepts t.group) ∧ w.accepts "Meta"ₛ = true) ↔
      (∀ t ∈ s.tables, SheetTable t) ∧ (s.tables ≠ [] → w.accepts "Common"ₛ = true) ∧ w.accepts "Meta"ₛ = true := by
    rw [hs']
    refine and_congr ?_ (and_congr ?_ Iff.rfl)
    · constructor
      · intro hx t ht
        have := hx _ (List.mem_map.2 ⟨t, ht, rfl⟩)
        exact ⟨this.named, this.className, this.description, this.columns, this.indexNames, this.indices⟩
      · intro hx t ht
        obtain ⟨u, hu, rfl⟩ := List.mem_map.1 ht
        have := hx u hu
        exact ⟨this.named, this.className, this.description, this.columns, this.indexNames, this.indices⟩
    · constructor
      · intro hx hne
        obtain ⟨t, ht⟩ := List.exists_mem_of_ne_nil _ hne
        exact (hx _ (List.mem_map.2 ⟨t, ht, rfl⟩)).2.2
      · intro hx t ht
        obtain ⟨u, hu, rfl⟩ := List.mem_map.1 ht
        have d : "Common"ₛ ≠ [] ∧ "Common"ₛ ≠ "Meta"ₛ := by decide +kernel
        exact ⟨d.1, d.2, hx (List.ne_nil_of_mem hu)⟩
  rw [← hright, ← key]
  cases exportSchema w.accepts (v.bool "useNullColumn"ₛ) s' with
  | none =>
    constructor
    · rintro ⟨h, -⟩; cases h
    · rintro ⟨h, -⟩; cases h
  | some wb =>
    dsimp only
    obtain ⟨h1, h2⟩ := importXlsx_frame (w := w) (v' := v') (fs := fs) (fs' := fs.set (pathOf (v "input"ₛ)) (.text text))
      (p := pathOf (v "output"ₛ)) (c := .book wb) (by rw [hin])
    rw [h1]
    constructor
    · rintro ⟨h3, h4, h5⟩
      exact ⟨h3, h4, by rw [← h2 h4]; exact h5⟩
    · rintro ⟨h3, h4, h5⟩
      exact ⟨h3, h4, by rw [h2 h4]; exact h5⟩

/-- C157: the tables of an imported script. -/
example : ∃ (v v' : Values) (fs : Files) (s : Schema), Stored demoWorld fs (v "input"ₛ) s ∧ s.tables.length = 2 ∧
    (action demoWorld .exportXlsx v fs).status = .ok ∧
    (action demoWorld .importXlsx v' (action demoWorld .exportXlsx v fs).files).status = .ok ∧
    load demoWorld (action demoWorld .importXlsx v' (action demoWorld .exportXlsx v fs).files).files (v' "output"ₛ) =
      some { s with tables := s.tables.map fun t => { t with group := "Common"ₛ } } := by
  have hsheet : ∀ t ∈ sheetScriptSchema.tables, SheetTable t := by
    intro t ht
    simp only [sheetScriptSchema, List.mem_cons, List.not_mem_nil, or_false] at ht
    rcases ht with rfl | rfl
    · refine ⟨by decide, by decide, by decide, ?_, by decide, by decide⟩
      intro c hc
      simp only [List.mem_cons, List.not_mem_nil, or_false] at hc
      rcases hc with rfl | rfl | rfl <;>
        exact ⟨by decide, by decide, by decide, by decide, by decide, by decide, by decide, by decide, by simp⟩
    · refine ⟨by decide, by decide, by decide, ?_, by decide, by decide⟩
      intro c hc
      obtain rfl := List.mem_singleton.1 hc
      exact ⟨by decide, by decide, by decide, by decide, by decide, by decide, by decide, by decide, by simp⟩
  obtain ⟨fs, s, h1, h2⟩ := stored_demo demo_faithful (s := sheetScriptSchema) (by unfold DistinctTables; decide +kernel) (fun t ht =>
    ⟨(C04_accepts_iff tableSort tableSort_spec sheetScriptSchema).mp (by decide +kernel) t ht, by revert t; decide +kernel⟩)
  refine ⟨given [("input"ₛ, "a.json"ₛ), ("output"ₛ, "a.xlsx"ₛ)], given [("input"ₛ, "a.xlsx"ₛ), ("output"ₛ, "b.json"ₛ)], fs, s, h1,
    h2.length_eq, ?_⟩
  have hgr : ∀ t ∈ sheetScriptSchema.tables, t.group = [] := by decide +kernel
  exact (C157_commands_exact demoWorld demo_faithful _ _ fs s h1 (fun t h => hgr t (h2.mem_iff.mp h)) rfl (by decide +kernel)
    (by decide +kernel) (by decide +kernel)).2 ⟨fun t h => hsheet t (h2.mem_iff.mp h), fun _ => rfl, rfl⟩

end Octo.Cli
