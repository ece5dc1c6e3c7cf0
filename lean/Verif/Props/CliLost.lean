import Verif.Props.CliConvert
import Verif.Props.Stable
import Verif.Props.Cli

/-! What conversions with two commands lose (C112, C119, C120). -/

namespace Octo.Cli
open Spec Xlsx

/-- Every table that is read after a save is the normalised form of a saved one. -/
theorem saved_tables {w w' : World} (hw : Faithful w) (hw' : Faithful w') {fs : Files} {s s' : Schema} {out : Str}
    (h : (save w fs s out).status = .ok) (ho : IsOctopus out) (hl : load w' (save w fs s out).files out = some s') :
    ∀ t ∈ s'.tables, ∃ u ∈ s.tables, t = normTable u := by
  unfold save at h hl
  split at hl
  · rename_i e; rw [e] at h; cases h
  · rename_i text e
    rw [e] at h
    simp only at h hl
    unfold write at h hl
    split at hl
    · unfold load Files.text at hl
      obtain ⟨j, hj, hs⟩ := C07_round_trip w.sorter s text e
      simp only [isOctopus ho, files_set_at, Option.bind_some, hw'.json text j hj, hs] at hl
      have hl : some ((s.normalize w.sorter).1.normalize w'.sorter).1 = some s' := hl
      have hp := (C02_normalize_frame w.sorter hw.sorter s (toJson_ok e)).1
      have hv := (C04_accepts_iff w.sorter hw.sorter s).mp (toJson_ok e)
      have hn : ((s.normalize w.sorter).1.normalize w'.sorter).2 = none := by
        refine (C04_accepts_iff w'.sorter hw'.sorter _).mpr fun t ht c hc => ?_
        obtain ⟨u, hu, rfl⟩ := List.mem_map.1 (hp.mem_iff.1 ht)
        obtain ⟨d, hd, rfl⟩ := List.mem_map.1 hc
        exact validColumn_normColumn (hv u hu d hd)
      intro t ht
      rw [← Option.some.inj hl] at ht
      obtain ⟨u, hu, rfl⟩ := List.mem_map.1 ((C02_normalize_frame w'.sorter hw'.sorter _ hn).1.mem_iff.1 ht)
      obtain ⟨x, hx, rfl⟩ := List.mem_map.1 (hp.mem_iff.1 hu)
      refine ⟨x, hx, ?_⟩
      unfold normTable
      simp only [List.map_map]
      congr 1
      exact List.map_congr_left fun c _ => normColumn_normColumn c
    · rename_i hwr; rw [if_neg hwr] at h; cases h

/-- C119 fails as stated: whatever a spreadsheet contains, the imported schema has no column with members of an enumeration, no column
that is both primary and unique key, and no description with surrounding space; so every schema that has one is changed. -/
theorem C119_lost (w : World) (hw : Faithful w) (v' : Values) (fs : Files) (ho : IsOctopus (v' "output"ₛ))
    (h : (action w .importXlsx v' fs).status = .ok) (s : Schema) (t : Table) (ht : t ∈ s.tables) (c : Column) (hc : c ∈ t.columns)
    (hbad : c.values ≠ [] ∨ (c.primaryKey = true ∧ c.uniqueKey = true) ∨ trimSpace c.description ≠ c.description) :
    load w (action w .importXlsx v' fs).files (v' "output"ₛ) ≠ some s := by
  intro hl
  rcases import_eq w v' fs .importXlsx (by decide) with ⟨s', h1, h2⟩ | ⟨-, h2, -⟩
  · rw [h2] at h hl
    obtain ⟨u, hu, rfl⟩ := saved_tables hw hw h ho hl t ht
    obtain ⟨d, hd, rfl⟩ := List.mem_map.1 hc
    obtain ⟨-, e1, -, -, -, e2, e3, -, -, e4, -⟩ := C02_column_frame d
    have hi : ∃ wb, importWorkbook w.sheets wb = some s' := by
      have h1 : (match fs.at (v' "input"ₛ) with | some (.book sheets) => importWorkbook w.sheets sheets | _ => none) = some s' := h1
      split at h1
      · exact ⟨_, h1⟩
      · cases h1
    obtain ⟨wb, hwb⟩ := hi
    have := (import_shape hwb u hu).columns d hd
    rw [e1, e2, e3, e4] at hbad
    rcases hbad with hb | hb | hb
    · exact hb this.values
    · exact this.keys hb
    · exact hb this.description
  · exact h2 h

/-- A file with a normalised schema. -/
theorem stored_one {w : World} (hw : w.sorter = tableSort) {s : Schema} (hd : DistinctTables s) (hn : s.normalize tableSort = (s, none)) :
    Stored w (oneFile s) "a.json"ₛ s := by
  obtain ⟨text, e⟩ := C07_saves tableSort tableSort_spec s ((C04_accepts_iff tableSort tableSort_spec _).1 (congrArg Prod.snd hn))
  refine ⟨by decide +kernel, s, text, hd, by rw [hw]; exact e, ?_, by rw [hw, hn]⟩
  unfold Files.at oneFile
  rw [if_pos rfl, e]
  rfl

/-- A schema with a column that is primary and unique key. -/
def keySchema : Schema := { tables := [{ name := "t"ₛ, group := "g"ₛ, columns := [{ name := "k"ₛ, type := "int64"ₛ, primaryKey := true, uniqueKey := true }] }] }

/-- A schema with an enumeration. -/
def enumSchema : Schema := { tables := [{ name := "t"ₛ, group := "g"ₛ, columns := [{ name := "k"ₛ, type := "enum"ₛ, values := ["x"ₛ, "y"ₛ] }] }] }

/-- C119 fails as stated: an exported schema with an enumeration cannot be imported. -/
theorem C119_violated_enum : ∃ (v v' : Values) (fs : Files) (s : Schema), Stored demoWorld fs (v "input"ₛ) s ∧ v' "input"ₛ = v "output"ₛ ∧
    (action demoWorld .exportXlsx v fs).status = .ok ∧
    (action demoWorld .importXlsx v' (action demoWorld .exportXlsx v fs).files).status = .error :=
  ⟨given [("input"ₛ, "a.json"ₛ), ("output"ₛ, "a.xlsx"ₛ)], given [("input"ₛ, "a.xlsx"ₛ), ("output"ₛ, "b.json"ₛ)], oneFile enumSchema, enumSchema,
    stored_one rfl (by unfold DistinctTables; decide +kernel) (by decide +kernel), rfl, by decide +kernel, by decide +kernel⟩

/-- C119 fails as stated: a column that is both primary and unique key is changed, although both commands succeed. -/
theorem C119_violated : ∃ (v v' : Values) (fs : Files) (s : Schema), Stored demoWorld fs (v "input"ₛ) s ∧ v' "input"ₛ = v "output"ₛ ∧
    (action demoWorld .exportXlsx v fs).status = .ok ∧
    (action demoWorld .importXlsx v' (action demoWorld .exportXlsx v fs).files).status = .ok ∧
    load demoWorld (action demoWorld .importXlsx v' (action demoWorld .exportXlsx v fs).files).files (v' "output"ₛ) ≠ some s := by
  have hs : Stored demoWorld (oneFile keySchema) "a.json"ₛ keySchema :=
    stored_one rfl (by unfold DistinctTables; decide +kernel) (by decide +kernel)
  have hok : (action demoWorld .importXlsx (given [("input"ₛ, "a.xlsx"ₛ), ("output"ₛ, "b.json"ₛ)])
      (action demoWorld .exportXlsx (given [("input"ₛ, "a.json"ₛ), ("output"ₛ, "a.xlsx"ₛ)]) (oneFile keySchema)).files).status = .ok := by
    decide +kernel
  exact ⟨given [("input"ₛ, "a.json"ₛ), ("output"ₛ, "a.xlsx"ₛ)], given [("input"ₛ, "a.xlsx"ₛ), ("output"ₛ, "b.json"ₛ)], _, _, hs, rfl,
    by decide +kernel, hok, C119_lost _ demo_faithful _ _ (by decide +kernel) hok _ _ (.head _) _ (.head _) (.inr (.inl ⟨rfl, rfl⟩))⟩

/-- Runtime and libraries with a parser of SQL. -/
def sqlWorld : World := { demoWorld with sql := parseSql }

theorem sqlWorld_faithful : Faithful sqlWorld := by
  obtain ⟨a, b, c, d, e, f⟩ := demo_faithful
  exact ⟨a, b, c, d, e, f⟩

/-- A schema with a group and a column of the type `bit`. -/
def bitSchema : Schema :=
  { name := "s"ₛ, tables := [{ name := "t"ₛ, columns := [{ name := "k"ₛ, type := "bit"ₛ, size := 1 }] },
      { name := "u"ₛ, group := "g"ₛ, columns := [{ name := "k"ₛ, type := "int32"ₛ }] }] }

/-- C120 fails as stated: after export and import a column of the type `bit` is of the type `boolean`, and the table has lost its group,
although both commands succeed. -/
theorem C120_violated : ∃ (v v' : Values) (fs : Files) (s s' : Schema), Stored sqlWorld fs (v "input"ₛ) s ∧ v' "input"ₛ = v "output"ₛ ∧
    (action sqlWorld .exportMysql v fs).status = .ok ∧
    (action sqlWorld .importMysql v' (action sqlWorld .exportMysql v fs).files).status = .ok ∧
    load sqlWorld (action sqlWorld .importMysql v' (action sqlWorld .exportMysql v fs).files).files (v' "output"ₛ) = some s' ∧
    s.tables.map (·.group) = [[], "g"ₛ] ∧ s.tables.map (fun t => t.columns.map (·.type)) = [["bit"ₛ], ["int32"ₛ]] ∧
    s'.tables.map (·.group) = [[], []] ∧ s'.tables.map (fun t => t.columns.map (·.type)) = [["boolean"ₛ], ["int32"ₛ]] := by
  have hs : Stored sqlWorld (oneFile bitSchema) "a.json"ₛ bitSchema :=
    stored_one rfl (by unfold DistinctTables; decide +kernel) (by decide +kernel)
  have hl : (load sqlWorld (action sqlWorld .importMysql (given [("input"ₛ, "a.sql"ₛ), ("output"ₛ, "b.json"ₛ)])
      (action sqlWorld .exportMysql (given [("input"ₛ, "a.json"ₛ), ("output"ₛ, "a.sql"ₛ)]) (oneFile bitSchema)).files).files "b.json"ₛ).map
        (fun s => (s.tables.map (·.group), s.tables.map (fun t => t.columns.map (·.type)))) =
      some ([[], []], [["boolean"ₛ], ["int32"ₛ]]) := by
    decide +kernel
  obtain ⟨s', h1, h2⟩ := Option.map_eq_some_iff.1 hl
  exact ⟨given [("input"ₛ, "a.json"ₛ), ("output"ₛ, "a.sql"ₛ)], given [("input"ₛ, "a.sql"ₛ), ("output"ₛ, "b.json"ₛ)], _, _, s', hs, rfl,
    by decide +kernel, by decide +kernel, h1, by decide +kernel, by decide +kernel,
    congrArg Prod.fst h2, congrArg Prod.snd h2⟩

/-- A sort that keeps the guarantees of `sort.Sort` but exchanges equal elements. -/
def flipping (l : List Table) : List Table := tableSort l.reverse

/-- Runtime and libraries with such a sort. -/
def flipWorld : World := { demoWorld with sorter := flipping }

theorem flipWorld_faithful : Faithful flipWorld := by
  obtain ⟨-, b, c, d, e, f⟩ := demo_faithful
  exact ⟨fun l => ⟨(tableSort_spec l.reverse).1.trans (List.reverse_perm l), (tableSort_spec l.reverse).2⟩, b, c, d, e, f⟩

/-- C112 fails as stated for sorts that are not stable, which `sort.Sort` does not promise to be: with two tables of the same name on a
sheet, what the other commands read is not what the importer has normalised. -/
theorem C112_violated : ∃ (w : World) (v : Values) (fs : Files) (s : Schema), Faithful w ∧ IsOctopus (v "output"ₛ) ∧
    (action w .importXlsx v fs).status = .ok ∧ imported w v fs .importXlsx = some s ∧
    load w (action w .importXlsx v fs).files (v "output"ₛ) ≠ some (s.normalize w.sorter).1 := by
  have hi : imported flipWorld (given [("input"ₛ, "a.xlsx"ₛ), ("output"ₛ, "b.json"ₛ)])
      (fun p => if p = pathOf "a.xlsx"ₛ then some (.book twiceBook) else none) .importXlsx = importWorkbook id twiceBook := by
    show (match (if pathOf "a.xlsx"ₛ = pathOf "a.xlsx"ₛ then some (Content.book twiceBook) else none) with | some (.book sheets) => importWorkbook id sheets | _ => none) = _
    rw [if_pos rfl]
  have h : (importWorkbook id twiceBook).isSome = true := by decide +kernel
  obtain ⟨s, hs⟩ := Option.isSome_iff_exists.1 h
  refine ⟨flipWorld, _, _, s, flipWorld_faithful, by decide +kernel, by decide +kernel, hi.trans hs, ?_⟩
  have : load flipWorld (action flipWorld .importXlsx (given [("input"ₛ, "a.xlsx"ₛ), ("output"ₛ, "b.json"ₛ)])
      (fun p => if p = pathOf "a.xlsx"ₛ then some (.book twiceBook) else none)).files "b.json"ₛ ≠
      (importWorkbook id twiceBook).map (fun s => (s.normalize flipping).1) := by decide +kernel
  rw [hs] at this
  exact this

end Octo.Cli
