import Verif.Props.CliConvert
import Verif.Lemmas.Stable

/-! Schemas with several tables of the same group and name, under stable sorting (C03, C07, C48, C112). -/

namespace Octo
open Spec Xlsx Cli

/-- C03: with stable sorting the result of normalisation is determined by the order of the tables within each group and name. -/
theorem C03_stable (sorter sorter' : List Table → List Table) (hs : StableSort sorter) (hs' : StableSort sorter') (s s' : Schema)
    (hmeta : s.author = s'.author ∧ s.name = s'.name ∧ s.version = s'.version)
    (h : ∀ g n, s.tables.filter (fun t => decide (t.group = g ∧ t.name = n)) = s'.tables.filter (fun t => decide (t.group = g ∧ t.name = n))) :
    s.normalize sorter = s'.normalize sorter' := by
  have e : sorter s.tables = sorter' s'.tables := stable_unique hs hs' h
  unfold Schema.normalize
  rw [e, hmeta.1, hmeta.2.1, hmeta.2.2]

/-- C03: the example, and a schema in which a table comes twice. -/
example := C03_stable tableSort tableSort tableSort_stable tableSort_stable
  { tables := [{ name := "a"ₛ, description := "1"ₛ }, { name := "b"ₛ }, { name := "a"ₛ, description := "2"ₛ }] }
  { tables := [{ name := "b"ₛ }, { name := "a"ₛ, description := "1"ₛ }, { name := "a"ₛ, description := "2"ₛ }] } ⟨rfl, rfl, rfl⟩
  (fun g n => by
    by_cases hb : [] = g ∧ "b"ₛ = n
    · obtain ⟨rfl, rfl⟩ := hb; decide
    · simp only [List.filter_cons, List.filter_nil, decide_eq_false hb, Bool.false_eq_true, if_false])

/-- C03: with stable sorting every normalised schema is a fixed point. -/
theorem C03_stable_idempotent (sorter sorter' : List Table → List Table) (hs : SortSpec sorter) (hs' : StableSort sorter') (s : Schema)
    (h : (s.normalize sorter).2 = none) : (s.normalize sorter).1.normalize sorter' = ((s.normalize sorter).1, none) := by
  have hv := (normTables_none_iff _).1 h
  have hn := normTables_ok hv
  have hsorted : ((sorter s.tables).map normTable).Pairwise (fun a b => tableLess b a = false) := by
    rw [List.pairwise_map]; exact (hs _).2
  have hv2 : ∀ t ∈ (sorter s.tables).map normTable, ValidTable t := by
    intro t ht
    obtain ⟨u, hu, rfl⟩ := List.mem_map.1 ht
    intro c hc
    obtain ⟨d, hdc, rfl⟩ := List.mem_map.1 hc
    exact validColumn_normColumn (hv u hu d hdc)
  have hmap : ((sorter s.tables).map normTable).map normTable = (sorter s.tables).map normTable := by
    rw [List.map_map]
    apply List.map_congr_left
    intro t _
    simp [normTable, normColumn_normColumn]
  have hres : s.normalize sorter = ({ s with tables := (sorter s.tables).map normTable }, none) := by
    unfold Schema.normalize; rw [hn]
  rw [hres]
  unfold Schema.normalize
  simp only [stable_fix hs' hsorted, normTables_ok hv2, hmap]

example := C03_stable_idempotent tableSort tableSort tableSort_spec tableSort_stable exSchema (by decide +kernel)

/-- C07: with stable sorting a saved schema is loaded as it was saved, whatever its tables. -/
theorem C07_stable (sorter sorter' : List Table → List Table) (hs : SortSpec sorter) (hs' : StableSort sorter') (s : Schema) (text : Str)
    (h : s.toJson sorter = some text) : loadSchema sorter' true ((readJson text).bind Json.toSchema) = some (s.normalize sorter).1 := by
  obtain ⟨j, h1, h2⟩ := C07_round_trip sorter s text h
  rw [h1, Option.bind_some, h2]
  show some ((s.normalize sorter).1.normalize sorter').1 = _
  rw [C03_stable_idempotent sorter sorter' hs hs' s (toJson_ok h)]

/-- C07: the example is saved. -/
example : (exSchema.toJson tableSort).isSome = true := by decide +kernel

/-- C48: with stable sorting the normalised import of every workbook does not depend on the order in which the sheets are visited. -/
theorem C48_stable (ord ord' : List (Str × List Row) → List (Str × List Row)) (ho : ∀ l, (ord l).Perm l)
    (ho' : ∀ l, (ord' l).Perm l) (wb : List Sheet) (sorter sorter' : List Table → List Table) (hs : StableSort sorter)
    (hs' : StableSort sorter') : (importWorkbook ord wb).map (·.normalize sorter) = (importWorkbook ord' wb).map (·.normalize sorter') := by
  obtain ⟨h0, h1⟩ := C48_groups ord ord' ho ho' wb
  cases h : importWorkbook ord wb with
  | none => rw [h0.mp h]; rfl
  | some s =>
    cases h' : importWorkbook ord' wb with
    | none => rw [h0.mpr h'] at h; cases h
    | some s' =>
      obtain ⟨a, b, c, -, e⟩ := h1 s s' h h'
      rw [Option.map_some, Option.map_some, C03_stable sorter sorter' hs hs' s s' ⟨a, b, c⟩ fun g n => ?_]
      have key : ∀ l : List Table, l.filter (fun t => decide (t.group = g ∧ t.name = n)) =
          (l.filter (fun t => t.group == g)).filter (fun t => decide (t.name = n)) := fun l => by
        rw [List.filter_filter]
        refine List.filter_congr fun t _ => ?_
        by_cases h1 : t.group = g <;> by_cases h2 : t.name = n <;> simp [h1, h2]
      rw [key, key, e g]

/-- A sort that keeps the guarantees of `sort.Sort` but is not stable. -/
def unstable (l : List Table) : List Table :=
  if (l.head?.map (·.group)) = some "a"ₛ then tableSort l else tableSort l.reverse

theorem unstable_spec : SortSpec unstable := by
  intro l
  unfold unstable
  split
  · exact tableSort_spec l
  · exact ⟨(tableSort_spec l.reverse).1.trans (List.reverse_perm l), (tableSort_spec l.reverse).2⟩

/-- A workbook with a sheet that has two tables of the same name. -/
def twiceBook : List Sheet :=
  [⟨"a"ₛ, [["table"ₛ], ["t"ₛ, [], "table"ₛ], [[], "x"ₛ, "int64"ₛ], ["t"ₛ, [], "table"ₛ], [[], "y"ₛ, "int64"ₛ]]⟩,
   ⟨"b"ₛ, [["table"ₛ], ["u"ₛ, [], "table"ₛ], [[], "z"ₛ, "int64"ₛ]]⟩]

/-- C48 fails as stated for sorts that are not stable, which `sort.Sort` does not promise to be: with two tables of the same name on a
sheet the result can depend on the order in which the sheets are visited. -/
theorem C48_violated : ∃ (wb : List Sheet) (sorter : List Table → List Table), SortSpec sorter ∧
    (importWorkbook id wb).map (·.normalize sorter) ≠ (importWorkbook List.reverse wb).map (·.normalize sorter) := by
  refine ⟨twiceBook, unstable, unstable_spec, ?_⟩
  decide +kernel

/-- C48: tables of the same name on a sheet are imported as two tables. -/
example : (importWorkbook id twiceBook).map (fun s => s.tables.map fun t => (t.group, t.name, t.columns.map (·.name))) =
    some [("a"ₛ, "t"ₛ, ["x"ₛ]), ("a"ₛ, "t"ₛ, ["y"ₛ]), ("b"ₛ, "u"ₛ, ["z"ₛ])] ∧ StableSort tableSort := by
  exact ⟨by decide +kernel, tableSort_stable⟩

/-- C112: with stable sorting what an import has written is read by the other commands exactly as the normalised schema of the
importer, whatever its tables. -/
theorem C112_stable (w w' : World) (hw' : Faithful w') (hst : StableSort w.sorter) (hst' : StableSort w'.sorter) (c : Cmd)
    (hc : c ∈ [.importMysql, .importOjson, .importStaruml, .importXlsx]) (v : Values) (fs : Files) (ho : IsOctopus (v "output"ₛ))
    (h : (action w c v fs).status = .ok) :
    ∃ s, Cli.imported w v fs c = some s ∧ load w' (action w c v fs).files (v "output"ₛ) = some (s.normalize tableSort).1 := by
  rcases import_eq w v fs c hc with ⟨s, h1, h2⟩ | ⟨-, h2, -⟩
  · refine ⟨s, h1, ?_⟩
    rw [h2] at h ⊢
    unfold save at h ⊢
    split
    · rename_i e; rw [e] at h; cases h
    · rename_i text e
      rw [e] at h
      simp only at h ⊢
      unfold write at h ⊢
      split
      · unfold load Files.text
        obtain ⟨j, hj, -⟩ := C07_round_trip w.sorter s text e
        simp only [isOctopus ho, files_set_at, Option.bind_some, hw'.json text j hj]
        rw [← Option.bind_some j Json.toSchema, ← hj, C07_stable w.sorter w'.sorter hst.1 hst' s text e, C03_stable w.sorter tableSort hst tableSort_stable s s ⟨rfl, rfl, rfl⟩ fun _ _ => rfl]
      · rename_i hwr; rw [if_neg hwr] at h; cases h
  · exact absurd h h2

/-- C112: the demonstration sorts in a stable way. -/
example : StableSort demoWorld.sorter := tableSort_stable

end Octo
