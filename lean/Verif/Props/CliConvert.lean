import Verif.Props.Cli
import Verif.Lemmas.Ojson
import Verif.Lemmas.CliParse

/-! Conversions with the commands: `init` (C111), imports (C112), version 1 documents as input (C113), spreadsheets (C119) and MySQL
scripts (C120) there and back. -/

namespace Octo.Cli
open Spec

theorem isOctopus {f : Str} (h : IsOctopus f) : (getFileFormat f == "octopus1"ₛ || getFileFormat f == "octopus2"ₛ) = true := by
  rcases h with h | h <;> rw [h] <;> decide

/-- A schema that the tool has saved is loaded as it was saved. -/
theorem load_stored {w : World} (hw : Faithful w) {fs : Files} {f : Str} {s : Schema} (h : Stored w fs f s) : load w fs f = some s := by
  obtain ⟨ho, s₀, text, hd, ht, hf, rfl⟩ := h
  unfold load Files.text
  obtain ⟨j, hj, -⟩ := C07_round_trip w.sorter s₀ text ht
  simp only [isOctopus ho, hf, Option.bind_some, hw.json text j hj]
  rw [← Option.bind_some j Json.toSchema, ← hj]
  exact C07_load w.sorter w.sorter hw.sorter hw.sorter s₀ hd text ht

theorem toJson_ok {sorter : List Table → List Table} {s : Schema} {text : Str} (h : s.toJson sorter = some text) :
    (s.normalize sorter).2 = none := by
  unfold Schema.toJson at h
  split at h
  · rename_i e; rw [e]
  · cases h

/-- What is in a saved schema is normalised. -/
theorem stored_fixed {w : World} (hw : Faithful w) {fs : Files} {f : Str} {s : Schema} (h : Stored w fs f s) :
    s.normalize w.sorter = (s, none) := by
  obtain ⟨-, s₀, text, hd, ht, -, rfl⟩ := h
  exact C03_idempotent w.sorter w.sorter hw.sorter hw.sorter s₀ hd (toJson_ok ht)

theorem stored_distinct {w : World} (hw : Faithful w) {fs : Files} {f : Str} {s : Schema} (h : Stored w fs f s) : DistinctTables s := by
  obtain ⟨-, s₀, text, hd, ht, -, rfl⟩ := h
  have hp := (C02_normalize_frame w.sorter hw.sorter s₀ (toJson_ok ht)).1
  refine List.Pairwise.perm (l := s₀.tables.map normTable) ?_ hp.symm (fun h h' => h ⟨h'.1.symm, h'.2.symm⟩)
  rw [List.pairwise_map]
  exact hd

/-- Saving: the file contains the normalised schema. -/
theorem save_stored {w : World} {fs : Files} {s : Schema} {out : Str} (ho : IsOctopus out) (hd : DistinctTables s)
    (h : (save w fs s out).status = .ok) : Stored w (save w fs s out).files out (s.normalize w.sorter).1 := by
  unfold save at h ⊢
  split
  · rename_i e; rw [e] at h; cases h
  · rename_i text e
    rw [e] at h
    simp only at h ⊢
    refine ⟨ho, s, text, hd, e, ?_, rfl⟩
    unfold write at h ⊢
    split
    · exact if_pos rfl
    · rename_i hw; rw [if_neg hw] at h; cases h

theorem save_status {w : World} (hw : SortSpec w.sorter) {fs : Files} {s : Schema} {out : Str} (hwr : w.writable (pathOf out) = true) :
    (save w fs s out).status = .ok ↔ ∀ t ∈ s.tables, ValidTable t := by
  constructor
  · intro h
    unfold save at h
    split at h
    · cases h
    · rename_i text e; exact (C04_accepts_iff w.sorter hw s).mp (toJson_ok e)
  · intro h
    obtain ⟨text, ht⟩ := C07_saves w.sorter hw s h
    unfold save write
    rw [ht]
    simp only [if_pos hwr]

/-! ### C111 -/

/-- The only option of `oct init`. -/
def initOutput : Flag := str "output"ₛ "o"ₛ "OCTOPUS_OUTPUT"ₛ

/-- C111 (partial): `oct init --output` writes the sample of the documentation, whichever way the option is given.  Missing: the
default for the output, see `C111_violated`. -/
theorem C111_init_partial (w : World) (hw : Faithful w) (hwr : Writable w) (out : Str) (ho : IsOctopus out)
    (hout : (pathOf out).elems ≠ []) (env : Str → Option Str) (fs : Files) (args : List Str) (ha : Form initOutput out args) :
    (run w env .init args fs).status = .ok ∧
    load w (run w env .init args fs).files out = some initSchema ∧
    ∀ p, p ≠ pathOf out → (run w env .init args fs).files p = fs p := by
  have hp : ∃ v, parse (Cmd.flags .init) env args = .run v ∧ v "output"ₛ = out := by
    obtain ⟨v, h1, h2, -⟩ := parse_forms (env := env) (c := .init) (fun f hf hb => by
      have : ∀ f ∈ Cmd.flags .init, f.bool = false := by decide
      rw [this f hf] at hb; cases hb) (given := [(initOutput, out)]) (args := [args])
      (fun p hp => by rw [List.mem_singleton] at hp; subst hp; exact .inl (List.mem_cons_self ..)) (List.nodup_singleton _)
      (.cons ha .nil)
      (fun f hf hr => by
        have : ∀ f ∈ Cmd.flags .init, f.required = false := by decide
        rw [this f hf] at hr; cases hr)
    rw [List.flatten_singleton] at h1
    refine ⟨v, h1, ?_⟩
    exact Chosen.unique (given := [(initOutput, out)]) (List.nodup_singleton _)
      (h2 initOutput (List.mem_cons_self ..) "output"ₛ (by decide)) (.given _ (List.mem_cons_self ..))
  obtain ⟨v, hv, hvo⟩ := hp
  have hrun : run w env .init args fs = save w fs sample out := by
    unfold run; rw [hv]; show save w fs sample (v "output"ₛ) = _; rw [hvo]
  have hd : DistinctTables sample := by
    unfold DistinctTables; decide +kernel
  have hn : sample.normalize w.sorter = (initSchema, none) := by
    rw [C03_schedule_independent w.sorter tableSort hw.sorter tableSort_spec sample sample ⟨rfl, rfl, rfl⟩ (List.Perm.refl _) hd]
    decide +kernel
  have hok : (save w fs sample out).status = .ok :=
    (save_status hw.sorter (hwr.1 _ hout)).mpr ((C04_accepts_iff w.sorter hw.sorter sample).mp (by rw [hn]))
  rw [hrun]
  refine ⟨hok, ?_, fun p hpne => ?_⟩
  · rw [load_stored hw (save_stored ho hd hok), hn]
  · by_contra hne
    have : action w .init (fun _ => out) fs = save w fs sample out := rfl
    rw [← this] at hne
    exact hpne (C109_single_partial w .init (by decide) _ fs p hne)

/-- C111 fails as stated: without the option the file `db.json` is not written; the output is the empty path. -/
theorem C111_violated (w : World) (fs : Files) :
    (run w (fun _ => none) .init [] fs).files (pathOf "db.json"ₛ) = fs (pathOf "db.json"ₛ) := by
  by_contra hne
  have hp : parse (Cmd.flags .init) (fun _ => none) [] = .run (values (Cmd.flags .init) (fun _ => none) []) := by
    unfold parse
    rw [if_neg (by decide +kernel), show parseArgs (helpFlag :: Cmd.flags .init) [] = some [] by decide +kernel]
    simp only []
    rw [if_neg (by decide +kernel), if_neg (by decide +kernel), if_neg (by decide +kernel)]
  have : run w (fun _ => none) .init [] fs = action w .init (values (Cmd.flags .init) (fun _ => none) []) fs := by
    unfold run; rw [hp]
  rw [this] at hne
  have h := C109_single_partial w .init (by decide) _ fs _ hne
  exact absurd h (by decide +kernel)

/-- C111: `user.json` is a file for a schema. -/
example : IsOctopus "user.json"ₛ ∧ (pathOf "user.json"ₛ).elems ≠ [] ∧ initSchema.tables.length = 2 := by decide +kernel

/-! ### C112 -/

/-- The schema that an import command reads: what the importers of the packages yield (C21-C23, C45-C50). -/
def imported (w : World) (v : Values) (fs : Files) : Cmd → Option Schema
  | .importMysql => ((fs.text (v "input"ₛ)).bind w.sql).bind (MysqlImport.importSql (split ',' (v "excludes"ₛ)) (v "author"ₛ) (v "version"ₛ))
  | .importOjson => match Ojson.importJSON w.sorter1 ((fs.text (v "input"ₛ)).bind w.json) with
    | .ok s => some s
    | _ => none
  | .importStaruml => match Staruml.importJson ((fs.text (v "input"ₛ)).bind w.json) with
    | .ok s => some s
    | _ => none
  | .importXlsx => match fs.at (v "input"ₛ) with
    | some (.book sheets) => Xlsx.importWorkbook w.sheets sheets
    | _ => none
  | _ => none

theorem import_eq (w : World) (v : Values) (fs : Files) (c : Cmd) (hc : c ∈ [.importMysql, .importOjson, .importStaruml, .importXlsx]) :
    (∃ s, imported w v fs c = some s ∧ action w c v fs = save w fs s (v "output"ₛ)) ∨
    (imported w v fs c = none ∧ (action w c v fs).status ≠ .ok ∧ (action w c v fs).files = fs) := by
  simp only [List.mem_cons, List.not_mem_nil, or_false] at hc
  rcases hc with rfl | rfl | rfl | rfl
  · show (∃ s, _ ∧ importMysqlAction w v fs = _) ∨ (_ ∧ (importMysqlAction w v fs).status ≠ .ok ∧ (importMysqlAction w v fs).files = fs)
    unfold importMysqlAction imported
    dsimp only
    cases (fs.text (v "input"ₛ)).bind w.sql with
    | none => exact .inr ⟨rfl, fun e => (by cases e), rfl⟩
    | some stmts =>
      simp only [Option.bind_some]
      cases MysqlImport.importSql (split ',' (v "excludes"ₛ)) (v "author"ₛ) (v "version"ₛ) stmts with
      | none => exact .inr ⟨rfl, fun e => (by cases e), rfl⟩
      | some s => exact .inl ⟨s, rfl, rfl⟩
  · show (∃ s, _ ∧ importOjsonAction w v fs = _) ∨ (_ ∧ (importOjsonAction w v fs).status ≠ .ok ∧ (importOjsonAction w v fs).files = fs)
    unfold importOjsonAction imported
    dsimp only
    cases Ojson.importJSON w.sorter1 ((fs.text (v "input"ₛ)).bind w.json) with
    | error => exact .inr ⟨rfl, fun e => (by cases e), rfl⟩
    | panic => exact .inr ⟨rfl, fun e => (by cases e), rfl⟩
    | ok s => exact .inl ⟨s, rfl, rfl⟩
  · show (∃ s, _ ∧ importStarumlAction w v fs = _) ∨
      (_ ∧ (importStarumlAction w v fs).status ≠ .ok ∧ (importStarumlAction w v fs).files = fs)
    unfold importStarumlAction imported
    dsimp only
    cases Staruml.importJson ((fs.text (v "input"ₛ)).bind w.json) with
    | error => exact .inr ⟨rfl, fun e => (by cases e), rfl⟩
    | panic => exact .inr ⟨rfl, fun e => (by cases e), rfl⟩
    | ok s => exact .inl ⟨s, rfl, rfl⟩
  · show (∃ s, _ ∧ importXlsxAction w v fs = _) ∨ (_ ∧ (importXlsxAction w v fs).status ≠ .ok ∧ (importXlsxAction w v fs).files = fs)
    unfold importXlsxAction imported
    dsimp only
    generalize fs.at (v "input"ₛ) = x
    rcases x with _ | (_ | sheets | _)
    case some.book =>
      dsimp only
      cases Xlsx.importWorkbook w.sheets sheets with
      | none => exact .inr ⟨rfl, fun e => (by cases e), rfl⟩
      | some s => exact .inl ⟨s, rfl, rfl⟩
    all_goals exact .inr ⟨rfl, fun e => (by cases e), rfl⟩

/-- C112: an import ends well exactly when the importer yields a schema whose columns are all valid. -/
theorem C112_status (w : World) (hw : Faithful w) (c : Cmd) (hc : c ∈ [.importMysql, .importOjson, .importStaruml, .importXlsx])
    (v : Values) (fs : Files) (hwr : w.writable (pathOf (v "output"ₛ)) = true) :
    (action w c v fs).status = .ok ↔ ∃ s, imported w v fs c = some s ∧ ∀ t ∈ s.tables, ValidTable t := by
  rcases import_eq w v fs c hc with ⟨s, h1, h2⟩ | ⟨h1, h2, -⟩
  · rw [h2, save_status hw.sorter hwr, h1]
    exact ⟨fun h => ⟨s, rfl, h⟩, fun ⟨s', e, h⟩ => Option.some.inj e ▸ h⟩
  · rw [h1]
    exact ⟨fun h => absurd h h2, fun ⟨s, e, _⟩ => by cases e⟩

/-- C112 (partial): after an import the other commands read exactly the normalised schema of the importer, whatever sorting algorithms
are used.  Missing: tables with the same group and name, whose order is not determined. -/
theorem C112_loads_partial (w w' : World) (hw : Faithful w) (hw' : Faithful w') (c : Cmd)
    (hc : c ∈ [.importMysql, .importOjson, .importStaruml, .importXlsx]) (v : Values) (fs : Files) (ho : IsOctopus (v "output"ₛ))
    (h : (action w c v fs).status = .ok) (s : Schema) (hi : imported w v fs c = some s) (hd : DistinctTables s) :
    load w' (action w c v fs).files (v "output"ₛ) = some (s.normalize tableSort).1 := by
  rcases import_eq w v fs c hc with ⟨s', h1, h2⟩ | ⟨h1, -, -⟩
  · rw [hi] at h1; injection h1 with h1; subst h1
    rw [h2] at h ⊢
    obtain ⟨-, s₀, text, hd₀, ht, hf, hs₀⟩ := save_stored ho hd h
    unfold load Files.text
    obtain ⟨j, hj, -⟩ := C07_round_trip w.sorter s₀ text ht
    simp only [isOctopus ho, hf, Option.bind_some, hw'.json text j hj]
    rw [← Option.bind_some j Json.toSchema, ← hj, C07_load w.sorter w'.sorter hw.sorter hw'.sorter s₀ hd₀ text ht, ← hs₀,
      C03_schedule_independent w.sorter tableSort hw.sorter tableSort_spec s s ⟨rfl, rfl, rfl⟩ (List.Perm.refl _) hd]
  · rw [hi] at h1; cases h1

/-- C112: an import that is not possible leaves no file behind. -/
theorem C112_failed (w : World) (c : Cmd) (hc : c ∈ [.importMysql, .importOjson, .importStaruml, .importXlsx]) (v : Values) (fs : Files)
    (h : imported w v fs c = none) : (action w c v fs).status ≠ .ok ∧ (action w c v fs).files = fs := by
  rcases import_eq w v fs c hc with ⟨s, h1, -⟩ | ⟨-, h2⟩
  · rw [h] at h1; cases h1
  · exact h2

/-- C112: the demonstration imports two tables. -/
example : (imported demoWorld (given [("input"ₛ, "a.sql"ₛ), ("output"ₛ, "o.json"ₛ)]) demoFiles .importMysql).map
      (fun s => s.tables.map (·.name)) = some ["t"ₛ, "u"ₛ] ∧
    (action demoWorld .importMysql (given [("input"ₛ, "a.sql"ₛ), ("output"ₛ, "o.json"ₛ)]) demoFiles).status = .ok := by
  decide +kernel

/-! ### C113 -/

section
open Json

theorem v1_toReference (r : Ojson.Reference) : toReference (Ojson.ofReference r) = some ⟨r.table, r.column, []⟩ := by
  have hf := @field_at [("table", optStr r.table), ("column", optStr r.column), ("relationship", none)]
    ["table", "column", "relationship"] rfl (by decide)
  have e : Ojson.ofReference r = .obj (members [("table", optStr r.table), ("column", optStr r.column), ("relationship", none)]) := by
    unfold Ojson.ofReference members; simp only [List.filterMap_cons, List.filterMap_nil, Option.map_none]
  rw [e]
  unfold toReference
  simp only []
  rw [hf 0 rfl, hf 1 rfl, hf 2 rfl, toStr_optStr, toStr_optStr]
  rfl

theorem v1_toPtr (r : Option Ojson.Reference) :
    toPtr toReference (r.map Ojson.ofReference) = some (r.map fun r => ⟨r.table, r.column, []⟩) := by
  cases r with
  | none => rfl
  | some r =>
    show toPtr toReference (some (Ojson.ofReference r)) = _
    have h := v1_toReference r
    unfold Ojson.ofReference at h ⊢
    show (toReference _).map some = _
    rw [h]; rfl

/-- A column of version 1 read as version 2. -/
theorem v1_toColumn (c : Ojson.Column) : toColumn (Ojson.ofColumn c) = some (v1Column c) := by
  have hf := @field_at [("name", some (.str c.name)), ("type", some (.str c.type)), ("desc", none), ("description", optStr c.description),
    ("size", optNum c.size), ("scale", optNum c.scale), ("notnull", optBool c.notNull), ("pk", optBool c.primaryKey),
    ("unique", optBool c.uniqueKey), ("autoinc", optBool c.autoIncremental), ("default", optStr c.defaultValue),
    ("onupdate", none), ("values", none), ("ref", c.ref.map Ojson.ofReference)]
    ["name", "type", "desc", "description", "size", "scale", "notnull", "pk", "unique", "autoinc", "default", "onupdate", "values", "ref"]
    rfl (by decide)
  have e : Ojson.ofColumn c = .obj (members [("name", some (.str c.name)), ("type", some (.str c.type)), ("desc", none),
    ("description", optStr c.description),
    ("size", optNum c.size), ("scale", optNum c.scale), ("notnull", optBool c.notNull), ("pk", optBool c.primaryKey),
    ("unique", optBool c.uniqueKey), ("autoinc", optBool c.autoIncremental), ("default", optStr c.defaultValue),
    ("onupdate", none), ("values", none), ("ref", c.ref.map Ojson.ofReference)]) := by
    unfold Ojson.ofColumn members
    simp only [List.filterMap_cons, Option.map_none]
  rw [e]
  unfold toColumn
  simp only []
  rw [hf 0 rfl, hf 1 rfl, hf 2 rfl, hf 4 rfl, hf 5 rfl, hf 6 rfl, hf 7 rfl, hf 8 rfl, hf 9 rfl, hf 10 rfl, hf 11 rfl, hf 12 rfl, hf 13 rfl,
    toStr_optStr, toNum_optNum, toNum_optNum, toBool_optBool, toBool_optBool, toBool_optBool, toBool_optBool, v1_toPtr]
  rfl

theorem mapM_some_map {α β : Type} {f : α → Option β} {g : α → β} (h : ∀ a, f a = some (g a)) (l : List α) :
    l.mapM f = some (l.map g) := by
  induction l with
  | nil => rfl
  | cons a l ih => rw [List.mapM_cons, h, ih]; rfl

theorem toList_map {α β : Type} {f : Json → Option β} {g : α → Json} {k : α → β} (h : ∀ a, f (g a) = some (k a)) (l : List α) :
    toList f (optArr (l.map g)) = some (l.map k) := by
  cases l with
  | nil => rfl
  | cons a l =>
    show ((a :: l).map g).mapM f = _
    rw [List.mapM_map]
    exact mapM_some_map h (a :: l)

theorem v1_toTable (t : Ojson.Table) : toTable (Ojson.ofTable t) = some (v1Table t) := by
  have hf := @field_at [("name", optStr t.name), ("columns", optArr (t.columns.map Ojson.ofColumn)), ("desc", optStr t.description),
    ("group", optStr t.group), ("className", optStr t.className), ("indices", none)]
    ["name", "columns", "desc", "group", "className", "indices"] rfl (by decide)
  have e : Ojson.ofTable t = .obj (members [("name", optStr t.name), ("columns", optArr (t.columns.map Ojson.ofColumn)),
    ("desc", optStr t.description), ("group", optStr t.group), ("className", optStr t.className), ("indices", none)]) := by
    unfold Ojson.ofTable members; simp only [List.filterMap_cons, List.filterMap_nil, Option.map_none]
  rw [e]
  unfold toTable
  simp only []
  rw [hf 0 rfl, hf 1 rfl, hf 2 rfl, hf 3 rfl, hf 4 rfl, hf 5 rfl, toStr_optStr, toStr_optStr, toStr_optStr, toStr_optStr,
    toList_map v1_toColumn]
  rfl

theorem v1_toSchema (s : Ojson.Schema) : toSchema (Ojson.ofSchema s) = some (v1Schema s) := by
  have hf := @field_at [("author", optStr s.author), ("name", optStr s.name), ("version", optStr s.version),
    ("tables", optArr (s.tables.map Ojson.ofTable))] ["author", "name", "version", "tables"] rfl (by decide)
  unfold Ojson.ofSchema toSchema
  simp only []
  rw [hf 0 rfl, hf 1 rfl, hf 2 rfl, hf 3 rfl, toStr_optStr, toStr_optStr, toStr_optStr, toList_map v1_toTable]
  rfl

end

/-- C113 (partial): a document of version 1 can be given as input of the other commands; all but the descriptions of the columns is
read.  Missing: those descriptions, see `C113_violated`. -/
theorem C113_fields_partial (w : World) (hw : Faithful w) (fs : Files) (f : Str) (hf : IsOctopus f) (s : Ojson.Schema)
    (h : fs.at f = some (.text (Json.print 0 (Ojson.ofSchema s)))) :
    load w fs f = some ((v1Schema s).normalize w.sorter).1 := by
  unfold load Files.text
  simp only [isOctopus hf, h, Option.bind_some, hw.json _ _ (Json.readJson_print _), v1_toSchema]
  rfl

/-- C113 fails as stated: no column of such a document keeps its description, while `oct import ojson` does keep it (C49). -/
theorem C113_violated (w : World) (hw : Faithful w) (fs : Files) (f : Str) (hf : IsOctopus f) (s : Ojson.Schema)
    (h : fs.at f = some (.text (Json.print 0 (Ojson.ofSchema s)))) (hv : ∀ t ∈ (v1Schema s).tables, ValidTable t) :
    ∃ s', load w fs f = some s' ∧ (s'.tables.map fun t => (t.name, t.columns.length)).Perm (s.tables.map fun t => (t.name, t.columns.length)) ∧
      ∀ t ∈ s'.tables, ∀ c ∈ t.columns, c.description = [] := by
  have hp := (C02_normalize_frame w.sorter hw.sorter (v1Schema s) ((C04_accepts_iff w.sorter hw.sorter _).mpr hv)).1
  refine ⟨_, C113_fields_partial w hw fs f hf s h, ?_, fun t ht c hc => ?_⟩
  · refine (hp.map _).trans (List.Perm.of_eq ?_)
    unfold v1Schema
    simp only [List.map_map]
    refine List.map_congr_left fun t _ => ?_
    simp only [Function.comp_apply, normTable, v1Table, List.length_map]
  · obtain ⟨u, hu, rfl⟩ := List.mem_map.mp (hp.mem_iff.mp ht)
    obtain ⟨t₁, -, rfl⟩ := List.mem_map.mp hu
    obtain ⟨c', hc', rfl⟩ := List.mem_map.mp hc
    obtain ⟨c₁, -, rfl⟩ := List.mem_map.mp hc'
    rfl

/-- C113: a document with a described column; `oct import ojson` keeps the description. -/
example : ∃ s : Ojson.Schema, (s.tables.flatMap fun t => t.columns.map (·.description)) = ["the id"ₛ] ∧
    ((v1Schema s).tables.flatMap fun t => t.columns.map (·.type)) = ["long"ₛ] ∧
    Ojson.importJSON id (readJson (Json.print 0 (Ojson.ofSchema s))) = .ok { tables :=
      [{ name := "t"ₛ, columns := [{ name := "id"ₛ, type := "long"ₛ, description := "the id"ₛ, defaultValue := "the id"ₛ }] }] } := by
  refine ⟨{ tables := [{ name := "t"ₛ, columns := [{ name := "id"ₛ, type := "long"ₛ, description := "the id"ₛ }] }] }, rfl, rfl, ?_⟩
  rw [Json.readJson_print]
  decide +kernel

/-! ### C119 -/

/-- What is known of a stored schema. -/
theorem stored_sorted {w : World} (hw : Faithful w) {fs : Files} {f : Str} {s : Schema} (h : Stored w fs f s) :
    s.tables.Pairwise (fun a b => tableLess b a = false) ∧ ∀ t ∈ s.tables, ValidTable t ∧ normTable t = t := by
  obtain ⟨-, s₀, text, hd, ht, -, rfl⟩ := h
  have hv := (C04_accepts_iff w.sorter hw.sorter s₀).mp (toJson_ok ht)
  have e : (s₀.normalize w.sorter).1.tables = (w.sorter s₀.tables).map normTable := by
    show (normTables _).1 = _
    rw [normTables_ok fun t ht => hv t ((hw.sorter _).1.mem_iff.mp ht)]
  rw [e]
  constructor
  · rw [List.pairwise_map]
    exact (hw.sorter _).2
  · intro t ht
    obtain ⟨u, hu, rfl⟩ := List.mem_map.mp ht
    refine ⟨fun c hc => ?_, ?_⟩
    · obtain ⟨c', hc', rfl⟩ := List.mem_map.mp hc
      exact validColumn_normColumn (hv u ((hw.sorter _).1.mem_iff.mp hu) c' hc')
    · unfold normTable
      simp only [List.map_map]
      congr 1
      exact List.map_congr_left fun c _ => normColumn_normColumn c

/-- A sorted schema of normalised tables stays as it is. -/
theorem normalize_fix {sorter : List Table → List Table} (hs : SortSpec sorter) {s : Schema} (hd : DistinctTables s)
    (h : s.tables.Pairwise (fun a b => tableLess b a = false)) (ht : ∀ t ∈ s.tables, ValidTable t ∧ normTable t = t) :
    s.normalize sorter = (s, none) := by
  have e : sorter s.tables = s.tables := (sorted_tables_unique hd h (hs _).2 (hs _).1.symm).symm
  unfold Schema.normalize
  rw [e, normTables_ok fun t h => (ht t h).1]
  have e' : s.tables.map normTable = s.tables := by
    conv_rhs => rw [← List.map_id s.tables]
    exact List.map_congr_left fun t h => (ht t h).2
  simp only [e']

theorem distinct_of_normalize {sorter : List Table → List Table} (hs : SortSpec sorter) {s s' : Schema}
    (h : s'.normalize sorter = (s, none)) (hd : DistinctTables s) : DistinctTables s' := by
  have hp := (C02_normalize_frame sorter hs s' (by rw [h])).1
  rw [h] at hp
  have := List.Pairwise.perm (R := fun a b : Table => ¬(a.group = b.group ∧ a.name = b.name)) hd hp (fun h h' => h ⟨h'.1.symm, h'.2.symm⟩)
  rw [List.pairwise_map] at this
  exact this

theorem files_set_at (fs : Files) (f : Str) (c : Content) : (fs.set (pathOf f) c).at f = some c := if_pos rfl

theorem withSchema_some {w : World} {fs : Files} {f : Str} {s : Schema} (h : load w fs f = some s) (k : Schema → Result) :
    withSchema w fs f k = k s := by
  unfold withSchema; rw [h]

/-- C119 (partial): a schema that is exported to a spreadsheet and imported again is the same for every other command.  Missing: what
a spreadsheet cannot represent, see C45. -/
theorem C119_there_and_back_partial (w : World) (hw : Faithful w) (v v' : Values) (fs : Files) (s : Schema)
    (hst : Stored w fs (v "input"ₛ) s) (ht : ∀ t ∈ s.tables, SheetTable t) (hg : ∀ t ∈ s.tables, SheetGroup w.accepts t.group)
    (hm : w.accepts "Meta"ₛ = true) (hin : v' "input"ₛ = v "output"ₛ) (ho : IsOctopus (v' "output"ₛ))
    (hwr : w.writable (pathOf (v "output"ₛ)) = true) (hwr' : w.writable (pathOf (v' "output"ₛ)) = true) :
    (action w .exportXlsx v fs).status = .ok ∧
    (action w .importXlsx v' (action w .exportXlsx v fs).files).status = .ok ∧
    load w (action w .importXlsx v' (action w .exportXlsx v fs).files).files (v' "output"ₛ) = some s := by
  have hd := stored_distinct hw hst
  obtain ⟨wb, s', h1, h2, h3⟩ := C45_normalized_partial w.accepts (v.bool "useNullColumn"ₛ) w.sheets hw.sheets s ht hg hm hd
    w.sorter w.sorter hw.sorter hw.sorter
  rw [stored_fixed hw hst] at h3
  have e : action w .exportXlsx v fs = ⟨fs.set (pathOf (v "output"ₛ)) (.book wb), .ok⟩ := by
    show exportXlsxAction w v fs = _
    unfold exportXlsxAction
    rw [withSchema_some (load_stored hw hst), h1]
    unfold write
    simp only [if_pos hwr]
  rw [e]
  simp only [true_and]
  have e' : action w .importXlsx v' (fs.set (pathOf (v "output"ₛ)) (.book wb)) =
      save w (fs.set (pathOf (v "output"ₛ)) (.book wb)) s' (v' "output"ₛ) := by
    show importXlsxAction _ _ _ = _
    unfold importXlsxAction
    rw [hin, files_set_at]
    simp only [h2]
  rw [e']
  have hok : (save w (fs.set (pathOf (v "output"ₛ)) (.book wb)) s' (v' "output"ₛ)).status = .ok :=
    (save_status hw.sorter hwr').mpr ((C04_accepts_iff w.sorter hw.sorter s').mp (by rw [h3]))
  refine ⟨hok, ?_⟩
  rw [load_stored hw (save_stored ho (distinct_of_normalize hw.sorter h3 hd) hok), h3]

/-! ### C120 -/

/-- C120 (partial): a schema that is exported to MySQL and imported again has exactly the selected tables that are not excluded, with
author and version of the command line.  Missing: what DDL does not express, see C21. -/
theorem C120_there_and_back_partial (w : World) (hw : Faithful w) (hsql : w.sql = parseSql) (v v' : Values) (fs : Files) (s : Schema)
    (hst : Stored w fs (v "input"ₛ) s) (hsuf : UnescapedName (v "uniqueNameSuffix"ₛ))
    (ht : ∀ t ∈ s.tables, passes (getTableFilterFn (v "groups"ₛ)) t = true → PortableTable t)
    (hin : v' "input"ₛ = v "output"ₛ) (ho : IsOctopus (v' "output"ₛ))
    (hwr : w.writable (pathOf (v "output"ₛ)) = true) (hwr' : w.writable (pathOf (v' "output"ₛ)) = true) :
    (action w .exportMysql v fs).status = .ok ∧
    (action w .importMysql v' (action w .exportMysql v fs).files).status = .ok ∧
    load w (action w .importMysql v' (action w .exportMysql v fs).files).files (v' "output"ₛ) =
      some { author := v' "author"ₛ, version := v' "version"ₛ
             tables := s.tables.filter fun t => passes (getTableFilterFn (v "groups"ₛ)) t && decide (t.name ∉ split ',' (v' "excludes"ₛ)) } := by
  set s' : Schema :=
    { author := v' "author"ₛ, version := v' "version"ₛ
      tables := s.tables.filter fun t => passes (getTableFilterFn (v "groups"ₛ)) t && decide (t.name ∉ split ',' (v' "excludes"ₛ)) }
    with hs'
  set text := Mysql.exportSchema (getTableFilterFn (v "groups"ₛ)) (v "uniqueNameSuffix"ₛ) s with htext
  set fs' := fs.set (pathOf (v "output"ₛ)) (.text text) with hfs'
  have h1 := C21_roundtrip_partial (getTableFilterFn (v "groups"ₛ)) _ hsuf s ht (v' "author"ₛ) (v' "version"ₛ)
  rw [← htext] at h1
  cases hp : parseSql text with
  | none => rw [hp] at h1; cases h1
  | some stmts =>
    rw [hp, Option.bind_some] at h1
    have h2 := C22_excludes [] (split ',' (v' "excludes"ₛ)) _ _ stmts _ h1
    rw [List.nil_append] at h2
    simp only [List.filter_filter] at h2
    have hfil : (fun t : Table => decide (t.name ∉ split ',' (v' "excludes"ₛ)) && passes (getTableFilterFn (v "groups"ₛ)) t) =
        fun t => passes (getTableFilterFn (v "groups"ₛ)) t && decide (t.name ∉ split ',' (v' "excludes"ₛ)) :=
      funext fun t => Bool.and_comm _ _
    rw [hfil, ← hs'] at h2
    have e : action w .exportMysql v fs = ⟨fs', .ok⟩ := by
      show exportMysqlAction w v fs = _
      unfold exportMysqlAction
      rw [withSchema_some (load_stored hw hst)]
      unfold write
      rw [if_pos hwr]
    have e' : action w .importMysql v' fs' = save w fs' s' (v' "output"ₛ) := by
      show importMysqlAction _ _ _ = _
      unfold importMysqlAction Files.text
      rw [hin, hfs', files_set_at, hsql]
      simp only [Option.bind_some, hp, h2]
    rw [e]
    simp only [true_and]
    rw [e']
    obtain ⟨hsorted, hnorm⟩ := stored_sorted hw hst
    have hd : DistinctTables s' := List.Pairwise.filter _ (stored_distinct hw hst)
    have hfix := normalize_fix hw.sorter
      (s := s')
      hd (List.Pairwise.filter _ hsorted) (fun t h => hnorm t (List.mem_filter.mp h).1)
    have hok : (save w fs' s' (v' "output"ₛ)).status = .ok :=
      (save_status hw.sorter hwr').mpr ((C04_accepts_iff w.sorter hw.sorter _).mp (by rw [hfix]))
    refine ⟨hok, ?_⟩
    rw [load_stored hw (save_stored ho hd hok), hfix]

/-! ### Examples -/

theorem stored_demo {w : World} (hw : Faithful w) {s : Schema} (hd : DistinctTables s)
    (ht : ∀ t ∈ s.tables, ValidTable t ∧ normTable t = t) :
    ∃ fs s', Stored w fs "a.json"ₛ s' ∧ s'.tables.Perm s.tables := by
  obtain ⟨text, h⟩ := C07_saves w.sorter hw.sorter s fun t h => (ht t h).1
  refine ⟨Files.set (fun _ => none) (pathOf "a.json"ₛ) (.text text), _, ⟨by decide +kernel, s, text, hd, h, files_set_at .., rfl⟩, ?_⟩
  refine (C02_normalize_frame w.sorter hw.sorter s (toJson_ok h)).1.trans (List.Perm.of_eq ?_)
  conv_rhs => rw [← List.map_id s.tables]
  exact List.map_congr_left fun t h => (ht t h).2

/-- C119: there are such a file and such options. -/
example : ∃ (v v' : Values) (fs : Files) (s : Schema), Stored demoWorld fs (v "input"ₛ) s ∧ (∀ t ∈ s.tables, SheetTable t) ∧
    (∀ t ∈ s.tables, SheetGroup demoWorld.accepts t.group) ∧ s.tables.length = 3 ∧ v' "input"ₛ = v "output"ₛ ∧ IsOctopus (v' "output"ₛ) ∧
    demoWorld.writable (pathOf (v "output"ₛ)) = true := by
  obtain ⟨fs, s, h1, h2⟩ := stored_demo demo_faithful (s := xlsxDemo) (by unfold DistinctTables; decide +kernel) (fun t ht =>
    ⟨(C04_accepts_iff tableSort tableSort_spec xlsxDemo).mp (by decide +kernel) t ht, by revert t; decide +kernel⟩)
  refine ⟨given [("input"ₛ, "a.json"ₛ), ("output"ₛ, "a.xlsx"ₛ)], given [("input"ₛ, "a.xlsx"ₛ), ("output"ₛ, "b.json"ₛ)], fs, s, h1,
    fun t h => xlsxDemo_tables t (h2.mem_iff.mp h), fun t h => xlsxDemo_groups t (h2.mem_iff.mp h), h2.length_eq, rfl,
    by decide +kernel, by decide +kernel⟩

/-- C120: there are such a file and such options. -/
example : ∃ (w : World) (v v' : Values) (fs : Files) (s : Schema), Faithful w ∧ Stored w fs (v "input"ₛ) s ∧
    (∀ t ∈ s.tables, passes (getTableFilterFn (v "groups"ₛ)) t = true → PortableTable t) ∧
    UnescapedName (v "uniqueNameSuffix"ₛ) ∧ s.tables.length = 1 ∧ v' "input"ₛ = v "output"ₛ ∧ IsOctopus (v' "output"ₛ) ∧
    w.sql = parseSql := by
  have hw : Faithful { demoWorld with sql := parseSql } := by
    obtain ⟨a, b, c, d, e, f⟩ := demo_faithful
    exact ⟨a, b, c, d, e, f⟩
  obtain ⟨fs, s, h1, h2⟩ := stored_demo hw (s := exPortable) (by unfold DistinctTables; decide +kernel) (fun t ht =>
    ⟨(C04_accepts_iff tableSort tableSort_spec exPortable).mp (by decide +kernel) t ht, by revert t; decide +kernel⟩)
  refine ⟨_, given [("input"ₛ, "a.json"ₛ), ("output"ₛ, "a.sql"ₛ), ("uniqueNameSuffix"ₛ, "_u"ₛ)],
    given [("input"ₛ, "a.sql"ₛ), ("output"ₛ, "b.json"ₛ)], fs, s, hw, h1,
    fun t h _ => exPortable_tables t (h2.mem_iff.mp h), by unfold UnescapedName; decide +kernel, h2.length_eq, rfl, by decide +kernel, rfl⟩

end Octo.Cli
