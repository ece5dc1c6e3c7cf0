import Verif.Props.CliLost
import Verif.Props.ExactXlsx

/-! The exact condition for C119. -/

namespace Octo
open Xlsx Spec

/-- The supported types as texts in a cell. -/
theorem supported_text {t : Str} (h : t ∈ supportedTypes) :
    t ≠ [] ∧ '(' ∉ t ∧ (∀ x u, t = x :: u → isSpace x = false) ∧ Tight t ∧ t ≠ "table"ₛ ∧
    ((∀ x ∈ t, isAlpha x = true) ∨ ∃ p x, t = p ++ [x] ∧ isAlpha x = false) := by
  have h1 : ∀ t ∈ supportedTypes, t ≠ [] ∧ '(' ∉ t ∧ (t.head?.all fun x => !isSpace x) = true ∧ Tight t ∧ t ≠ "table"ₛ ∧
      ((∀ x ∈ t, isAlpha x = true) ∨ (t.getLast?.all fun x => !isAlpha x) = true) := by decide +kernel
  obtain ⟨a, b, c, d, e, f⟩ := h1 t h
  refine ⟨a, b, ?_, d, e, ?_⟩
  · rintro x u rfl
    simpa using c
  · rcases f with f | f
    · exact .inl f
    · refine .inr ⟨t.dropLast, t.getLast a, (List.dropLast_append_getLast a).symm, ?_⟩
      rw [List.getLast?_eq_some_getLast a] at f
      simpa using f

/-- The text of a column of a supported type is one that is read without white space around it. -/
theorem supported_format {c : Column} (h : c.type ∈ supportedTypes) : Tight c.format := by
  obtain ⟨h1, _, h3, h4, _⟩ := supported_text h
  by_cases hs : c.size = 0
  · have : c.format = c.type := by simp [Column.format, hs]
    rw [this]; exact h4
  · rw [format_sizeText c hs]
    obtain ⟨p, hp⟩ := sizeText_last c.size c.scale
    refine tight_append h3 h1 ?_ (by rw [hp]; simp)
    intro x hx; rw [hp] at hx; simp at hx; rw [← hx]; decide

/-- A normalised column that is read back up to normalisation is read back as it is. -/
theorem readColumn_of_norm {useNull : Bool} {c : Column} (hs : c.type ∈ supportedTypes)
    (h : normColumn (readColumn (!useNull) (columnRow useNull c)) = c) : readColumn (!useNull) (columnRow useNull c) = c := by
  obtain ⟨h1, h2, _, h4, _, h6⟩ := supported_text hs
  have hf : trimSpace c.format = c.format := supported_format hs
  have hsize : (parseType (trimSpace c.format)).2.1 = c.size := congrArg Column.size h
  have htype : (parseType (trimSpace c.format)).1 = c.type := by
    rw [hf] at hsize ⊢
    by_cases hz : c.size = 0
    · have : c.format = c.type := by simp [Column.format, hz]
      rw [this, parseType, typeMatch_none_of_no_paren _ h2]
    · rcases h6 with h6 | ⟨p, x, e, hx⟩
      · rw [C14_round_trip_partial c h6 h1 (fun e => absurd e hz)]
      · rw [(C14_violated c x p e hx h2 hz).1] at hsize
        exact absurd hsize.symm hz
  have hdef : AttrText c.defaultValue := by
    have e : attr _ "default"ₛ = c.defaultValue := congrArg Column.defaultValue h
    rw [← e]; exact attrText_attr _ _
  have hauto : (readColumn (!useNull) (columnRow useNull c)).autoIncremental = c.autoIncremental := by
    show (attr (parseAttributes (trimSpace (join ", "ₛ (columnAttributes c)))) "autoInc"ₛ == "true"ₛ) = _
    rw [(attrs_column hdef).1]
    cases c.autoIncremental <;> rfl
  have e : readColumn (!useNull) (columnRow useNull c) =
      { normColumn (readColumn (!useNull) (columnRow useNull c)) with
        type := (readColumn (!useNull) (columnRow useNull c)).type
        autoIncremental := (readColumn (!useNull) (columnRow useNull c)).autoIncremental } := rfl
  rw [e, h, hauto, show (readColumn (!useNull) (columnRow useNull c)).type = c.type from htype]

/-- A normalised table that is read back up to normalisation is read back as it is. -/
theorem readBack_of_norm {useNull : Bool} {t : Table} (hs : ∀ c ∈ t.columns, c.type ∈ supportedTypes)
    (h : normTable (readBack useNull t.group t []) = t) : readBack useNull t.group t [] = t := by
  have hcols := foldl_addRow_columns (!useNull) (innerRows useNull t ++ []) (readTable t.group (tableRow t))
  rw [List.append_nil, filter_columns, show (readTable t.group (tableRow t)).columns = [] from rfl, List.nil_append, List.map_map] at hcols
  have hb : readBack useNull t.group t [] = List.foldl (addRow (!useNull)) (readTable t.group (tableRow t)) (innerRows useNull t) := by
    unfold readBack; rw [List.append_nil]
  rw [← hb] at hcols
  have hn : (readBack useNull t.group t []).columns.map normColumn = t.columns := congrArg Table.columns h
  have hlen : (t.columns.filter fun c => trimSpace c.name != []).length = t.columns.length := by
    have := congrArg List.length hn
    rw [hcols, List.length_map, List.length_map] at this
    exact this
  rw [List.filter_eq_self.2 (length_filter_eq hlen)] at hcols
  rw [hcols, List.map_map] at hn
  have hfix : ∀ c ∈ t.columns, readColumn (!useNull) (columnRow useNull c) = c := by
    have h' : t.columns.map (normColumn ∘ readColumn (!useNull) ∘ columnRow useNull) = t.columns.map id := by rw [List.map_id]; exact hn
    exact fun c hc => readColumn_of_norm (hs c hc) (List.map_inj_left.1 h' c hc)
  have hc : (readBack useNull t.group t []).columns = t.columns := by
    rw [hcols]
    conv_rhs => rw [← List.map_id t.columns]
    exact List.map_congr_left hfix
  have e : readBack useNull t.group t [] =
      { normTable (readBack useNull t.group t []) with columns := (readBack useNull t.group t []).columns } := rfl
  rw [e, h, hc]

/-- Texts that are only shortened, but are the same ones altogether, are not shortened. -/
theorem perm_shrink {f : Str → Str} (hf : ∀ s, (f s).Sublist s) {l : List Str} (h : (l.map f).Perm l) : ∀ s ∈ l, f s = s := by
  have hsum : ((l.map f).map List.length).sum = (l.map List.length).sum := (h.map List.length).sum_nat
  clear h
  have hle : ∀ l : List Str, ((l.map f).map List.length).sum ≤ (l.map List.length).sum := by
    intro l
    induction l with
    | nil => exact Nat.le_refl _
    | cons a l ih =>
      simp only [List.map_cons, List.sum_cons]
      have := (hf a).length_le
      omega
  induction l with
  | nil => simp
  | cons a l ih =>
    simp only [List.map_cons, List.sum_cons] at hsum
    have h1 := (hf a).length_le
    have h2 := hle l
    intro s hs
    rcases List.mem_cons.1 hs with rfl | hs
    · exact (hf s).eq_of_length (by omega)
    · exact ih (by omega) s hs

/-- A sheet that yields the tables of its group up to order and normalisation is one that represents them. -/
theorem sheet_of_norm {useNull : Bool} {s : Schema} {group : Str} {ts : List Table}
    (hs : ∀ t ∈ s.tables, ∀ c ∈ t.columns, c.type ∈ supportedTypes) (hd : DistinctTables s)
    (h : readGroupSheet group (groupRows useNull s group) = some ts)
    (hp : (ts.map normTable).Perm (s.tables.filter fun t => t.group == group)) :
    ∀ t ∈ s.tables, t.group = group → SheetTable t := by
  have hu : (trimSpace (cell (headerRow useNull) 4) == "not null"ₛ) = !useNull := by
    cases useNull <;> decide
  have hlen : (s.tables.filter fun t => t.group == group).length =
      (bodyRows useNull group s.tables.length 0 s.tables).countP isTableRow := by
    have h' := h
    rw [groupRows, readGroupSheet_blocks] at h'
    split at h'
    · cases h'
    · have h1 := congrArg List.length (Option.some.inj h')
      rw [List.length_map, length_sheetBlocks] at h1
      have h2 := hp.length_eq
      rw [List.length_map] at h2
      exact h2.symm.trans h1.symm
  have hin := (countP_bodyRows useNull group s.tables.length s.tables 0).2 hlen.ge
  rw [groupRows, readGroupSheet, hu] at h
  obtain ⟨h1, h2⟩ := readRows_body_readBack useNull group _ s.tables hin 0 none h
  rw [Option.toList_none, List.nil_append] at h1
  have hname : ∀ t, (readBack useNull group t []).name = trimSpace t.name := fun t =>
    (foldl_addRow_name (!useNull) (innerRows useNull t ++ []) (readTable group (tableRow t))).1
  rw [h1, List.map_map] at hp
  have hnames : ∀ t ∈ s.tables.filter (fun t => t.group == group), trimSpace t.name = t.name := by
    have e := hp.map Table.name
    rw [List.map_map] at e
    have e' : ((s.tables.filter fun t => t.group == group).map (Table.name ∘ normTable ∘ fun t => readBack useNull group t [])) =
        ((s.tables.filter fun t => t.group == group).map Table.name).map trimSpace := by
      rw [List.map_map]
      exact List.map_congr_left fun t _ => hname t
    rw [e'] at e
    intro t ht
    exact perm_shrink trimSpace_sublist e _ (List.mem_map_of_mem ht)
  intro t ht hg
  have htm : t ∈ s.tables.filter (fun t => t.group == group) := List.mem_filter.2 ⟨ht, by simpa using hg⟩
  have hmem := hp.mem_iff.1 (List.mem_map_of_mem (f := normTable ∘ fun t => readBack useNull group t []) htm)
  have hfix : normTable (readBack useNull group t []) = t := by
    obtain ⟨m1, m2⟩ := List.mem_filter.1 hmem
    have m2 : (normTable (readBack useNull group t [])).group = group := by simpa using m2
    have m3 : (normTable (readBack useNull group t [])).name = t.name := (hname t).trans (hnames t htm)
    by_contra hne
    have hsymm : Std.Symm fun a b : Table => ¬(a.group = b.group ∧ a.name = b.name) := ⟨fun a b h h' => h ⟨h'.1.symm, h'.2.symm⟩⟩
    exact List.Pairwise.forall hd m1 ht hne ⟨m2.trans hg.symm, m3⟩
  subst hg
  exact sheetTable_of_readBack (h2 t ht rfl) (hin t ht rfl) (readBack_of_norm (hs t ht) hfix)

/-- A workbook whose import is the exported schema up to order and normalisation is one that represents it. -/
theorem workbook_of_norm {accepts : Str → Bool} {useNull : Bool} {ord : List (Str × List Row) → List (Str × List Row)}
    (ho : ∀ l, (ord l).Perm l) {s s' : Schema} {wb : List Sheet} (hs : ∀ t ∈ s.tables, ∀ c ∈ t.columns, c.type ∈ supportedTypes)
    (hd : DistinctTables s) (hx : exportSchema accepts useNull s = some wb) (hi : importWorkbook ord wb = some s')
    (hperm : (s'.tables.map normTable).Perm s.tables) :
    (∀ t ∈ s.tables, SheetTable t) ∧ (∀ t ∈ s.tables, SheetGroup accepts t.group) ∧ accepts "Meta"ₛ = true := by
  obtain ⟨hm, hacc, hnd, _⟩ := (export_iff accepts useNull s wb).1 hx
  obtain ⟨hmem, hgn⟩ := groups_spec s
  have hne : ∀ t ∈ s.tables, t.group ≠ [] := by
    intro t ht
    obtain ⟨u, hu, rfl⟩ := List.mem_map.1 (hperm.mem_iff.2 ht)
    exact import_group_ne ho hx hi u hu
  have hgne : ∀ g ∈ s.groups, g ≠ [] := by
    intro g hg
    obtain ⟨t, ht, rfl⟩ := (hmem g).1 hg
    exact hne t ht
  refine ⟨?_, ?_, hm⟩
  · intro t ht
    have hg : t.group ∈ s.groups := (hmem _).2 ⟨t, ht, rfl⟩
    obtain ⟨e, hall⟩ := import_tables hi
    rw [sheetsByGroup_export hx hgne] at e hall
    have hp := ho (s.groups.map fun g => (g, groupRows useNull s g))
    generalize ord (s.groups.map fun g => (g, groupRows useNull s g)) = l at e hall hp
    have hin : (t.group, groupRows useNull s t.group) ∈ l := hp.mem_iff.2 (List.mem_map_of_mem hg)
    have hk : (l.map Prod.fst).Nodup := by
      refine (hp.map Prod.fst).nodup_iff.2 ?_
      rw [List.map_map]
      simpa [Function.comp_def] using hgn
    have e' : (l.map fun p => (readGroupSheet p.1 p.2).getD []) =
        (l.map fun p => (p.1, (readGroupSheet p.1 p.2).getD [])).map Prod.snd := by
      rw [List.map_map]; rfl
    have hk' : ((l.map fun p => (p.1, (readGroupSheet p.1 p.2).getD [])).map Prod.fst).Nodup := by
      rw [List.map_map]; exact hk
    have hff := hperm.filter (fun u => u.group == t.group)
    rw [List.filter_map, show ((fun u : Table => u.group == t.group) ∘ normTable) = (fun u => u.group == t.group) from rfl,
      e, e', filter_flatten_groups hk' (by
      intro p hp' u hu
      obtain ⟨q, hq, rfl⟩ := List.mem_map.1 hp'
      exact (readGroupSheet_shape (hall q hq) u hu).group),
      mapGet_of_mem hk' (List.mem_map.2 ⟨_, hin, rfl⟩)] at hff
    exact sheet_of_norm hs hd (hall _ hin) hff t ht rfl
  · intro t ht
    have hg : t.group ∈ s.groups := (hmem _).2 ⟨t, ht, rfl⟩
    have h1 := hacc _ hg
    rw [groupName_of_ne (hne t ht)] at h1
    refine ⟨hne t ht, fun e => ?_, h1⟩
    rw [List.nodup_cons] at hnd
    refine hnd.1 (List.mem_map.2 ⟨t.group, hg, ?_⟩)
    rw [groupName_of_ne (hne t ht), e]

end Octo

namespace Octo.Cli
open Spec Xlsx

/-- What is read after a save: the normalised forms of the saved tables, in some order. -/
theorem saved_perm {w w' : World} (hw : Faithful w) (hw' : Faithful w') {fs : Files} {s s' : Schema} {out : Str}
    (h : (save w fs s out).status = .ok) (ho : IsOctopus out) (hl : load w' (save w fs s out).files out = some s') :
    s'.tables.Perm (s.tables.map normTable) := by
  unfold save at h hl
  split at hl
  · rename_i e; rw [e] at h; cases h
  · rename_i text e
    rw [e] at h
    simp only at h hl
    unfold write at h hl
    split at hl
    · unfold load Files.text at hl
      obtain ⟨j, hj, hs⟩ := C07_round_trip w.sorter s text e
      simp only [isOctopus ho, files_set_at, Option.bind_some, hw'.json text j hj, hs] at hl
      have hl : some ((s.normalize w.sorter).1.normalize w'.sorter).1 = some s' := hl
      have hp := (C02_normalize_frame w.sorter hw.sorter s (toJson_ok e)).1
      have hv := (C04_accepts_iff w.sorter hw.sorter s).mp (toJson_ok e)
      have hn : ((s.normalize w.sorter).1.normalize w'.sorter).2 = none := by
        refine (C04_accepts_iff w'.sorter hw'.sorter _).mpr fun t ht c hc => ?_
        obtain ⟨u, hu, rfl⟩ := List.mem_map.1 (hp.mem_iff.1 ht)
        obtain ⟨d, hd, rfl⟩ := List.mem_map.1 hc
        exact validColumn_normColumn (hv u hu d hd)
      rw [← Option.some.inj hl]
      refine ((C02_normalize_frame w'.sorter hw'.sorter _ hn).1.trans (hp.map normTable)).trans (List.Perm.of_eq ?_)
      rw [List.map_map]
      refine List.map_congr_left fun x _ => ?_
      unfold normTable
      simp only [Function.comp_apply, List.map_map]
      congr 1
      exact List.map_congr_left fun c _ => normColumn_normColumn c
    · rename_i hwr; rw [if_neg hwr] at h; cases h

/-- C119, exactly: a stored schema that is exported to a spreadsheet and imported again is the same for every other command if and only
if the spreadsheet can represent every table, and every group has a sheet of its own under its own name. -/
theorem C119_exact (w : World) (hw : Faithful w) (v v' : Values) (fs : Files) (s : Schema)
    (hst : Stored w fs (v "input"ₛ) s) (hin : v' "input"ₛ = v "output"ₛ) (ho : IsOctopus (v' "output"ₛ))
    (hwr : w.writable (pathOf (v "output"ₛ)) = true) (hwr' : w.writable (pathOf (v' "output"ₛ)) = true) :
    ((action w .exportXlsx v fs).status = .ok ∧
      (action w .importXlsx v' (action w .exportXlsx v fs).files).status = .ok ∧
      load w (action w .importXlsx v' (action w .exportXlsx v fs).files).files (v' "output"ₛ) = some s) ↔
    (∀ t ∈ s.tables, SheetTable t) ∧ (∀ t ∈ s.tables, SheetGroup w.accepts t.group) ∧ w.accepts "Meta"ₛ = true := by
  refine ⟨fun ⟨h1, h2, h3⟩ => ?_, fun ⟨ht, hg, hm⟩ => C119_there_and_back_partial w hw v v' fs s hst ht hg hm hin ho hwr hwr'⟩
  have hfix := (stored_sorted hw hst).2
  have hx : ∃ wb, exportSchema w.accepts (v.bool "useNullColumn"ₛ) s = some wb ∧
      action w .exportXlsx v fs = ⟨fs.set (pathOf (v "output"ₛ)) (.book wb), .ok⟩ := by
    have e : action w .exportXlsx v fs = exportXlsxAction w v fs := rfl
    rw [e] at h1 ⊢
    unfold exportXlsxAction at h1 ⊢
    rw [withSchema_some (load_stored hw hst)] at h1 ⊢
    cases hb : exportSchema w.accepts (v.bool "useNullColumn"ₛ) s with
    | none => rw [hb] at h1; cases h1
    | some wb =>
      refine ⟨wb, rfl, ?_⟩
      unfold write
      simp only [if_pos hwr]
  obtain ⟨wb, hb, he⟩ := hx
  rw [he] at h2 h3
  have hi : ∃ s', importWorkbook w.sheets wb = some s' ∧ action w .importXlsx v' (fs.set (pathOf (v "output"ₛ)) (.book wb)) =
      save w (fs.set (pathOf (v "output"ₛ)) (.book wb)) s' (v' "output"ₛ) := by
    have e : action w .importXlsx v' (fs.set (pathOf (v "output"ₛ)) (.book wb)) =
        importXlsxAction w v' (fs.set (pathOf (v "output"ₛ)) (.book wb)) := rfl
    dsimp only at h2
    rw [e] at h2 ⊢
    unfold importXlsxAction at h2 ⊢
    rw [hin, files_set_at] at h2 ⊢
    dsimp only at h2 ⊢
    cases hs : importWorkbook w.sheets wb with
    | none => rw [hs] at h2; cases h2
    | some s' => exact ⟨s', rfl, rfl⟩
  obtain ⟨s', hs', he'⟩ := hi
  dsimp only at h2 h3
  rw [he'] at h2 h3
  refine workbook_of_norm hw.sheets (fun t ht c hc => ?_) (stored_distinct hw hst) hb hs' (saved_perm hw hw h2 ho h3).symm
  have hc' := (hfix t ht).1 c hc
  have hn : t.columns.map normColumn = t.columns.map id := by
    rw [List.map_id]; exact congrArg Table.columns (hfix t ht).2
  have : canon c.type = c.type := congrArg Column.type (List.map_inj_left.1 hn c hc)
  rw [← this]
  exact hc'.supported

/-- C119: the schema of the example above comes back. -/
example : ∃ (v v' : Values) (fs : Files) (s : Schema), Stored demoWorld fs (v "input"ₛ) s ∧ s.tables.length = 3 ∧
    (action demoWorld .exportXlsx v fs).status = .ok ∧
    (action demoWorld .importXlsx v' (action demoWorld .exportXlsx v fs).files).status = .ok ∧
    load demoWorld (action demoWorld .importXlsx v' (action demoWorld .exportXlsx v fs).files).files (v' "output"ₛ) = some s := by
  obtain ⟨fs, s, h1, h2⟩ := stored_demo demo_faithful (s := xlsxDemo) (by unfold DistinctTables; decide +kernel) (fun t ht =>
    ⟨(C04_accepts_iff tableSort tableSort_spec xlsxDemo).mp (by decide +kernel) t ht, by revert t; decide +kernel⟩)
  refine ⟨given [("input"ₛ, "a.json"ₛ), ("output"ₛ, "a.xlsx"ₛ)], given [("input"ₛ, "a.xlsx"ₛ), ("output"ₛ, "b.json"ₛ)], fs, s, h1,
    h2.length_eq, ?_⟩
  exact (C119_exact demoWorld demo_faithful _ _ fs s h1 rfl (by decide +kernel) (by decide +kernel) (by decide +kernel)).2
    ⟨fun t h => xlsxDemo_tables t (h2.mem_iff.mp h), fun t h => xlsxDemo_groups t (h2.mem_iff.mp h), rfl⟩

/-- C119: a column with two keys does not come back, whatever the runtime. -/
example (w : World) (hw : Faithful w) (v v' : Values) (fs : Files) (hst : Stored w fs (v "input"ₛ) keySchema)
    (hin : v' "input"ₛ = v "output"ₛ) (ho : IsOctopus (v' "output"ₛ))
    (hwr : w.writable (pathOf (v "output"ₛ)) = true) (hwr' : w.writable (pathOf (v' "output"ₛ)) = true) :
    ¬((action w .exportXlsx v fs).status = .ok ∧
      (action w .importXlsx v' (action w .exportXlsx v fs).files).status = .ok ∧
      load w (action w .importXlsx v' (action w .exportXlsx v fs).files).files (v' "output"ₛ) = some keySchema) := by
  rw [C119_exact w hw v v' fs keySchema hst hin ho hwr hwr']
  exact fun h => ((h.1 _ (.head _)).columns _ (.head _)).keys ⟨rfl, rfl⟩

end Octo.Cli
