import Verif.Lemmas.Xlsx

/-! Properties C45-C48 and C73-C75: spreadsheets. -/

namespace Octo
open Xlsx Spec

/-- The group sheets of an exported workbook, as the importer sees them. -/
theorem sheetsByGroup_export {accepts : Str → Bool} {useNull : Bool} {s : Schema} {wb : List Sheet}
    (h : exportSchema accepts useNull s = some wb) (hg : ∀ g ∈ s.groups, g ≠ []) :
    sheetsByGroup wb = s.groups.map (fun g => (g, groupRows useNull s g)) := by
  obtain ⟨_, _, hn, rfl⟩ := (export_iff accepts useNull s wb).1 h
  rw [List.nodup_cons] at hn
  have e : (List.filter (fun sh => sh.name != "Meta"ₛ)
      (⟨"Meta"ₛ, metaRows s⟩ :: s.groups.map (groupSheet useNull s))).map (fun sh => (sh.name, sh.rows)) =
      s.groups.map (fun g => (groupName g, groupRows useNull s g)) := by
    rw [List.filter_cons_of_neg (by simp), List.filter_eq_self.2]
    · rw [List.map_map]; rfl
    · intro sh hsh
      obtain ⟨g, hg', rfl⟩ := List.mem_map.1 hsh
      have : groupName g ≠ "Meta"ₛ := fun e => hn.1 (e ▸ List.mem_map_of_mem hg')
      exact bne_iff_ne.2 this
  rw [sheetsByGroup, e, mapOf_nodup (by simpa [List.map_map, Function.comp_def] using hn.2)]
  apply List.map_congr_left
  intro g hg'
  rw [groupName, if_neg (hg g hg')]

/-- The meta data of an exported workbook, as the importer sees it. -/
theorem meta_export {accepts : Str → Bool} {useNull : Bool} {s : Schema} {wb : List Sheet}
    (h : exportSchema accepts useNull s = some wb) :
    wb.reverse.find? (fun sh => sh.name == "Meta"ₛ) = some ⟨"Meta"ₛ, metaRows s⟩ := by
  obtain ⟨_, _, hn, rfl⟩ := (export_iff accepts useNull s wb).1 h
  rw [List.nodup_cons] at hn
  rw [List.reverse_cons, List.find?_append]
  have : (s.groups.map (groupSheet useNull s)).reverse.find? (fun sh => sh.name == "Meta"ₛ) = none := by
    rw [List.find?_eq_none]
    intro sh hsh
    obtain ⟨g, hg', rfl⟩ := List.mem_map.1 (List.mem_reverse.1 hsh)
    have : groupName g ≠ "Meta"ₛ := fun e => hn.1 (e ▸ List.mem_map_of_mem hg')
    simpa [groupSheet] using this
  rw [this, Option.none_or]
  exact List.find?_cons_of_pos (by simp)

theorem meta_values (s : Schema) :
    attr (readMetaSheet (metaRows s)) "author"ₛ = s.author ∧ attr (readMetaSheet (metaRows s)) "name"ₛ = s.name ∧
    attr (readMetaSheet (metaRows s)) "version"ₛ = s.version := by
  unfold attr readMetaSheet metaRows
  simp [mapGet_mapOf]

theorem groups_spec (s : Schema) : (∀ g, g ∈ s.groups ↔ ∃ t ∈ s.tables, t.group = g) ∧ s.groups.Nodup :=
  ⟨(C09_groups s id (fun l => List.Perm.refl l)).1, (C09_groups s id (fun l => List.Perm.refl l)).2.2⟩

theorem groupName_of_ne {g : Str} (h : g ≠ []) : groupName g = g := if_neg h

/-- C45 (partial): a schema that a spreadsheet can represent is exported, and importing the workbook yields
the same meta data and, group by group, the same tables in the same order, for both kinds of nullability
column and every order in which the sheets are visited.  Missing: the schemas excluded by `SheetTable` and
`SheetGroup`, see the `C45_violated` theorems, and the order of the groups, which is not determined (C48). -/
theorem C45_round_trip_partial (accepts : Str → Bool) (useNull : Bool)
    (ord : List (Str × List Row) → List (Str × List Row)) (ho : ∀ l, (ord l).Perm l) (s : Schema)
    (ht : ∀ t ∈ s.tables, SheetTable t) (hg : ∀ t ∈ s.tables, SheetGroup accepts t.group) (hm : accepts "Meta"ₛ = true) :
    ∃ wb s', exportSchema accepts useNull s = some wb ∧ importWorkbook ord wb = some s' ∧
      s'.author = s.author ∧ s'.name = s.name ∧ s'.version = s.version ∧
      ∀ g, s'.tables.filter (fun t => t.group == g) = s.tables.filter (fun t => t.group == g) := by
  obtain ⟨hmem, hnd⟩ := groups_spec s
  have hgr : ∀ g ∈ s.groups, SheetGroup accepts g := by
    intro g h; obtain ⟨t, h1, rfl⟩ := (hmem g).1 h; exact hg t h1
  have hname : s.groups.map groupName = s.groups := by
    conv_rhs => rw [← List.map_id s.groups]
    exact List.map_congr_left fun g h => groupName_of_ne (hgr g h).1
  have hex : exportSchema accepts useNull s = some (⟨"Meta"ₛ, metaRows s⟩ :: s.groups.map (groupSheet useNull s)) := by
    refine (export_iff accepts useNull s _).2 ⟨hm, ?_, ?_, rfl⟩
    · intro g h; rw [groupName_of_ne (hgr g h).1]; exact (hgr g h).2.2
    · rw [hname, List.nodup_cons]
      exact ⟨fun h => (hgr _ h).2.1 rfl, hnd⟩
  have hread : ∀ p ∈ ord (s.groups.map (fun g => (g, groupRows useNull s g))),
      readGroupSheet p.1 p.2 = some (s.tables.filter fun t => t.group == p.1) := by
    intro p hp
    obtain ⟨g, _, rfl⟩ := List.mem_map.1 ((ho _).mem_iff.1 hp)
    exact readGroupSheet_groupRows useNull s g fun t h _ => ht t h
  obtain ⟨m1, m2, m3⟩ := meta_values s
  refine ⟨_, ⟨attr (readMetaSheet (metaRows s)) "author"ₛ, attr (readMetaSheet (metaRows s)) "name"ₛ,
    attr (readMetaSheet (metaRows s)) "version"ₛ, ((ord (s.groups.map (fun g => (g, groupRows useNull s g)))).map
      fun p => s.tables.filter fun t => t.group == p.1).flatten⟩, hex, ?_, m1, m2, m3, ?_⟩
  · unfold importWorkbook
    rw [meta_export hex, sheetsByGroup_export hex fun g h => (hgr g h).1]
    dsimp only
    rw [mapM_map_some hread]
  · intro g
    dsimp only
    have e : (ord (s.groups.map (fun g => (g, groupRows useNull s g)))).map
        (fun p => s.tables.filter fun t => t.group == p.1) =
        ((ord (s.groups.map (fun g => (g, groupRows useNull s g)))).map
          (fun p => (p.1, s.tables.filter fun t => t.group == p.1))).map Prod.snd := by
      rw [List.map_map]; rfl
    have hk : ((ord (s.groups.map (fun g => (g, groupRows useNull s g)))).map Prod.fst).Perm s.groups := by
      have := (ho (s.groups.map (fun g => (g, groupRows useNull s g)))).map Prod.fst
      simpa [List.map_map, Function.comp_def] using this
    have hnd' : (((ord (s.groups.map (fun g => (g, groupRows useNull s g)))).map
        (fun p => (p.1, s.tables.filter fun t => t.group == p.1))).map Prod.fst).Nodup := by
      rw [List.map_map]; exact hk.nodup_iff.2 hnd
    rw [e, filter_flatten_groups hnd' (by
      intro p hp t ht'
      obtain ⟨q, _, rfl⟩ := List.mem_map.1 hp
      simpa using (List.mem_filter.1 ht').2)]
    by_cases hgm : g ∈ s.groups
    · obtain ⟨q, hq, e1⟩ := List.mem_map.1 (hk.mem_iff.2 hgm)
      have : (g, s.tables.filter fun t => t.group == g) ∈ (ord (s.groups.map (fun g => (g, groupRows useNull s g)))).map
          (fun p => (p.1, s.tables.filter fun t => t.group == p.1)) := List.mem_map.2 ⟨q, hq, by rw [e1]⟩
      rw [mapGet_of_mem hnd' this]; rfl
    · have h1 : s.tables.filter (fun t => t.group == g) = [] := by
        rw [List.filter_eq_nil_iff]
        intro t ht' he
        exact hgm ((hmem g).2 ⟨t, ht', by simpa using he⟩)
      rw [h1]
      cases hm' : mapGet ((ord (s.groups.map (fun g => (g, groupRows useNull s g)))).map
          (fun p => (p.1, s.tables.filter fun t => t.group == p.1))) g with
      | none => rfl
      | some v =>
        obtain ⟨q, hq, e1⟩ := List.mem_map.1 (mapGet_mem hm')
        have : g ∈ (ord (s.groups.map (fun g => (g, groupRows useNull s g)))).map Prod.fst :=
          List.mem_map.2 ⟨q, hq, congrArg Prod.fst e1⟩
        exact absurd (hk.mem_iff.1 this) hgm

/-- Lists that agree group by group are permutations of each other. -/
theorem perm_of_groups {l m : List Table}
    (h : ∀ g, l.filter (fun t => t.group == g) = m.filter (fun t => t.group == g)) : l.Perm m := by
  rw [List.perm_iff_count]
  intro t
  have e : ∀ l : List Table, l.count t = (l.filter (fun x => x.group == t.group)).count t := fun l =>
    (List.count_filter (by simp)).symm
  rw [e l, e m, h]

/-- C45 (partial): after normalisation nothing of the order is left either. -/
theorem C45_normalized_partial (accepts : Str → Bool) (useNull : Bool)
    (ord : List (Str × List Row) → List (Str × List Row)) (ho : ∀ l, (ord l).Perm l) (s : Schema)
    (ht : ∀ t ∈ s.tables, SheetTable t) (hg : ∀ t ∈ s.tables, SheetGroup accepts t.group) (hm : accepts "Meta"ₛ = true)
    (hd : DistinctTables s) (sorter sorter' : List Table → List Table) (hs : SortSpec sorter) (hs' : SortSpec sorter') :
    ∃ wb s', exportSchema accepts useNull s = some wb ∧ importWorkbook ord wb = some s' ∧
      s'.normalize sorter' = s.normalize sorter := by
  obtain ⟨wb, s', h1, h2, h3, h4, h5, h6⟩ := C45_round_trip_partial accepts useNull ord ho s ht hg hm
  exact ⟨wb, s', h1, h2, (C03_schedule_independent sorter sorter' hs hs' s s' ⟨h3.symm, h4.symm, h5.symm⟩
    (perm_of_groups fun g => (h6 g).symm) hd).symm⟩

/-- Everything imported has the shape of what can be read from rows. -/
theorem import_shape {ord : List (Str × List Row) → List (Str × List Row)} {wb : List Sheet} {s : Schema}
    (h : importWorkbook ord wb = some s) : ∀ t ∈ s.tables, TableShape t.group t := by
  unfold importWorkbook at h
  dsimp only at h
  cases hr : (List.mapM (fun p => readGroupSheet p.1 p.2) (ord (sheetsByGroup wb)) : Option (List (List Table))) with
  | none => rw [hr] at h; cases h
  | some ts =>
    rw [hr] at h
    cases h
    obtain ⟨e, hall⟩ := mapM_some_getD hr
    intro t ht
    obtain ⟨l, hl, htl⟩ := List.mem_flatten.1 ht
    rw [e] at hl
    obtain ⟨p, hp, rfl⟩ := List.mem_map.1 hl
    have := readGroupSheet_shape (hall p hp) t htl
    rw [this.group]; exact this

/-- C45 fails as stated: whatever workbook is imported, no column has a list of values, is both key and
unique, or has white space around its description; so schemas with such columns are never recovered. -/
theorem C45_violated (accepts : Str → Bool) (useNull : Bool) (ord : List (Str × List Row) → List (Str × List Row))
    (s : Schema) (t : Table) (ht : t ∈ s.tables) (c : Column) (hc : c ∈ t.columns)
    (hbad : c.values ≠ [] ∨ (c.primaryKey = true ∧ c.uniqueKey = true) ∨ trimSpace c.description ≠ c.description)
    (wb : List Sheet) (_ : exportSchema accepts useNull s = some wb) (s' : Schema) (h : importWorkbook ord wb = some s') :
    t ∉ s'.tables ∧ ¬s'.tables.Perm s.tables := by
  have h1 : t ∉ s'.tables := by
    intro hm
    have := (import_shape h t hm).columns c hc
    rcases hbad with hb | hb | hb
    · exact hb this.values
    · exact this.keys hb
    · exact hb this.description
  exact ⟨h1, fun hp => h1 (hp.mem_iff.2 ht)⟩

/-- C45 fails for types: a sized column whose type name ends in a digit, such as `int64(20)`, comes back with
the text `int64(20)` as the name of its type, and without size. -/
theorem C45_violated_types (useNull : Bool) (c : Column) (x : Char) (p : Str) (ht : c.type = p ++ [x])
    (hx : isAlpha x = false) (hp : '(' ∉ c.type) (hs : c.size ≠ 0) (hw : Tight c.format) :
    (readColumn (!useNull) (columnRow useNull c)).type = c.format ∧
    (readColumn (!useNull) (columnRow useNull c)).size = 0 ∧ c.format ≠ c.type := by
  obtain ⟨h1, h2⟩ := C14_violated c x p ht hx hp hs
  have e : parseType (trimSpace (cell (columnRow useNull c) 2)) = (c.format, 0, 0) := by
    show parseType (trimSpace c.format) = _
    rw [show trimSpace c.format = c.format from hw, h1]
  refine ⟨congrArg Prod.fst e, congrArg (fun x => x.2.1) e, ?_⟩
  intro e'
  rw [format_sizeText c hs] at e'
  have := congrArg List.length e'
  obtain ⟨q, hq⟩ := sizeText_last c.size c.scale
  rw [List.length_append, hq] at this
  simp at this

/-! ### C46 -/

/-- C46 (partial): after export and import the on-update value is the default value whenever there was one. -/
theorem C46_what_survives_partial (useNull : Bool) (c : Column) (h : AttrText c.defaultValue) :
    (readColumn (!useNull) (columnRow useNull c)).onUpdate = if c.onUpdate = [] then [] else c.defaultValue :=
  (attrs_column h).2.2

/-- C46 fails as stated: the on-update value is lost unless it is equal to the default value. -/
theorem C46_violated (useNull : Bool) (c : Column) (h : AttrText c.defaultValue) (hu : c.onUpdate ≠ [])
    (hne : c.onUpdate ≠ c.defaultValue) : (readColumn (!useNull) (columnRow useNull c)).onUpdate ≠ c.onUpdate := by
  rw [C46_what_survives_partial useNull c h, if_neg hu]
  exact hne.symm

/-! ### C47 -/

theorem sheetTableNames_append (a b : List Row) : sheetTableNames (a ++ b) = sheetTableNames a ++ sheetTableNames b :=
  List.filterMap_append

theorem sheetTableNames_table (useNull : Bool) {t : Table} (h : ∀ c ∈ t.columns, c.name ≠ []) :
    sheetTableNames (tableRows useNull t) = [t.name] := by
  have h1 : sheetTableNames (t.columns.map (columnRow useNull)) = [] := by
    rw [sheetTableNames, List.filterMap_eq_nil_iff]
    intro r hr
    obtain ⟨c, hc, rfl⟩ := List.mem_map.1 hr
    have := h c hc
    unfold columnRow
    cases hn : c.name with
    | nil => exact absurd hn this
    | cons x n => rfl
  have h2 : sheetTableNames (t.indices.flatMap indexRows) = [] := by
    rw [sheetTableNames, List.filterMap_eq_nil_iff]
    intro r hr
    obtain ⟨i, _, hr⟩ := List.mem_flatMap.1 hr
    obtain ⟨c, _, rfl⟩ := List.mem_map.1 hr
    cases c with
    | nil => simp
    | cons x n => rfl
  have h3 : tableRows useNull t = [tableRow t] ++ (t.columns.map (columnRow useNull) ++ t.indices.flatMap indexRows) := rfl
  rw [h3, sheetTableNames_append, sheetTableNames_append, h1, h2]
  rfl

theorem sheetTableNames_body (useNull : Bool) (g : Str) (n : Nat) (ts : List Table)
    (h : ∀ t ∈ ts, ∀ c ∈ t.columns, c.name ≠ []) (i : Nat) :
    sheetTableNames (bodyRows useNull g n i ts) = (ts.filter fun t => t.group == g).map Table.name := by
  induction ts generalizing i with
  | nil => rfl
  | cons t ts ih =>
    have ih := ih fun x hx => h x (List.mem_cons_of_mem _ hx)
    rw [bodyRows]
    by_cases hg : t.group = g
    · rw [if_neg (by simpa using hg), sheetTableNames_append, sheetTableNames_append,
        sheetTableNames_table useNull (h t List.mem_cons_self), ih, List.filter_cons_of_pos (by simpa using hg)]
      have : sheetTableNames (if i < n - 1 then [[]] else []) = [] := by split <;> rfl
      rw [this]; rfl
    · rw [if_pos hg, ih, List.filter_cons_of_neg (by simpa using hg)]

/-- C47 (partial): an export succeeds exactly if all sheet names are different and accepted by the library,
and then the sheets have different names, there is one sheet for each group, and it holds exactly the tables
of that group, in their order.  Missing: the groups with colliding sheet names, see `C47_violated`. -/
theorem C47_sheets_partial (accepts : Str → Bool) (useNull : Bool) (s : Schema) (wb : List Sheet)
    (hc : ∀ t ∈ s.tables, ∀ c ∈ t.columns, c.name ≠ []) (h : exportSchema accepts useNull s = some wb) :
    (wb.map Sheet.name).Nodup ∧ wb.length = s.groups.length + 1 ∧
    ∀ t ∈ s.tables, ∃ sh ∈ wb, sh.name = (if t.group = [] then "Common"ₛ else t.group) ∧
      sheetTableNames sh.rows = (s.tables.filter fun u => u.group == t.group).map Table.name := by
  obtain ⟨_, _, hn, rfl⟩ := (export_iff accepts useNull s wb).1 h
  refine ⟨?_, by simp, ?_⟩
  · simpa [List.map_map, Function.comp_def, groupSheet] using hn
  · intro t ht
    refine ⟨groupSheet useNull s t.group, List.mem_cons_of_mem _ (List.mem_map_of_mem (((groups_spec s).1 _).2 ⟨t, ht, rfl⟩)),
      rfl, ?_⟩
    show sheetTableNames ([headerRow useNull] ++ bodyRows useNull t.group s.tables.length 0 s.tables) = _
    rw [sheetTableNames_append, sheetTableNames_body useNull _ _ _ hc]
    rfl

/-- C47: when the export succeeds. -/
theorem C47_succeeds_iff (accepts : Str → Bool) (useNull : Bool) (s : Schema) :
    (∃ wb, exportSchema accepts useNull s = some wb) ↔
      accepts "Meta"ₛ = true ∧ (∀ g ∈ s.groups, accepts (if g = [] then "Common"ₛ else g) = true) ∧
      "Meta"ₛ ∉ s.groups ∧ ¬([] ∈ s.groups ∧ "Common"ₛ ∈ s.groups) := by
  have key : ("Meta"ₛ :: s.groups.map groupName).Nodup ↔
      "Meta"ₛ ∉ s.groups ∧ ¬([] ∈ s.groups ∧ "Common"ₛ ∈ s.groups) := by
    have hnd := (groups_spec s).2
    rw [List.nodup_cons]
    have hM : "Meta"ₛ ∈ s.groups.map groupName ↔ "Meta"ₛ ∈ s.groups := by
      rw [List.mem_map]
      constructor
      · rintro ⟨g, hg, e⟩
        unfold groupName at e
        split at e
        · exact absurd e (by decide)
        · exact e ▸ hg
      · intro h
        exact ⟨_, h, groupName_of_ne (by decide)⟩
    rw [hM, List.nodup_map_iff_inj_on hnd]
    constructor
    · rintro ⟨h1, h2⟩
      refine ⟨h1, fun ⟨h3, h4⟩ => ?_⟩
      exact absurd (h2 _ h3 _ h4 (by decide)) (by decide)
    · rintro ⟨h1, h2⟩
      refine ⟨h1, fun a ha b hb e => ?_⟩
      unfold groupName at e
      split at e
      · rename_i h3
        split at e
        · rename_i h4; rw [h3, h4]
        · exact absurd ⟨h3 ▸ ha, e ▸ hb⟩ h2
      · split at e
        · rename_i h4; exact absurd ⟨h4 ▸ hb, e ▸ ha⟩ h2
        · exact e
  constructor
  · rintro ⟨wb, h⟩
    obtain ⟨h1, h2, h3, _⟩ := (export_iff accepts useNull s wb).1 h
    exact ⟨h1, h2, key.1 h3⟩
  · rintro ⟨h1, h2, h3⟩
    exact ⟨_, (export_iff accepts useNull s _).2 ⟨h1, h2, key.2 h3, rfl⟩⟩

/-- C47 fails as stated: with a table in the group `Meta`, or with one without group and one in the group
`Common`, nothing is exported, whatever sheet names the library accepts. -/
theorem C47_violated (accepts : Str → Bool) (useNull : Bool) (s : Schema)
    (h : (∃ t ∈ s.tables, t.group = "Meta"ₛ) ∨ ((∃ t ∈ s.tables, t.group = []) ∧ ∃ t ∈ s.tables, t.group = "Common"ₛ)) :
    exportSchema accepts useNull s = none := by
  cases he : exportSchema accepts useNull s with
  | none => rfl
  | some wb =>
    obtain ⟨_, _, h3, h4⟩ := (C47_succeeds_iff accepts useNull s).1 ⟨wb, he⟩
    rcases h with ⟨t, ht, e⟩ | ⟨⟨t, ht, e⟩, ⟨u, hu, e'⟩⟩
    · exact absurd (((groups_spec s).1 _).2 ⟨t, ht, e⟩) h3
    · exact absurd ⟨((groups_spec s).1 _).2 ⟨t, ht, e⟩, ((groups_spec s).1 _).2 ⟨u, hu, e'⟩⟩ h4

/-! ### C48 -/

/-- C48: whether an import fails does not depend on the order in which the sheets are visited, nor do the
meta data and the tables of each group. -/
theorem C48_groups (ord ord' : List (Str × List Row) → List (Str × List Row)) (ho : ∀ l, (ord l).Perm l)
    (ho' : ∀ l, (ord' l).Perm l) (wb : List Sheet) :
    (importWorkbook ord wb = none ↔ importWorkbook ord' wb = none) ∧
    ∀ s s', importWorkbook ord wb = some s → importWorkbook ord' wb = some s' →
      s.author = s'.author ∧ s.name = s'.name ∧ s.version = s'.version ∧ s.tables.Perm s'.tables ∧
      ∀ g, s.tables.filter (fun t => t.group == g) = s'.tables.filter (fun t => t.group == g) := by
  have hp : (ord (sheetsByGroup wb)).Perm (ord' (sheetsByGroup wb)) := (ho _).trans (ho' _).symm
  have hnd : ((sheetsByGroup wb).map Prod.fst).Nodup := nodup_mapOf _
  have hiff : ∀ o : List (Str × List Row) → List (Str × List Row), importWorkbook o wb = none ↔
      ∃ p ∈ o (sheetsByGroup wb), readGroupSheet p.1 p.2 = none := by
    intro o
    rw [← mapM_none_iff (f := fun p : Str × List Row => readGroupSheet p.1 p.2)]
    unfold importWorkbook
    dsimp only
    cases hr : (List.mapM (fun p => readGroupSheet p.1 p.2) (o (sheetsByGroup wb)) : Option (List (List Table))) <;> simp
  have hres : ∀ o : List (Str × List Row) → List (Str × List Row), (∀ l, (o l).Perm l) → ∀ s, importWorkbook o wb = some s →
      (∀ g, s.tables.filter (fun t => t.group == g) =
        ((mapGet (sheetsByGroup wb) g).map fun rows => (readGroupSheet g rows).getD []).getD []) := by
    intro o hoo s h
    unfold importWorkbook at h
    dsimp only at h
    cases hr : (List.mapM (fun p => readGroupSheet p.1 p.2) (o (sheetsByGroup wb)) : Option (List (List Table))) with
    | none => rw [hr] at h; cases h
    | some ts =>
      rw [hr] at h
      cases h
      obtain ⟨e, hall⟩ := mapM_some_getD hr
      intro g
      dsimp only
      have e2 : ts = ((o (sheetsByGroup wb)).map (fun p => (p.1, (readGroupSheet p.1 p.2).getD []))).map Prod.snd := by
        rw [e, List.map_map]; rfl
      have hnd2 : (((o (sheetsByGroup wb)).map (fun p => (p.1, (readGroupSheet p.1 p.2).getD []))).map Prod.fst).Nodup := by
        rw [List.map_map]
        exact ((hoo _).map Prod.fst).nodup_iff.2 hnd
      rw [e2, filter_flatten_groups hnd2 (by
        intro p hp' t ht
        obtain ⟨q, hq, rfl⟩ := List.mem_map.1 hp'
        exact (readGroupSheet_shape (hall q hq) t ht).group)]
      congr 1
      cases hm : mapGet (sheetsByGroup wb) g with
      | none =>
        cases hm2 : mapGet ((o (sheetsByGroup wb)).map (fun p => (p.1, (readGroupSheet p.1 p.2).getD []))) g with
        | none => rfl
        | some v =>
          obtain ⟨q, hq, e3⟩ := List.mem_map.1 (mapGet_mem hm2)
          have : g ∈ (sheetsByGroup wb).map Prod.fst :=
            List.mem_map.2 ⟨q, (hoo _).mem_iff.1 hq, congrArg Prod.fst e3⟩
          rw [← mapGet_isSome, hm] at this; cases this
      | some rows =>
        have : (g, (readGroupSheet g rows).getD []) ∈
            (o (sheetsByGroup wb)).map (fun p => (p.1, (readGroupSheet p.1 p.2).getD [])) :=
          List.mem_map.2 ⟨(g, rows), (hoo _).mem_iff.2 (mapGet_mem hm), rfl⟩
        rw [mapGet_of_mem hnd2 this]; rfl
  refine ⟨?_, ?_⟩
  · rw [hiff, hiff]
    constructor
    · rintro ⟨p, h1, h2⟩; exact ⟨p, hp.mem_iff.1 h1, h2⟩
    · rintro ⟨p, h1, h2⟩; exact ⟨p, hp.mem_iff.2 h1, h2⟩
  · intro s s' h h'
    have hg : ∀ g, s.tables.filter (fun t => t.group == g) = s'.tables.filter (fun t => t.group == g) := fun g =>
      (hres ord ho s h g).trans (hres ord' ho' s' h' g).symm
    refine ⟨?_, ?_, ?_, perm_of_groups hg, hg⟩
    all_goals
      unfold importWorkbook at h h'
      dsimp only at h h'
      cases hr : (List.mapM (fun p => readGroupSheet p.1 p.2) (ord (sheetsByGroup wb)) : Option (List (List Table))) with
      | none => rw [hr] at h; cases h
      | some ts =>
        cases hr' : (List.mapM (fun p => readGroupSheet p.1 p.2) (ord' (sheetsByGroup wb)) : Option (List (List Table))) with
        | none => rw [hr'] at h'; cases h'
        | some ts' => rw [hr] at h; rw [hr'] at h'; cases h; cases h'; rfl

/-- C48 (partial): after normalisation the imported schema does not depend on the order in which the sheets
are visited.  Missing: workbooks in which a sheet has two tables of the same name; the order of the two is
then left to `sort.Sort`, which is not stable. -/
theorem C48_normalized_partial (ord ord' : List (Str × List Row) → List (Str × List Row)) (ho : ∀ l, (ord l).Perm l)
    (ho' : ∀ l, (ord' l).Perm l) (wb : List Sheet) (s s' : Schema) (h : importWorkbook ord wb = some s)
    (h' : importWorkbook ord' wb = some s') (hd : DistinctTables s) (sorter sorter' : List Table → List Table)
    (hs : SortSpec sorter) (hs' : SortSpec sorter') : s.normalize sorter = s'.normalize sorter' := by
  obtain ⟨h1, h2, h3, h4, _⟩ := (C48_groups ord ord' ho ho' wb).2 s s' h h'
  exact C03_schedule_independent sorter sorter' hs hs' s s' ⟨h1, h2, h3⟩ h4 hd

/-! ### C73 and C74 -/

/-- A marked reference as the importer reads it. -/
theorem parseReference_marked (m : Char) (table column : Str) (hm : m ≠ '.') (h1 : column ≠ [])
    (h2 : '.' ∉ table) (h3 : '.' ∉ column) :
    parseReference (m :: (table ++ "."ₛ ++ column)) = some ⟨m :: table, column, relationship (m :: table)⟩ := by
  have e : m :: (table ++ "."ₛ ++ column) = (m :: table) ++ '.' :: column := by simp
  rw [e, parseReference, if_neg (by simp), split_append_sep (by simp [h2, hm.symm]), split_no_sep h3]
  exact if_pos ⟨by simp, h1⟩

/-- C73 fails as stated: for every marker and every table and column, the table of the imported reference is
the marked name and therefore not the referenced table.  The column and the relationship are right. -/
theorem C73_violated (un : Bool) (r : Row) (m : Char) (rel : Str) (hm : (m, rel) ∈ refMarkers) (table column : Str)
    (h1 : column ≠ []) (h2 : '.' ∉ table) (h3 : '.' ∉ column) (h4 : Tight column)
    (hr : r.getD 0 [] = m :: (table ++ "."ₛ ++ column)) :
    (readColumn un r).ref = some ⟨m :: table, column, rel⟩ ∧ m :: table ≠ table := by
  have hall : ∀ x ∈ refMarkers, Tight [x.1] ∧ x.1 ≠ '.' := by decide
  obtain ⟨hs, hd⟩ := hall _ hm
  have hrel : relationship (m :: table) = rel := by
    simp only [refMarkers, List.mem_cons, Prod.mk.injEq, List.not_mem_nil, or_false] at hm
    rcases hm with ⟨rfl, rfl⟩ | ⟨rfl, rfl⟩ | ⟨rfl, rfl⟩ <;> rfl
  have ht : trimSpace (m :: (table ++ "."ₛ ++ column)) = m :: (table ++ "."ₛ ++ column) :=
    tight_between (table ++ "."ₛ) hs h4 (by simp) h1 (a := [m])
  refine ⟨?_, ?_⟩
  · show parseReference (trimSpace (r.getD 0 [])) = _
    rw [hr, ht, parseReference_marked m table column hd h1 h2 h3, hrel]
  · intro e
    have := congrArg List.length e
    simp at this

/-- C73 (partial): without marker the reference is read as many to one, to the named table and column. -/
theorem C73_unmarked_partial (un : Bool) (r : Row) (table column : Str) (h0 : table ≠ []) (h1 : column ≠ [])
    (h2 : '.' ∉ table) (h3 : '.' ∉ column) (h4 : Tight table) (h5 : Tight column)
    (hm : ∀ x ∈ refMarkers, table.head? ≠ some x.1) (hr : r.getD 0 [] = table ++ "."ₛ ++ column) :
    (readColumn un r).ref = some ⟨table, column, "n:1"ₛ⟩ := by
  have := parseReference_columnReference (c := { ref := some ⟨table, column, "n:1"ₛ⟩ }) (by
    intro r hr
    cases hr
    refine ⟨⟨h0, h2, fun x hx => ?_⟩, ⟨h1, h3, fun x hx => ?_⟩, ?_⟩
    · obtain ⟨t, e⟩ := List.head?_eq_some_iff.1 hx
      exact (trimmed_of_tight h4).1 x t e
    · obtain ⟨t, e⟩ := List.getLast?_eq_some_iff.1 hx
      exact (trimmed_of_tight h5).2 x t e
    · show "n:1"ₛ = cellRelationship table
      unfold cellRelationship
      cases hh : table.head? with
      | none => rfl
      | some x =>
        have hl : refMarkers.lookup x = none := by
          rw [List.lookup_eq_none_iff]
          intro p hp
          rw [bne_iff_ne]
          intro e
          exact hm p hp (by rw [hh, e])
        rw [Option.bind_some, hl]; rfl)
  show parseReference (trimSpace (r.getD 0 [])) = _
  rw [hr]
  exact this

/-- C74 fails as stated: a column with the documented attribute, whatever else its row says, is not
auto-incremental. -/
theorem C74_violated (un : Bool) (r : Row) (h : r.getD 5 [] = "autoinc"ₛ) :
    (readColumn un r).autoIncremental = false := by
  show (attr (parseAttributes (trimSpace (r.getD 5 []))) "autoInc"ₛ == "true"ₛ) = false
  rw [h]
  decide

/-- C74 (partial): the spelling `autoInc` is recognised at every place among the attributes, provided the
attribute is not also given a value. -/
theorem C74_autoInc_partial (un : Bool) (r : Row) (l : List Str) (hl : ∀ a ∈ l, a ≠ [] ∧ ',' ∉ a ∧ Tight a)
    (hv : ∀ a ∈ l, ¬∃ v, a = "autoInc"ₛ ++ '=' :: v) (hr : r.getD 5 [] = join ", "ₛ l) :
    (readColumn un r).autoIncremental = true ↔ "autoInc"ₛ ∈ l := by
  show (attr (parseAttributes (trimSpace (r.getD 5 []))) "autoInc"ₛ == "true"ₛ) = true ↔ _
  rw [hr]
  by_cases hne : l = []
  · subst hne
    exact iff_of_false (by decide) (by simp)
  have hkv : ∀ a ∈ l, (keyValue a).1 = "autoInc"ₛ → a = "autoInc"ₛ := by
    intro a ha hk
    unfold keyValue at hk
    split at hk
    · rename_i k v he
      have := (splitN2_some he).1
      exact absurd ⟨v, by rw [this, ← hk]⟩ (hv a ha)
    · rename_i k he
      have hn : '=' ∉ a := splitN2_snd_none.1 (by rw [he])
      rw [splitN2_no_sep hn] at he
      rw [← hk]; exact (congrArg Prod.fst he)
  rw [parseAttributes_join hne hl, attr, mapGet_mapOf]
  constructor
  · intro h
    cases hf : (l.map keyValue).reverse.find? (fun p => p.1 = "autoInc"ₛ) with
    | none => rw [hf] at h; exact absurd h (by decide)
    | some p =>
      obtain ⟨a, ha, rfl⟩ := List.mem_map.1 (List.mem_reverse.1 (List.mem_of_find?_eq_some hf))
      have := List.find?_some hf
      have ea := hkv a ha (of_decide_eq_true this)
      rw [← ea]; exact ha
  · intro h
    cases hf : (l.map keyValue).reverse.find? (fun p => p.1 = "autoInc"ₛ) with
    | none =>
      rw [List.find?_eq_none] at hf
      exact absurd (by rw [autoInc_kv]; simp) (hf (keyValue "autoInc"ₛ) (List.mem_reverse.2 (List.mem_map_of_mem h)))
    | some p =>
      obtain ⟨a, ha, rfl⟩ := List.mem_map.1 (List.mem_reverse.1 (List.mem_of_find?_eq_some hf))
      have := List.find?_some hf
      have ea := hkv a ha (of_decide_eq_true this)
      rw [ea, autoInc_kv]
      decide

/-! ### C75 -/

/-- C75: reading a sheet.  It fails exactly if a table row has no name; otherwise there is one table for each
table row, with one column for each column row of its block, and one index for each index name. -/
theorem C75_sheet (group : Str) (hdr : Row) (rows : List Row) :
    (readGroupSheet group (hdr :: rows) = none ↔ ∃ b ∈ sheetBlocks rows, tightCell b.1 0 = []) ∧
    ∀ ts, readGroupSheet group (hdr :: rows) = some ts →
      List.Forall₂ (fun (t : Table) (b : Row × List Row) => t.name = tightCell b.1 0 ∧ t.group = group ∧
        t.columns.map Column.name = columnEntries b.2 ∧
        t.indices = (firsts ((indexEntries b.2).map Prod.fst)).map fun n => ⟨n, entriesOf (indexEntries b.2) n⟩)
        ts (sheetBlocks rows) := by
  rw [readGroupSheet_blocks]
  refine ⟨?_, ?_⟩
  · cases h : (sheetBlocks rows).any (fun b => tightCell b.1 0 == []) with
    | true =>
      rw [if_pos rfl]
      obtain ⟨b, hb, e⟩ := List.any_eq_true.1 h
      exact iff_of_true rfl ⟨b, hb, by simpa using e⟩
    | false =>
      rw [if_neg (by simp)]
      refine iff_of_false (by simp) ?_
      rintro ⟨b, hb, e⟩
      rw [List.any_eq_false] at h
      exact h b hb (by simpa using e)
  · intro ts h
    split at h
    · cases h
    · cases h
      rw [List.forall₂_map_left_iff]
      rw [List.forall₂_same]
      intro b _
      refine ⟨(foldl_addRow_name _ _ _).1, (foldl_addRow_name _ _ _).2, ?_, ?_⟩
      · rw [foldl_addRow_columns, columnEntries, List.map_append, List.map_map]
        rfl
      · rw [foldl_addRow_indices]
        exact foldl_addEntry _

/-! ### Examples -/

/-- A schema with two groups, references, indices and all attributes. -/
def xlsxDemo : Schema :=
  { author := "me"ₛ, name := "shop"ₛ, version := "1.0"ₛ
    tables := [
      { name := "user"ₛ, group := "g2"ₛ, className := "User"ₛ, description := "the users"ₛ
        columns := [
          { name := "id"ₛ, type := "int64"ₛ, primaryKey := true, notNull := true, autoIncremental := true },
          { name := "mail"ₛ, type := "varchar"ₛ, size := 40, uniqueKey := true, defaultValue := "a=b c"ₛ,
            description := "an address"ₛ },
          { name := "gid"ₛ, type := "int64"ₛ, ref := some ⟨"group"ₛ, "id"ₛ, "n:1"ₛ⟩ }]
        indices := [⟨"i1"ₛ, ["id"ₛ, "mail"ₛ]⟩, ⟨"i2"ₛ, ["gid"ₛ]⟩] },
      { name := "group"ₛ, group := "g1"ₛ
        columns := [{ name := "price"ₛ, type := "decimal"ₛ, size := 20, scale := 5 }] },
      { name := "a"ₛ, group := "g2"ₛ, columns := [] }] }

theorem xlsxDemo_tables : ∀ t ∈ xlsxDemo.tables, SheetTable t := by
  intro t ht
  simp only [xlsxDemo, List.mem_cons, List.not_mem_nil, or_false] at ht
  rcases ht with rfl | rfl | rfl
  · refine ⟨by decide, by decide, by decide, ?_, by decide, by decide⟩
    intro c hc
    simp only [List.mem_cons, List.not_mem_nil, or_false] at hc
    rcases hc with rfl | rfl | rfl
    · exact ⟨by decide, by decide, by decide, by decide, by decide, by decide, by decide, by decide, by simp⟩
    · exact ⟨by decide, by decide, by decide, by decide, by decide, by decide, by decide, by decide, by simp⟩
    · exact ⟨by decide, by decide, by decide, by decide, by decide, by decide, by decide, by decide, by
        intro r hr; cases hr; exact ⟨by decide, by decide, by decide⟩⟩
  · refine ⟨by decide, by decide, by decide, ?_, by decide, by decide⟩
    intro c hc
    simp only [List.mem_cons, List.not_mem_nil, or_false] at hc
    subst hc
    exact ⟨by decide, by decide, by decide, by decide, by decide, by decide, by decide, by decide, by simp⟩
  · exact ⟨by decide, by decide, by decide, by simp, by decide, by decide⟩

theorem xlsxDemo_groups : ∀ t ∈ xlsxDemo.tables, SheetGroup (fun _ => true) t.group := by
  intro t ht
  simp only [xlsxDemo, List.mem_cons, List.not_mem_nil, or_false] at ht
  rcases ht with rfl | rfl | rfl <;> exact ⟨by decide, by decide, rfl⟩

example : ∃ wb s', exportSchema (fun _ => true) true xlsxDemo = some wb ∧ importWorkbook List.reverse wb = some s' ∧
    s'.author = "me"ₛ ∧ s'.name = "shop"ₛ ∧ s'.version = "1.0"ₛ ∧
    ∀ g, s'.tables.filter (fun t => t.group == g) = xlsxDemo.tables.filter (fun t => t.group == g) :=
  C45_round_trip_partial _ true List.reverse (fun l => List.reverse_perm l) xlsxDemo xlsxDemo_tables xlsxDemo_groups rfl

example : ∃ wb s', exportSchema (fun _ => true) false xlsxDemo = some wb ∧ importWorkbook List.reverse wb = some s' ∧
    s'.normalize tableSort = xlsxDemo.normalize tableSort :=
  C45_normalized_partial _ false List.reverse (fun l => List.reverse_perm l) xlsxDemo xlsxDemo_tables xlsxDemo_groups rfl
    (by
      have h : (xlsxDemo.tables.map Table.name).Nodup := by decide
      exact (List.pairwise_map.1 h).imp fun h1 h2 => h1 h2.2) tableSort tableSort tableSort_spec tableSort_spec

/-- A schema with a list of values. -/
def xlsxLossy : Schema :=
  { tables := [{ name := "t"ₛ, group := "g"ₛ, columns := [{ name := "c"ₛ, type := "enum"ₛ, values := ["x"ₛ] }] }] }

example : ∃ wb s', exportSchema (fun _ => true) false xlsxLossy = some wb ∧ importWorkbook id wb = some s' ∧
    ¬s'.tables.Perm xlsxLossy.tables := by
  have h1 : ∃ wb, exportSchema (fun _ => true) false xlsxLossy = some wb := ⟨_, rfl⟩
  obtain ⟨wb, hw⟩ := h1
  have h2 : ∃ s', importWorkbook id wb = some s' := by
    obtain ⟨_, _, _, rfl⟩ := (export_iff _ _ _ _).1 hw
    exact ⟨_, rfl⟩
  obtain ⟨s', hs⟩ := h2
  exact ⟨wb, s', hw, hs, (C45_violated _ false id xlsxLossy _ List.mem_cons_self _ List.mem_cons_self
    (Or.inl (by decide)) wb hw s' hs).2⟩

example : (readColumn true (columnRow false { name := "c"ₛ, type := "int64"ₛ, size := 20 })).type = "int64(20)"ₛ :=
  (C45_violated_types false _ '4' "int6"ₛ rfl (by decide) (by decide) (by decide) (by decide)).1

example : (readColumn true (columnRow false { name := "c"ₛ, type := "datetime"ₛ, defaultValue := "x"ₛ, onUpdate := "fn::NOW"ₛ })).onUpdate
    ≠ "fn::NOW"ₛ := C46_violated false _ (by decide) (by decide) (by decide)

example : (readColumn true (columnRow false { name := "c"ₛ, type := "datetime"ₛ, onUpdate := "fn::NOW"ₛ })).onUpdate = [] :=
  C46_what_survives_partial false _ (by decide)

example : ∃ wb, exportSchema (fun _ => true) false xlsxDemo = some wb ∧ (wb.map Sheet.name).Nodup ∧ wb.length = 3 := by
  obtain ⟨wb, h⟩ : ∃ wb, exportSchema (fun _ => true) false xlsxDemo = some wb := ⟨_, rfl⟩
  have := C47_sheets_partial _ false xlsxDemo wb (by decide) h
  exact ⟨wb, h, this.1, this.2.1⟩

example : exportSchema (fun _ => true) false { tables := [{ name := "a"ₛ }, { name := "b"ₛ, group := "Common"ₛ }] } = none :=
  C47_violated _ false _ (Or.inr ⟨⟨_, List.mem_cons_self, rfl⟩, ⟨_, List.mem_cons_of_mem _ List.mem_cons_self, rfl⟩⟩)

/-- A workbook with two group sheets. -/
def demoBook : List Sheet :=
  [⟨"g1"ₛ, [["h"ₛ], ["t"ₛ, [], "table"ₛ], [[], "c"ₛ, "int"ₛ]]⟩, ⟨"g2"ₛ, [["h"ₛ], ["u"ₛ, [], "table"ₛ]]⟩]

example : ∃ s s', importWorkbook id demoBook = some s ∧ importWorkbook List.reverse demoBook = some s' ∧ s.tables ≠ s'.tables ∧
    s.tables.Perm s'.tables ∧ s.normalize tableSort = s'.normalize tableSort := by
  obtain ⟨s, h⟩ : ∃ s, importWorkbook id demoBook = some s := ⟨_, rfl⟩
  obtain ⟨s', h'⟩ : ∃ s, importWorkbook List.reverse demoBook = some s := ⟨_, rfl⟩
  refine ⟨s, s', h, h', ?_, ((C48_groups id List.reverse (fun l => List.Perm.refl l) (fun l => List.reverse_perm l) demoBook).2
    s s' h h').2.2.2.1, C48_normalized_partial id List.reverse (fun l => List.Perm.refl l) (fun l => List.reverse_perm l) demoBook
    s s' h h' ?_ tableSort tableSort tableSort_spec tableSort_spec⟩
  · have e : (importWorkbook id demoBook).map (fun s => s.tables.map Table.name) = some ["t"ₛ, "u"ₛ] := by decide +kernel
    have e' : (importWorkbook List.reverse demoBook).map (fun s => s.tables.map Table.name) = some ["u"ₛ, "t"ₛ] := by
      decide +kernel
    rw [h] at e; rw [h'] at e'
    intro hn
    simp only [Option.map_some, Option.some.injEq] at e e'
    rw [hn, e'] at e
    exact absurd e (by decide)
  · have e : (importWorkbook id demoBook).map (fun s => s.tables.map Table.name) = some ["t"ₛ, "u"ₛ] := by decide +kernel
    rw [h] at e
    simp only [Option.map_some, Option.some.injEq] at e
    have hn : (s.tables.map Table.name).Nodup := by rw [e]; decide
    exact (List.pairwise_map.1 hn).imp fun h1 h2 => h1 h2.2

example : (readColumn true [">group.id"ₛ, "gid"ₛ, "int64"ₛ]).ref = some ⟨">group"ₛ, "id"ₛ, "n:1"ₛ⟩ :=
  (C73_violated true _ '>' "n:1"ₛ (by decide) "group"ₛ "id"ₛ (by decide) (by decide) (by decide) (by decide) rfl).1

example : (readColumn true ["group.id"ₛ, "gid"ₛ, "int64"ₛ]).ref = some ⟨"group"ₛ, "id"ₛ, "n:1"ₛ⟩ :=
  C73_unmarked_partial true _ "group"ₛ "id"ₛ (by decide) (by decide) (by decide) (by decide) (by decide) (by decide)
    (by decide) rfl

example : (readColumn true [[], "id"ₛ, "int64"ₛ, "P"ₛ, "O"ₛ, "autoinc"ₛ]).autoIncremental = false := C74_violated true _ rfl

example : (readColumn true [[], "id"ₛ, "int64"ₛ, "P"ₛ, "O"ₛ, "default=1, autoInc"ₛ]).autoIncremental = true :=
  (C74_autoInc_partial true _ ["default=1"ₛ, "autoInc"ₛ] (by decide) (by
    intro a ha
    simp only [List.mem_cons, List.not_mem_nil, or_false] at ha
    rintro ⟨v, e⟩
    rcases ha with rfl | rfl <;> exact absurd (congrArg (fun l => l.take 8) e) (by simp)) rfl).2 (by decide)

example : ∃ ts, readGroupSheet "g"ₛ [["h"ₛ], ["t"ₛ, [], " table"ₛ], [[], "c"ₛ, "int"ₛ], ["i"ₛ, "c"ₛ, [], "I"ₛ], ["j"ₛ, "c"ₛ, [], "I"ₛ],
    ["i"ₛ, "d"ₛ, [], "I"ₛ]] = some ts ∧ ts.map Table.indices = [[⟨"i"ₛ, ["c"ₛ, "d"ₛ]⟩, ⟨"j"ₛ, ["c"ₛ]⟩]] := by
  obtain ⟨ts, h⟩ : ∃ ts, readGroupSheet "g"ₛ [["h"ₛ], ["t"ₛ, [], " table"ₛ], [[], "c"ₛ, "int"ₛ], ["i"ₛ, "c"ₛ, [], "I"ₛ],
    ["j"ₛ, "c"ₛ, [], "I"ₛ], ["i"ₛ, "d"ₛ, [], "I"ₛ]] = some ts := ⟨_, rfl⟩
  refine ⟨ts, h, ?_⟩
  have := (C75_sheet "g"ₛ ["h"ₛ] _).2 ts h
  have e : sheetBlocks [["t"ₛ, [], " table"ₛ], [[], "c"ₛ, "int"ₛ], ["i"ₛ, "c"ₛ, [], "I"ₛ], ["j"ₛ, "c"ₛ, [], "I"ₛ],
    ["i"ₛ, "d"ₛ, [], "I"ₛ]] = [(["t"ₛ, [], " table"ₛ], [[[], "c"ₛ, "int"ₛ], ["i"ₛ, "c"ₛ, [], "I"ₛ], ["j"ₛ, "c"ₛ, [], "I"ₛ],
    ["i"ₛ, "d"ₛ, [], "I"ₛ]])] := by decide
  rw [e] at this
  cases this with
  | cons h1 h2 =>
    cases h2
    simp only [List.map_cons, List.map_nil, h1.2.2.2]
    decide

end Octo
