import Verif.Props.Xlsx

/-! The exact condition for C45. -/

namespace Octo
open Xlsx Spec

theorem trimSpace_sublist (s : Str) : (trimSpace s).Sublist s := by
  unfold trimSpace
  have h1 := List.dropWhile_sublist (l := (s.dropWhile isSpace).reverse) isSpace
  have h2 := h1.reverse
  rw [List.reverse_reverse] at h2
  exact h2.trans (List.dropWhile_sublist isSpace)

/-- The value of an attribute never has a comma, nor white space at its end. -/
theorem attrText_attr (s k : Str) : AttrText (attr (parseAttributes s) k) := by
  unfold attr parseAttributes
  rw [mapGet_mapOf]
  cases hf : ((split ',' s).map parseAttr).reverse.find? (fun p => p.1 = k) with
  | none => exact ⟨by simp, by simp⟩
  | some p =>
    have hm := List.mem_reverse.1 (List.mem_of_find?_eq_some hf)
    obtain ⟨a, ha, rfl⟩ := List.mem_map.1 hm
    show AttrText (parseAttr a).2
    rw [parseAttr_eq, keyValue]
    have hc : ',' ∉ trimSpace a := fun h => not_mem_split ha ((trimSpace_sublist a).mem h)
    have ht := trimSpace_trimmed a
    cases hs : splitN2 '=' (trimSpace a) with
    | mk k v =>
      cases v with
      | none => exact (by decide : AttrText "true"ₛ)
      | some v =>
        obtain ⟨e, _⟩ := splitN2_some hs
        show AttrText v
        refine ⟨fun h => hc (by rw [e]; simp [h]), fun x hx => ?_⟩
        obtain ⟨t, e'⟩ := List.getLast?_eq_some_iff.1 hx
        exact ht.2 x (k ++ '=' :: t) (by rw [e, e']; simp)

/-- What can be read back from the cell of a reference. -/
theorem sheetRef_of_parse {s : Str} {r : Reference} (h : parseReference (trimSpace s) = some r) : SheetRef r := by
  obtain ⟨a1, a2, a3, a4, a5⟩ := parseReference_shape h
  have ht := trimSpace_trimmed s
  have e : trimSpace s = r.table ++ '.' :: r.column := by
    unfold parseReference at h
    split at h
    · cases h
    · split at h
      · rename_i table column hs
        split at h
        · cases h
          have := join_split '.' (trimSpace s)
          rw [hs, join_cons_cons] at this
          rw [← this]; simp [join]
        · cases h
      · cases h
  refine ⟨⟨a1, a3, fun x hx => ?_⟩, ⟨a2, a4, fun x hx => ?_⟩, a5.trans (relationship_cell _)⟩
  · obtain ⟨t, e'⟩ := List.head?_eq_some_iff.1 hx
    exact ht.1 x (t ++ '.' :: r.column) (by rw [e, e']; rfl)
  · obtain ⟨t, e'⟩ := List.getLast?_eq_some_iff.1 hx
    exact ht.2 x (r.table ++ '.' :: t) (by rw [e, e']; simp)

/-- C45 for one column, exactly: the row of a column is read back as the same column if and only if the spreadsheet can represent it. -/
theorem C45_column_exact (useNull : Bool) (c : Column) (hn : c.name ≠ []) (ht : trimSpace c.format ≠ "table"ₛ) :
    readColumn (!useNull) (columnRow useNull c) = c ↔ SheetColumn c := by
  refine ⟨fun h => ?_, readColumn_columnRow useNull⟩
  have h1 : trimSpace c.name = c.name := congrArg Column.name h
  have h2 : (parseType (trimSpace c.format)).1 = c.type := congrArg Column.type h
  have h3 : (parseType (trimSpace c.format)).2.1 = c.size := congrArg Column.size h
  have h4 : (parseType (trimSpace c.format)).2.2 = c.scale := congrArg Column.scale h
  have h5 : trimSpace (trimSpace c.description) = c.description := congrArg Column.description h
  have h6 : AttrText c.defaultValue := by
    have e : attr _ "default"ₛ = c.defaultValue := congrArg Column.defaultValue h
    rw [← e]; exact attrText_attr _ _
  have hshape : ColumnShape c := by
    rw [← h]
    refine readColumn_shape _ ?_
    show trimSpace c.name ≠ []
    rw [h1]; exact hn
  refine ⟨⟨hn, h1⟩, ?_, ?_, hshape.keys, h6, ?_, hshape.description, hshape.values, ?_⟩
  · intro hs
    have e : c.format = c.type := by simp [Column.format, hs]
    rw [e] at h2 h4 ht
    rw [parseType] at h2 h4
    cases hm : typeMatch (trimSpace c.type) with
    | none =>
      rw [hm] at h2 h4
      have h2 : trimSpace c.type = c.type := h2
      rw [h2] at hm ht
      exact ⟨h4.symm, (typeMatch_none_iff _).1 hm, ht, h2⟩
    | some m =>
      obtain ⟨n, d1, d2⟩ := m
      rw [hm] at h2
      have h2 : n = c.type := h2
      have h7 := (typeMatch_letters hm).2.2
      have h8 := (trimSpace_sublist c.type).length_le
      rw [h2] at h7
      omega
  · intro hs
    rw [parseType] at h2 h3
    cases hm : typeMatch (trimSpace c.format) with
    | none => rw [hm] at h3; exact absurd h3.symm hs
    | some m =>
      obtain ⟨n, d1, d2⟩ := m
      rw [hm] at h2
      have h2 : n = c.type := h2
      have h7 := typeMatch_letters hm
      rw [h2] at h7
      exact ⟨h7.1, h7.2.1⟩
  · have e : attr _ "onUpdate"ₛ = c.onUpdate := congrArg Column.onUpdate h
    have e2 := (attrs_column h6).2.2
    have e3 : c.onUpdate = if c.onUpdate = [] then [] else c.defaultValue := e.symm.trans e2
    by_cases hu : c.onUpdate = []
    · exact Or.inl hu
    · rw [if_neg hu] at e3; exact Or.inr e3
  · intro r hr
    have e : parseReference (trimSpace (columnReference c)) = c.ref := congrArg Column.ref h
    exact sheetRef_of_parse (e.trans hr)

/-! ### Tables -/

theorem foldl_addRow_meta (un : Bool) (rs : List Row) (t : Table) :
    (rs.foldl (addRow un) t).description = t.description ∧ (rs.foldl (addRow un) t).className = t.className := by
  induction rs generalizing t with
  | nil => exact ⟨rfl, rfl⟩
  | cons r rs ih =>
    have : (addRow un t r).description = t.description ∧ (addRow un t r).className = t.className := by
      unfold addRow
      dsimp only
      split
      · exact ⟨rfl, rfl⟩
      · split
        · split <;> exact ⟨rfl, rfl⟩
        · exact ⟨rfl, rfl⟩
    rw [List.foldl_cons]
    exact ⟨(ih _).1.trans this.1, (ih _).2.trans this.2⟩

/-- The rows of a table below its first one. -/
def innerRows (useNull : Bool) (t : Table) : List Row := t.columns.map (columnRow useNull) ++ t.indices.flatMap indexRows

theorem columnRow_key (useNull : Bool) (c : Column) : (tightCell (columnRow useNull c) 3 != "I"ₛ) = true := by
  show (trimSpace (boolToString c.primaryKey "P"ₛ (boolToString c.uniqueKey "U"ₛ [])) != "I"ₛ) = true
  cases c.primaryKey <;> cases c.uniqueKey <;> decide

theorem indexRow_key {i : Index} {r : Row} (h : r ∈ indexRows i) : (tightCell r 3 == "I"ₛ) = true := by
  obtain ⟨c, _, rfl⟩ := List.mem_map.1 h
  show (trimSpace "I"ₛ == "I"ₛ) = true
  decide

theorem filter_columns (useNull : Bool) (t : Table) :
    (innerRows useNull t).filter (fun r => tightCell r 1 != [] && tightCell r 3 != "I"ₛ) =
      (t.columns.filter fun c => trimSpace c.name != []).map (columnRow useNull) := by
  unfold innerRows
  rw [List.filter_append, List.filter_map]
  have e1 : (t.indices.flatMap indexRows).filter (fun r => tightCell r 1 != [] && tightCell r 3 != "I"ₛ) = [] := by
    rw [List.filter_eq_nil_iff]
    intro r hr
    obtain ⟨i, _, hr⟩ := List.mem_flatMap.1 hr
    have := indexRow_key hr
    rw [Bool.and_eq_true, bne_iff_ne (a := tightCell r 3)]
    exact fun h => h.2 (beq_iff_eq.1 this)
  rw [e1, List.append_nil]
  congr 1
  apply List.filter_congr
  intro c _
  rw [Function.comp_apply, columnRow_key, Bool.and_true]
  rfl

/-- What a table looks like after its rows have been read. -/
def readBack (useNull : Bool) (group : Str) (t : Table) (tail : List Row) : Table :=
  (innerRows useNull t ++ tail).foldl (addRow (!useNull)) (readTable group (tableRow t))

theorem readBack_blank (useNull : Bool) (group : Str) (t : Table) {tail : List Row} (h : tail = [] ∨ tail = [[]]) :
    readBack useNull group t tail = readBack useNull group t [] := by
  rcases h with rfl | rfl
  · rfl
  · unfold readBack
    rw [List.foldl_append, List.append_nil]
    rfl

theorem length_filter_eq {α : Type} {p : α → Bool} {l : List α} (h : (l.filter p).length = l.length) : ∀ a ∈ l, p a = true := by
  rw [List.length_filter_eq_length_iff] at h
  exact h

/-- A table that is read back as itself is one that a spreadsheet can represent. -/
theorem sheetTable_of_readBack {useNull : Bool} {t : Table} (hne : trimSpace t.name ≠ [])
    (hin : ∀ c ∈ t.columns, trimSpace c.format ≠ "table"ₛ) (h : readBack useNull t.group t [] = t) : SheetTable t := by
  have hname : trimSpace t.name = t.name := by
    have := (foldl_addRow_name (!useNull) (innerRows useNull t ++ []) (readTable t.group (tableRow t))).1
    rw [show List.foldl _ _ _ = t from h] at this
    exact this.symm
  have hmeta := foldl_addRow_meta (!useNull) (innerRows useNull t ++ []) (readTable t.group (tableRow t))
  rw [show List.foldl _ _ _ = t from h] at hmeta
  have hcols := foldl_addRow_columns (!useNull) (innerRows useNull t ++ []) (readTable t.group (tableRow t))
  rw [show List.foldl _ _ _ = t from h, List.append_nil, filter_columns, show (readTable t.group (tableRow t)).columns = [] from rfl,
    List.nil_append, List.map_map] at hcols
  have hidx := foldl_addRow_indices (!useNull) (innerRows useNull t ++ []) (readTable t.group (tableRow t))
  rw [show List.foldl _ _ _ = t from h, show (readTable t.group (tableRow t)).indices = [] from rfl, foldl_addEntry] at hidx
  refine ⟨⟨hname ▸ hne, hname⟩, ?_, ?_, ?_, ?_, ?_⟩
  · rw [hmeta.2]; exact attrText_attr _ _
  · rw [hmeta.1]; exact trimSpace_trimSpace _
  · have hlen : (t.columns.filter fun c => trimSpace c.name != []).length = t.columns.length := by
      have := congrArg List.length hcols
      rw [List.length_map] at this
      exact this.symm
    have hall := length_filter_eq hlen
    rw [List.filter_eq_self.2 hall] at hcols
    have hfix : ∀ c ∈ t.columns, readColumn (!useNull) (columnRow useNull c) = c := by
      have := List.map_id t.columns
      rw [← this] at hcols
      conv at hcols => lhs; rw [← List.map_id t.columns]
      intro c hc
      have h' : t.columns.map id = t.columns.map (readColumn (!useNull) ∘ columnRow useNull) := by
        simpa using hcols
      exact (List.map_inj_left.1 h' c hc).symm
    intro c hc
    refine (C45_column_exact useNull c ?_ (hin c hc)).1 (hfix c hc)
    intro e
    have := hall c hc
    rw [e] at this
    exact absurd this (by decide)
  · rw [hidx, List.map_map]
    have : (Index.name ∘ fun n => (⟨n, entriesOf (indexEntries (innerRows useNull t ++ [])) n⟩ : Index)) = id := rfl
    rw [this, List.map_id]
    exact firsts_nodup _
  · intro i hi
    rw [hidx] at hi
    obtain ⟨n, hn, rfl⟩ := List.mem_map.1 hi
    rw [mem_firsts] at hn
    have htight : ∀ e ∈ indexEntries (innerRows useNull t ++ []), Tight e.1 ∧ e.2 ≠ [] ∧ Tight e.2 := by
      intro e he
      unfold indexEntries at he
      obtain ⟨r, hr, rfl⟩ := List.mem_map.1 he
      have := (List.mem_filter.1 hr).2
      rw [Bool.and_eq_true] at this
      exact ⟨trimSpace_trimSpace _, bne_iff_ne.1 this.1, trimSpace_trimSpace _⟩
    obtain ⟨e, he, rfl⟩ := List.mem_map.1 hn
    refine ⟨(htight e he).1, ?_, ?_⟩
    · intro hnil
      have hnil : entriesOf (indexEntries (innerRows useNull t ++ [])) e.1 = [] := hnil
      unfold entriesOf at hnil
      rw [List.map_eq_nil_iff, List.filter_eq_nil_iff] at hnil
      exact hnil e he (by simp)
    · intro c hc
      have hc : c ∈ entriesOf (indexEntries (innerRows useNull t ++ [])) e.1 := hc
      unfold entriesOf at hc
      obtain ⟨e', he', rfl⟩ := List.mem_map.1 hc
      exact (htight e' (List.mem_filter.1 he').1).2

/-! ### Sheets -/

theorem length_sheetBlocks (rs : List Row) : (sheetBlocks rs).length = rs.countP isTableRow := by
  induction rs with
  | nil => rfl
  | cons r rs ih =>
    rw [sheetBlocks]
    by_cases h : isTableRow r = true
    · rw [if_pos h, List.length_cons, ih, List.countP_cons_of_pos h]
    · rw [if_neg h, ih, List.countP_cons_of_neg h]

theorem isTableRow_tableRow (t : Table) : isTableRow (tableRow t) = true := by
  rw [isTableRow_iff]
  show trimSpace "table"ₛ = _
  decide

/-- Table rows of the sheet of a group: one for every table, and one for every column that looks like one. -/
theorem countP_bodyRows (useNull : Bool) (group : Str) (n : Nat) (ts : List Table) (i : Nat) :
    ((ts.filter fun t => t.group == group).length ≤ (bodyRows useNull group n i ts).countP isTableRow) ∧
    ((bodyRows useNull group n i ts).countP isTableRow ≤ (ts.filter fun t => t.group == group).length →
      ∀ t ∈ ts, t.group = group → ∀ c ∈ t.columns, trimSpace c.format ≠ "table"ₛ) := by
  induction ts generalizing i with
  | nil => exact ⟨by simp, by simp⟩
  | cons t ts ih =>
    obtain ⟨ih1, ih2⟩ := ih (i + 1)
    rw [bodyRows]
    by_cases hg : t.group = group
    · rw [if_neg (by simpa using hg), List.filter_cons_of_pos (by simpa using hg), List.length_cons, List.countP_append,
        List.countP_append, tableRows, List.countP_cons_of_pos (isTableRow_tableRow t)]
      refine ⟨by omega, fun hle => ?_⟩
      have h0 : (t.columns.map (columnRow useNull) ++ t.indices.flatMap indexRows).countP isTableRow = 0 := by omega
      have h1 : (bodyRows useNull group n (i + 1) ts).countP isTableRow ≤ (ts.filter fun t => t.group == group).length := by omega
      intro u hu hug c hc
      rcases List.mem_cons.1 hu with rfl | hu
      · rw [List.countP_eq_zero] at h0
        have := h0 (columnRow useNull c) (List.mem_append_left _ (List.mem_map_of_mem hc))
        rw [isTableRow_iff] at this
        exact this
      · exact ih2 h1 u hu hug c hc
    · rw [if_pos hg, List.filter_cons_of_neg (by simpa using hg)]
      refine ⟨ih1, fun hle u hu hug => ?_⟩
      rcases List.mem_cons.1 hu with rfl | hu
      · exact absurd hug hg
      · exact ih2 hle u hu hug

theorem inner_of_format (useNull : Bool) {t : Table} (h : ∀ c ∈ t.columns, trimSpace c.format ≠ "table"ₛ) :
    ∀ r ∈ innerRows useNull t, Inner r := by
  intro r hr
  rcases List.mem_append.1 hr with hr | hr
  · obtain ⟨c, hc, rfl⟩ := List.mem_map.1 hr
    exact h c hc
  · obtain ⟨i, _, hr⟩ := List.mem_flatMap.1 hr
    exact inner_indexRow hr

/-- The sheet of a group when no column looks like a table. -/
theorem readRows_body_readBack (useNull : Bool) (group : Str) (n : Nat) (ts : List Table)
    (h : ∀ t ∈ ts, t.group = group → ∀ c ∈ t.columns, trimSpace c.format ≠ "table"ₛ) (i : Nat) (last : Option Table) {r : List Table}
    (hr : readRows group (!useNull) last (bodyRows useNull group n i ts) = some r) :
    r = last.toList ++ (ts.filter fun t => t.group == group).map (fun t => readBack useNull group t []) ∧
    ∀ t ∈ ts, t.group = group → trimSpace t.name ≠ [] := by
  induction ts generalizing i last r with
  | nil =>
    rw [bodyRows, readRows] at hr
    cases hr
    exact ⟨by simp, by simp⟩
  | cons t ts ih =>
    have ih := ih fun x hx => h x (List.mem_cons_of_mem _ hx)
    rw [bodyRows] at hr
    by_cases hg : t.group = group
    · rw [if_neg (by simpa using hg), tableRows, List.cons_append, readRows.eq_def] at hr
      dsimp only at hr
      have h2 : trimSpace (cell (tableRow t) 2) = "table"ₛ := by show trimSpace "table"ₛ = _; decide
      rw [if_pos h2] at hr
      by_cases hn : trimSpace (cell (tableRow t) 0) = []
      · rw [if_pos hn] at hr; cases hr
      · rw [if_neg hn] at hr
        have hin : ∀ r ∈ innerRows useNull t ++ (if i < n - 1 then [[]] else []), Inner r := by
          intro r hr
          rcases List.mem_append.1 hr with hr | hr
          · exact inner_of_format useNull (h t List.mem_cons_self hg) r hr
          · split at hr
            · rw [List.mem_singleton] at hr; rw [hr]; exact inner_nil
            · cases hr
        rw [← List.append_assoc, show t.columns.map (columnRow useNull) ++ t.indices.flatMap indexRows = innerRows useNull t from rfl,
          readRows_inner group (!useNull) _ hin] at hr
        have e : List.foldl (addRow (!useNull)) (readTable group (tableRow t)) (innerRows useNull t ++ (if i < n - 1 then [[]] else [])) =
            readBack useNull group t [] := readBack_blank useNull group t (by split; exacts [Or.inr rfl, Or.inl rfl])
        rw [e] at hr
        cases hb : readRows group (!useNull) (some (readBack useNull group t [])) (bodyRows useNull group n (i + 1) ts) with
        | none => rw [hb] at hr; cases hr
        | some r' =>
          rw [hb] at hr
          obtain ⟨i1, i2⟩ := ih _ _ hb
          refine ⟨?_, ?_⟩
          · have hr := (Option.some.inj hr).symm
            rw [hr, i1, List.filter_cons_of_pos (by simpa using hg)]
            simp
          · intro u hu hug
            rcases List.mem_cons.1 hu with rfl | hu
            · exact hn
            · exact i2 u hu hug
    · rw [if_pos hg] at hr
      obtain ⟨i1, i2⟩ := ih _ _ hr
      refine ⟨by rw [i1, List.filter_cons_of_neg (by simpa using hg)], ?_⟩
      intro u hu hug
      rcases List.mem_cons.1 hu with rfl | hu
      · exact absurd hug hg
      · exact i2 u hu hug

/-- C45 for one sheet, exactly. -/
theorem C45_sheet_exact (useNull : Bool) (s : Schema) (group : Str) :
    readGroupSheet group (groupRows useNull s group) = some (s.tables.filter fun t => t.group == group) ↔
      ∀ t ∈ s.tables, t.group = group → SheetTable t := by
  refine ⟨fun h => ?_, readGroupSheet_groupRows useNull s group⟩
  have hu : (trimSpace (cell (headerRow useNull) 4) == "not null"ₛ) = !useNull := by
    cases useNull <;> decide
  have hlen : (s.tables.filter fun t => t.group == group).length =
      (bodyRows useNull group s.tables.length 0 s.tables).countP isTableRow := by
    have h' := h
    rw [groupRows, readGroupSheet_blocks] at h'
    split at h'
    · cases h'
    · have := congrArg List.length (Option.some.inj h')
      rw [List.length_map, length_sheetBlocks] at this
      exact this.symm
  have hin := (countP_bodyRows useNull group s.tables.length s.tables 0).2 hlen.ge
  rw [groupRows, readGroupSheet, hu] at h
  obtain ⟨h1, h2⟩ := readRows_body_readBack useNull group _ s.tables hin 0 none h
  intro t ht hg
  have hfix : readBack useNull group t [] = t := by
    rw [Option.toList_none, List.nil_append] at h1
    have h' : (s.tables.filter fun t => t.group == group).map id =
        (s.tables.filter fun t => t.group == group).map (fun t => readBack useNull group t []) := by
      rw [List.map_id]; exact h1
    exact (List.map_inj_left.1 h' t (List.mem_filter.2 ⟨ht, by simpa using hg⟩)).symm
  rw [← hg] at hfix
  exact sheetTable_of_readBack (h2 t ht hg) (hin t ht hg) hfix

/-! ### Workbooks -/

theorem groupName_ne_nil (g : Str) : groupName g ≠ [] := by
  unfold groupName
  split
  · decide
  · assumption

/-- The tables of an imported schema, sheet by sheet. -/
theorem import_tables {ord : List (Str × List Row) → List (Str × List Row)} {wb : List Sheet} {s : Schema}
    (h : importWorkbook ord wb = some s) :
    s.tables = ((ord (sheetsByGroup wb)).map fun p => (readGroupSheet p.1 p.2).getD []).flatten ∧
    ∀ p ∈ ord (sheetsByGroup wb), readGroupSheet p.1 p.2 = some ((readGroupSheet p.1 p.2).getD []) := by
  unfold importWorkbook at h
  dsimp only at h
  cases hr : (List.mapM (fun p => readGroupSheet p.1 p.2) (ord (sheetsByGroup wb)) : Option (List (List Table))) with
  | none => rw [hr] at h; cases h
  | some ts =>
    rw [hr] at h
    cases h
    obtain ⟨e, hall⟩ := mapM_some_getD hr
    exact ⟨congrArg List.flatten e, hall⟩

/-- No imported table is without group. -/
theorem import_group_ne {ord : List (Str × List Row) → List (Str × List Row)} (ho : ∀ l, (ord l).Perm l) {accepts : Str → Bool}
    {useNull : Bool} {s s' : Schema} {wb : List Sheet} (hx : exportSchema accepts useNull s = some wb)
    (h : importWorkbook ord wb = some s') : ∀ t ∈ s'.tables, t.group ≠ [] := by
  obtain ⟨e, hall⟩ := import_tables h
  intro t ht
  rw [e] at ht
  obtain ⟨l, hl, htl⟩ := List.mem_flatten.1 ht
  obtain ⟨p, hp, rfl⟩ := List.mem_map.1 hl
  rw [(readGroupSheet_shape (hall p hp) t htl).group]
  have hp := (ho _).mem_iff.1 hp
  obtain ⟨_, _, _, rfl⟩ := (export_iff accepts useNull s wb).1 hx
  unfold sheetsByGroup at hp
  have hk := mapGet_of_mem (nodup_mapOf _) hp
  rw [mapGet_mapOf] at hk
  cases hf : List.find? (fun q : Str × List Row => decide (q.1 = p.1)) (List.map (fun sh : Sheet => (sh.name, sh.rows))
      (List.filter (fun sh => sh.name != "Meta"ₛ) (⟨"Meta"ₛ, metaRows s⟩ :: s.groups.map (groupSheet useNull s)))).reverse with
  | none => rw [hf] at hk; cases hk
  | some q =>
    have hq := List.mem_of_find?_eq_some hf
    have he := List.find?_some hf
    have he : q.1 = p.1 := by simpa using he
    obtain ⟨sh, hsh, rfl⟩ := List.mem_map.1 (List.mem_reverse.1 hq)
    rw [← he]
    obtain ⟨hsh, hne⟩ := List.mem_filter.1 hsh
    rcases List.mem_cons.1 hsh with rfl | hsh
    · simp at hne
    · obtain ⟨g, _, rfl⟩ := List.mem_map.1 hsh
      exact groupName_ne_nil g

/-- C45, exactly: exporting a schema and importing the workbook yields the same meta data and, group by group, the same tables in the
same order if and only if the spreadsheet can represent every table, and every group has a sheet of its own under its own name. -/
theorem C45_exact (accepts : Str → Bool) (useNull : Bool)
    (ord : List (Str × List Row) → List (Str × List Row)) (ho : ∀ l, (ord l).Perm l) (s : Schema) :
    (∃ wb s', exportSchema accepts useNull s = some wb ∧ importWorkbook ord wb = some s' ∧
      s'.author = s.author ∧ s'.name = s.name ∧ s'.version = s.version ∧
      ∀ g, s'.tables.filter (fun t => t.group == g) = s.tables.filter (fun t => t.group == g)) ↔
    (∀ t ∈ s.tables, SheetTable t) ∧ (∀ t ∈ s.tables, SheetGroup accepts t.group) ∧ accepts "Meta"ₛ = true := by
  refine ⟨?_, fun ⟨h1, h2, h3⟩ => C45_round_trip_partial accepts useNull ord ho s h1 h2 h3⟩
  rintro ⟨wb, s', hx, hi, _, _, _, hf⟩
  obtain ⟨hm, hacc, hnd, _⟩ := (export_iff accepts useNull s wb).1 hx
  obtain ⟨hmem, hgn⟩ := groups_spec s
  have hne : ∀ t ∈ s.tables, t.group ≠ [] := by
    intro t ht
    have : t ∈ s'.tables.filter (fun u => u.group == t.group) := by
      rw [hf]; exact List.mem_filter.2 ⟨ht, by simp⟩
    exact import_group_ne ho hx hi t (List.mem_filter.1 this).1
  have hgne : ∀ g ∈ s.groups, g ≠ [] := by
    intro g hg
    obtain ⟨t, ht, rfl⟩ := (hmem g).1 hg
    exact hne t ht
  refine ⟨?_, ?_, hm⟩
  · intro t ht
    have hg : t.group ∈ s.groups := (hmem _).2 ⟨t, ht, rfl⟩
    refine (C45_sheet_exact useNull s t.group).1 ?_ t ht rfl
    obtain ⟨e, hall⟩ := import_tables hi
    rw [sheetsByGroup_export hx hgne] at e hall
    have hp := ho (s.groups.map fun g => (g, groupRows useNull s g))
    generalize ord (s.groups.map fun g => (g, groupRows useNull s g)) = l at e hall hp
    have hin : (t.group, groupRows useNull s t.group) ∈ l := hp.mem_iff.2 (List.mem_map_of_mem hg)
    have hk : (l.map Prod.fst).Nodup := by
      refine (hp.map Prod.fst).nodup_iff.2 ?_
      rw [List.map_map]
      simpa [Function.comp_def] using hgn
    have e' : (l.map fun p => (readGroupSheet p.1 p.2).getD []) =
        (l.map fun p => (p.1, (readGroupSheet p.1 p.2).getD [])).map Prod.snd := by
      rw [List.map_map]; rfl
    have hk' : ((l.map fun p => (p.1, (readGroupSheet p.1 p.2).getD [])).map Prod.fst).Nodup := by
      rw [List.map_map]; exact hk
    have hff := hf t.group
    rw [e, e', filter_flatten_groups hk' (by
      intro p hp' u hu
      obtain ⟨q, hq, rfl⟩ := List.mem_map.1 hp'
      exact (readGroupSheet_shape (hall q hq) u hu).group),
      mapGet_of_mem hk' (List.mem_map.2 ⟨_, hin, rfl⟩)] at hff
    rw [hall _ hin]
    exact congrArg some hff
  · intro t ht
    have hg : t.group ∈ s.groups := (hmem _).2 ⟨t, ht, rfl⟩
    have h1 := hacc _ hg
    rw [groupName_of_ne (hne t ht)] at h1
    refine ⟨hne t ht, fun e => ?_, h1⟩
    rw [List.nodup_cons] at hnd
    refine hnd.1 (List.mem_map.2 ⟨t.group, hg, ?_⟩)
    rw [groupName_of_ne (hne t ht), e]

example : ¬∃ wb s', exportSchema (fun _ => true) true xlsxLossy = some wb ∧ importWorkbook id wb = some s' ∧
    s'.author = xlsxLossy.author ∧ s'.name = xlsxLossy.name ∧ s'.version = xlsxLossy.version ∧
    ∀ g, s'.tables.filter (fun t => t.group == g) = xlsxLossy.tables.filter (fun t => t.group == g) := by
  rw [C45_exact _ _ id (fun l => List.Perm.refl l)]
  intro h
  exact absurd ((h.1 _ List.mem_cons_self).columns _ List.mem_cons_self).values (by decide)

/-- A reference of many to one whose marker stays in the name of the table. -/
example : SheetColumn { name := "c"ₛ, type := "geometry(x)"ₛ, ref := some ⟨"<t"ₛ, "id"ₛ, "1:n"ₛ⟩ } :=
  ⟨by decide, by decide, by decide, by decide, by decide, by decide, by decide, by decide, by
    intro r hr; cases hr; exact ⟨by decide, by decide, by decide⟩⟩

end Octo
