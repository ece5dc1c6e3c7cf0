import Verif.Props.ExactSheetCli

/-! What comes from a spreadsheet, exported and imported again. -/

namespace Octo
open Xlsx Spec

/-- Where the columns, and the rest, of the tables of a sheet come from. -/
theorem sheet_columns {group : Str} {hdr : Row} {rs : List Row} {ts : List Table} (h : readGroupSheet group (hdr :: rs) = some ts) :
    ∃ un, ∀ t ∈ ts, AttrText t.className ∧ (∀ i ∈ t.indices, Tight i.name ∧ ∀ c ∈ i.columns, Tight c) ∧
      ∀ c ∈ t.columns, ∃ r ∈ rs, c = readColumn un r ∧ trimSpace (cell r 1) ≠ [] ∧ trimSpace (cell r 3) ≠ "I"ₛ ∧
        trimSpace (cell r 2) ≠ "table"ₛ := by
  rw [readGroupSheet_blocks] at h
  refine ⟨trimSpace (cell hdr 4) == "not null"ₛ, ?_⟩
  revert h
  generalize (trimSpace (cell hdr 4) == "not null"ₛ) = un
  intro h
  split at h
  · cases h
  cases Option.some.inj h
  intro t ht
  obtain ⟨b, hb, rfl⟩ := List.mem_map.1 ht
  have hsub : ∀ (l : List Row), ∀ b ∈ sheetBlocks l, ∀ r ∈ b.2, r ∈ l ∧ isTableRow r = false := by
    intro l
    induction l with
    | nil => intro b hb; cases hb
    | cons x l ih =>
      intro b hb r hr
      rw [sheetBlocks] at hb
      split at hb
      · rcases List.mem_cons.1 hb with rfl | hb
        · refine ⟨List.mem_cons_of_mem _ ((List.takeWhile_sublist _).mem hr), ?_⟩
          have := List.mem_takeWhile_imp hr
          simpa using this
        · exact ⟨List.mem_cons_of_mem _ (ih b hb r hr).1, (ih b hb r hr).2⟩
      · exact ⟨List.mem_cons_of_mem _ (ih b hb r hr).1, (ih b hb r hr).2⟩
  refine ⟨?_, ?_, ?_⟩
  · rw [(foldl_addRow_meta un b.2 _).2]
    exact attrText_attr _ _
  · rw [foldl_addRow_indices, show (readTable group b.1).indices = [] from rfl, foldl_addEntry]
    intro i hi
    obtain ⟨n, hn, rfl⟩ := List.mem_map.1 hi
    rw [mem_firsts] at hn
    have htight : ∀ e ∈ indexEntries b.2, Tight e.1 ∧ Tight e.2 := by
      intro e he
      unfold indexEntries at he
      obtain ⟨r, hr, rfl⟩ := List.mem_map.1 he
      exact ⟨trimSpace_trimSpace _, trimSpace_trimSpace _⟩
    obtain ⟨e, he, rfl⟩ := List.mem_map.1 hn
    refine ⟨(htight e he).1, fun c hc => ?_⟩
    have hc : c ∈ entriesOf (indexEntries b.2) e.1 := hc
    unfold entriesOf at hc
    obtain ⟨e', he', rfl⟩ := List.mem_map.1 hc
    exact (htight e' (List.mem_filter.1 he').1).2
  · rw [foldl_addRow_columns, show (readTable group b.1).columns = [] from rfl, List.nil_append]
    intro c hc
    obtain ⟨r, hr, rfl⟩ := List.mem_map.1 hc
    obtain ⟨hr, hf⟩ := List.mem_filter.1 hr
    rw [Bool.and_eq_true] at hf
    obtain ⟨h1, h2⟩ := hsub rs b hb r hr
    exact ⟨r, h1, rfl, bne_iff_ne.1 hf.1, bne_iff_ne.1 hf.2, fun e => by rw [(isTableRow_iff r).2 e] at h2; cases h2⟩

/-- The two things that a cell can say and an exported cell cannot: decimals, or the type `table`, with a size of zero, and an on-update
value that is not the default value. -/
def SheetSettled (c : Column) : Prop :=
  (c.size = 0 → c.scale = 0 ∧ c.type ≠ "table"ₛ) ∧ (c.onUpdate = [] ∨ c.onUpdate = c.defaultValue)

/-- A column that was read can be represented again, but for these two things. -/
theorem sheetColumn_read {un : Bool} {r : Row} (h1 : trimSpace (cell r 1) ≠ []) (h2 : SheetSettled (readColumn un r)) :
    SheetColumn (readColumn un r) := by
  have hshape := readColumn_shape un h1
  have ht : (readColumn un r).type = (parseType (trimSpace (cell r 2))).1 := rfl
  have hs : (readColumn un r).size = (parseType (trimSpace (cell r 2))).2.1 := rfl
  refine ⟨hshape.name, fun h0 => ?_, fun h0 => ?_, hshape.keys, attrText_attr _ _, h2.2, hshape.description, hshape.values, ?_⟩
  · refine ⟨(h2.1 h0).1, ?_, (h2.1 h0).2, ?_⟩
    · rw [ht, parseType]
      cases hm : typeMatch (trimSpace (cell r 2)) with
      | none => exact (typeMatch_none_iff _).1 hm
      | some m =>
        obtain ⟨n, d1, d2⟩ := m
        have := (typeMatch_letters hm).2.1
        refine (typeMatch_none_iff _).1 (typeMatch_none_of_no_paren _ fun h => ?_)
        exact absurd (this _ h) (by decide)
    · rw [ht, parseType]
      cases hm : typeMatch (trimSpace (cell r 2)) with
      | none => exact trimSpace_trimSpace _
      | some m =>
        obtain ⟨n, d1, d2⟩ := m
        have hl := (typeMatch_letters hm).2.1
        have hsp : ∀ x, isAlpha x = true → isSpace x = false := by
          intro x hx
          by_contra hc
          rw [Bool.not_eq_false] at hc
          unfold isSpace at hc
          simp only [decide_eq_true_eq] at hc
          unfold isAlpha at hx
          revert hx hc
          generalize x.toNat = n
          intro hx hc
          revert hx
          revert n
          decide
        refine trimSpace_of_trimmed ⟨fun c t e => hsp c (hl c ?_), fun c t e => hsp c (hl c ?_)⟩
        · rw [show n = c :: t from e]; exact .head _
        · rw [show n = t ++ [c] from e]; simp
  · rw [hs, parseType] at h0
    rw [ht, parseType]
    cases hm : typeMatch (trimSpace (cell r 2)) with
    | none => rw [hm] at h0; exact absurd rfl h0
    | some m =>
      obtain ⟨n, d1, d2⟩ := m
      exact ⟨(typeMatch_letters hm).1, (typeMatch_letters hm).2.1⟩
  · intro x hx
    exact sheetRef_of_parse hx

/-- A table that was read can be represented again, but for these two things. -/
theorem sheetTable_read {group : Str} {rows : List Row} {ts : List Table} (h : readGroupSheet group rows = some ts) :
    ∀ t ∈ ts, (SheetTable t ↔ ∀ c ∈ t.columns, SheetSettled c) := by
  intro t ht
  have hshape := readGroupSheet_shape h t ht
  constructor
  · intro hst c hc
    have := hst.columns c hc
    exact ⟨fun h0 => ⟨(this.plain h0).1, (this.plain h0).2.2.1⟩, this.onUpdate⟩
  · intro hs
    cases rows with
    | nil => cases h; cases ht
    | cons hdr rs =>
      obtain ⟨un, hall⟩ := sheet_columns h
      obtain ⟨a, b, c⟩ := hall t ht
      refine ⟨hshape.name, a, hshape.description, fun x hx => ?_, hshape.indexNames, fun i hi => ?_⟩
      · obtain ⟨r, -, rfl, h1, -⟩ := c x hx
        exact sheetColumn_read h1 (hs _ hx)
      · exact ⟨(b i hi).1, (hshape.indices i hi).1, fun x hx => ⟨(hshape.indices i hi).2 x hx, (b i hi).2 x hx⟩⟩

/-- No sheet of tables is called `Meta`. -/
theorem sheetsByGroup_ne_meta {wb : List Sheet} {p : Str × List Row} (h : p ∈ sheetsByGroup wb) : p.1 ≠ "Meta"ₛ := by
  unfold sheetsByGroup at h
  have hk := mapGet_of_mem (nodup_mapOf _) h
  rw [mapGet_mapOf] at hk
  cases hf : List.find? (fun q : Str × List Row => decide (q.1 = p.1)) (List.map (fun sh : Sheet => (sh.name, sh.rows))
      (List.filter (fun sh => sh.name != "Meta"ₛ) wb)).reverse with
  | none => rw [hf] at hk; cases hk
  | some q =>
    have he : q.1 = p.1 := by simpa using List.find?_some hf
    obtain ⟨sh, hsh, rfl⟩ := List.mem_map.1 (List.mem_reverse.1 (List.mem_of_find?_eq_some hf))
    rw [← he]
    exact bne_iff_ne.1 (List.mem_filter.1 hsh).2

/-- The tables that come from a workbook. -/
theorem import_settled {ord : List (Str × List Row) → List (Str × List Row)} (ho : ∀ l, (ord l).Perm l) {wb : List Sheet} {s : Schema}
    (h : importWorkbook ord wb = some s) :
    ∀ t ∈ s.tables, t.group ≠ "Meta"ₛ ∧ (SheetTable t ↔ ∀ c ∈ t.columns, SheetSettled c) := by
  obtain ⟨e, hall⟩ := import_tables h
  intro t ht
  rw [e] at ht
  obtain ⟨l, hl, htl⟩ := List.mem_flatten.1 ht
  obtain ⟨p, hp, rfl⟩ := List.mem_map.1 hl
  refine ⟨?_, sheetTable_read (hall p hp) t htl⟩
  rw [(readGroupSheet_shape (hall p hp) t htl).group]
  exact sheetsByGroup_ne_meta ((ho _).mem_iff.1 hp)

/-- C154, exactly: what was imported from a workbook, whoever has made it, is the same after it has been exported and imported again if
and only if no column says decimals or `table` with a size of zero or has an on-update value of its own, and the library accepts the
names of the sheets. -/
theorem C154_exact (ord ord' : List (Str × List Row) → List (Str × List Row)) (ho : ∀ l, (ord l).Perm l) (ho' : ∀ l, (ord' l).Perm l)
    (accepts : Str → Bool) (useNull : Bool) (wb : List Sheet) (s : Schema) (h : importWorkbook ord wb = some s) :
    (∃ wb' s', exportSchema accepts useNull s = some wb' ∧ importWorkbook ord' wb' = some s' ∧
      s'.author = s.author ∧ s'.name = s.name ∧ s'.version = s.version ∧
      ∀ g, s'.tables.filter (fun t => t.group == g) = s.tables.filter (fun t => t.group == g)) ↔
    (∀ t ∈ s.tables, ∀ c ∈ t.columns, SheetSettled c) ∧ (∀ t ∈ s.tables, t.group ≠ [] ∧ accepts t.group = true) ∧ accepts "Meta"ₛ = true := by
  rw [C45_exact accepts useNull ord' ho' s]
  have hi := import_settled ho h
  constructor
  · rintro ⟨h1, h2, h3⟩
    exact ⟨fun t ht => (hi t ht).2.1 (h1 t ht), fun t ht => ⟨(h2 t ht).1, (h2 t ht).2.2⟩, h3⟩
  · rintro ⟨h1, h2, h3⟩
    exact ⟨fun t ht => (hi t ht).2.2 (h1 t ht), fun t ht => ⟨(h2 t ht).1, (hi t ht).1, (h2 t ht).2⟩, h3⟩

/-! ### What was exported -/

theorem trimSpace_cons_space {x : Char} (h : isSpace x = true) (s : Str) : trimSpace (x :: s) = trimSpace s := by
  unfold trimSpace
  rw [List.dropWhile_cons_of_pos h]

/-- A text without the white space at its end. -/
def rtrim (s : Str) : Str := (s.reverse.dropWhile isSpace).reverse

theorem rtrim_snoc_space {x : Char} (h : isSpace x = true) (s : Str) : rtrim (s ++ [x]) = rtrim s := by
  unfold rtrim
  rw [List.reverse_append, List.reverse_singleton, List.singleton_append, List.dropWhile_cons_of_pos h]

theorem trimSpace_rtrim (s : Str) : trimSpace s = rtrim (s.dropWhile isSpace) := rfl

theorem dropWhile_append_ne {p : Char → Bool} {a b : Str} (h : a.dropWhile p ≠ []) : (a ++ b).dropWhile p = a.dropWhile p ++ b := by
  rw [List.dropWhile_append, if_neg (by rw [List.isEmpty_iff]; exact h)]

theorem trimSpace_snoc_space {x : Char} (h : isSpace x = true) (s : Str) : trimSpace (s ++ [x]) = trimSpace s := by
  rw [trimSpace_rtrim, trimSpace_rtrim]
  by_cases hs : s.dropWhile isSpace = []
  · have : (s ++ [x]).dropWhile isSpace = [] := by
      rw [List.dropWhile_eq_nil_iff] at hs ⊢
      intro y hy
      rcases List.mem_append.1 hy with hy | hy
      · exact hs y hy
      · rw [List.mem_singleton.1 hy]; exact h
    rw [this, hs]
  · rw [dropWhile_append_ne hs, rtrim_snoc_space h]

theorem split_snoc {sep x : Char} (h : x ≠ sep) (s : Str) :
    ∃ a b, split sep s = a ++ [b] ∧ split sep (s ++ [x]) = a ++ [b ++ [x]] := by
  induction s with
  | nil => exact ⟨[], [], rfl, by rw [List.nil_append, split_cons_ne h]; rfl⟩
  | cons c s ih =>
    obtain ⟨a, b, h1, h2⟩ := ih
    by_cases hc : c = sep
    · subst hc
      refine ⟨[] :: a, b, ?_, ?_⟩
      · rw [split, if_pos rfl, h1]; rfl
      · rw [List.cons_append, split, if_pos rfl, h2]; rfl
    · rw [List.cons_append, split_cons_ne hc, split_cons_ne hc, h1, h2]
      cases a with
      | nil => exact ⟨[], c :: b, rfl, rfl⟩
      | cons y a => exact ⟨(c :: y) :: a, b, rfl, rfl⟩

theorem space_ne_comma {x : Char} (h : isSpace x = true) : x ≠ ',' := by
  rintro rfl
  exact absurd h (by decide)

/-- White space around a list of attributes does not matter. -/
theorem split_trim (s : Str) : (split ',' (trimSpace s)).map trimSpace = (split ',' s).map trimSpace := by
  have hl : ∀ s : Str, (split ',' (s.dropWhile isSpace)).map trimSpace = (split ',' s).map trimSpace := by
    intro s
    induction s with
    | nil => rfl
    | cons x s ih =>
      by_cases hx : isSpace x = true
      · rw [List.dropWhile_cons_of_pos hx, ih, split_cons_ne (space_ne_comma hx)]
        cases hs : split ',' s with
        | nil => exact absurd hs (split_ne_nil _ _)
        | cons a l =>
          show trimSpace a :: _ = trimSpace (x :: a) :: _
          rw [trimSpace_cons_space hx]
          rfl
      · rw [List.dropWhile_cons_of_neg hx]
  have hr : ∀ s : Str, (split ',' (rtrim s)).map trimSpace = (split ',' s).map trimSpace := by
    intro s
    induction s using List.reverseRecOn with
    | nil => rfl
    | append_singleton s x ih =>
      by_cases hx : isSpace x = true
      · rw [rtrim_snoc_space hx, ih]
        obtain ⟨a, b, h1, h2⟩ := split_snoc (space_ne_comma hx) s
        rw [h1, h2, List.map_append, List.map_append, List.map_singleton, List.map_singleton, trimSpace_snoc_space hx]
      · have : rtrim (s ++ [x]) = s ++ [x] := by
          unfold rtrim
          rw [List.reverse_append, List.reverse_singleton, List.singleton_append, List.dropWhile_cons_of_neg hx]
          simp
        rw [this]
  rw [trimSpace_rtrim, hr, hl]

theorem split_pieces {l : List Str} (hne : l ≠ []) (h : ∀ a ∈ l, ',' ∉ a) :
    (split ',' (join ", "ₛ l)).map trimSpace = l.map trimSpace := by
  induction l with
  | nil => exact absurd rfl hne
  | cons a l ih =>
    have ha := h a List.mem_cons_self
    cases l with
    | nil => rw [join, split_no_sep ha]
    | cons b l =>
      have ih := ih (by simp) (fun x hx => h x (List.mem_cons_of_mem _ hx))
      rw [join_cons_cons, List.append_assoc, show ", "ₛ ++ join ", "ₛ (b :: l) = ',' :: (' ' :: join ", "ₛ (b :: l)) from rfl,
        split_append_sep ha, split_cons_ne (by decide)]
      cases hs : split ',' (join ", "ₛ (b :: l)) with
      | nil => exact absurd hs (split_ne_nil _ _)
      | cons p ps =>
        rw [hs] at ih
        rw [List.map_cons, List.headD_cons, List.tail_cons, List.map_cons, trimSpace_cons_space (by decide),
          show trimSpace p :: ps.map trimSpace = (p :: ps).map trimSpace from rfl, ih]
        rfl

theorem trimSpace_key {k : Str} {x y : Char} {p q : Str} (h1 : k = x :: p) (h2 : k = q ++ [y]) (hx : isSpace x = false) (hy : isSpace y = false)
    (v : Str) : trimSpace (k ++ v) = k ++ rtrim v := by
  rw [trimSpace_rtrim]
  have : (k ++ v).dropWhile isSpace = k ++ v := by
    rw [h1, List.cons_append, List.dropWhile_cons_of_neg (by rw [hx]; decide)]
  rw [this]
  unfold rtrim
  rw [List.reverse_append]
  have hk : k.reverse.dropWhile isSpace = k.reverse := by
    rw [h2, List.reverse_append, List.reverse_singleton, List.singleton_append, List.dropWhile_cons_of_neg (by rw [hy]; decide)]
  by_cases hv : v.reverse.dropWhile isSpace = []
  · rw [hv, List.dropWhile_append, hv]
    simp [hk]
  · rw [dropWhile_append_ne hv, List.reverse_append, List.reverse_reverse]

/-- What the importer finds in the attributes of a column whose default value has no comma. -/
theorem attrs_settle {c : Column} (hd : ',' ∉ c.defaultValue) :
    attr (parseAttributes (trimSpace (join ", "ₛ (columnAttributes c)))) "autoInc"ₛ = (if c.autoIncremental then "true"ₛ else []) ∧
    attr (parseAttributes (trimSpace (join ", "ₛ (columnAttributes c)))) "default"ₛ = rtrim c.defaultValue ∧
    attr (parseAttributes (trimSpace (join ", "ₛ (columnAttributes c)))) "onUpdate"ₛ =
      (if c.onUpdate = [] then [] else rtrim c.defaultValue) := by
  have hmem : ∀ a ∈ columnAttributes c, ',' ∉ a := by
    intro a ha
    have key : ∀ k : Str, ',' ∉ k → ',' ∉ k ++ "="ₛ ++ c.defaultValue := by
      intro k h3
      simp only [List.mem_append, not_or]
      exact ⟨⟨h3, by decide⟩, hd⟩
    simp only [columnAttributes, List.mem_append] at ha
    rcases ha with (ha | ha) | ha
    · split at ha
      · simp only [List.mem_singleton] at ha; subst ha; decide
      · simp at ha
    · split at ha
      · simp only [List.mem_singleton] at ha; subst ha; exact key _ (by decide)
      · simp at ha
    · split at ha
      · simp only [List.mem_singleton] at ha; subst ha; exact key _ (by decide)
      · simp at ha
  have r0 : rtrim [] = [] := rfl
  by_cases hne : columnAttributes c = []
  · have h0 := hne
    unfold columnAttributes at h0
    rw [List.append_eq_nil_iff, List.append_eq_nil_iff] at h0
    obtain ⟨⟨ha, hb⟩, hc⟩ := h0
    have h1 : c.autoIncremental = false := by
      cases h : c.autoIncremental with
      | false => rfl
      | true => rw [h] at ha; cases ha
    have h2 : c.defaultValue = [] := by
      by_contra h; rw [if_pos h] at hb; cases hb
    have h3 : c.onUpdate = [] := by
      by_contra h; rw [if_pos h] at hc; cases hc
    rw [hne, join, parseAttributes_nil, h1, h2, h3, r0]
    decide
  · have hp : parseAttributes (trimSpace (join ", "ₛ (columnAttributes c))) =
        mapOf (((columnAttributes c).map trimSpace).map keyValue) := by
      rw [parseAttributes, ← split_pieces hne hmem, ← split_trim, List.map_map]
      rfl
    rw [hp]
    have t2 : trimSpace ("default"ₛ ++ "="ₛ ++ c.defaultValue) = "default"ₛ ++ "="ₛ ++ rtrim c.defaultValue :=
      trimSpace_key (k := "default"ₛ ++ "="ₛ) (x := 'd') (p := "efault="ₛ) (y := '=') (q := "default"ₛ) rfl rfl (by decide) (by decide) _
    have t3 : trimSpace ("onUpdate"ₛ ++ "="ₛ ++ c.defaultValue) = "onUpdate"ₛ ++ "="ₛ ++ rtrim c.defaultValue :=
      trimSpace_key (k := "onUpdate"ₛ ++ "="ₛ) (x := 'o') (p := "nUpdate="ₛ) (y := '=') (q := "onUpdate"ₛ) rfl rfl (by decide) (by decide) _
    have t1 : trimSpace "autoInc"ₛ = "autoInc"ₛ := by decide
    have k2 := keyValue_append (k := "default"ₛ) (by decide) (rtrim c.defaultValue)
    have k3 := keyValue_append (k := "onUpdate"ₛ) (by decide) (rtrim c.defaultValue)
    have e : ((columnAttributes c).map trimSpace).map keyValue =
        (if c.autoIncremental then [("autoInc"ₛ, "true"ₛ)] else []) ++
        (if c.defaultValue ≠ [] then [("default"ₛ, rtrim c.defaultValue)] else []) ++
        (if c.onUpdate ≠ [] then [("onUpdate"ₛ, rtrim c.defaultValue)] else []) := by
      simp only [columnAttributes, List.map_append]
      congr 1
      · congr 1
        · split
          · rw [List.map_singleton, List.map_singleton, t1, autoInc_kv]
          · rfl
        · split
          · rw [List.map_singleton, List.map_singleton, t2, k2]
          · rfl
      · split
        · rw [List.map_singleton, List.map_singleton, t3, k3]
        · rfl
    rw [e]
    have hr : c.defaultValue = [] → rtrim c.defaultValue = [] := by
      intro h; rw [h]; rfl
    revert hr
    clear hmem hne e k2 k3 hd t1 t2 t3 hp
    unfold attr
    simp only [mapGet_mapOf]
    generalize rtrim c.defaultValue = d'
    generalize c.defaultValue = d
    generalize c.onUpdate = u
    intro hr
    cases c.autoIncremental <;> by_cases h1 : d = [] <;> by_cases h2 : u = [] <;> simp [h1, h2] <;> simp [hr h1]

/-- A column that was exported, when its type has no parenthesis and its default value no comma. -/
theorem exported_settled {useNull un : Bool} {c : Column} (ht : '(' ∉ c.type) (hd : ',' ∉ c.defaultValue)
    (h2 : trimSpace (cell (columnRow useNull c) 2) ≠ "table"ₛ) : SheetSettled (readColumn un (columnRow useNull c)) := by
  obtain ⟨-, a2, a3⟩ := attrs_settle hd
  constructor
  · intro h0
    have hs : (parseType (trimSpace c.format)).2.1 = 0 := h0
    show (parseType (trimSpace c.format)).2.2 = 0 ∧ (parseType (trimSpace c.format)).1 ≠ "table"ₛ
    have h2 : trimSpace c.format ≠ "table"ₛ := h2
    by_cases hz : c.size = 0
    · have e : c.format = c.type := by simp [Column.format, hz]
      rw [e] at h2 ⊢
      have hp : '(' ∉ trimSpace c.type := fun h => ht ((trimSpace_sublist c.type).mem h)
      rw [parseType, typeMatch_none_of_no_paren _ hp]
      exact ⟨rfl, h2⟩
    · set c' : Column := { c with type := c.type.dropWhile isSpace } with hc'
      have hfmt : trimSpace c.format = c'.format := by
        rw [format_sizeText c hz, format_sizeText c' hz]
        obtain ⟨p, hp⟩ := sizeText_last c.size c.scale
        show _ = c.type.dropWhile isSpace ++ sizeText c.size c.scale
        rw [trimSpace_rtrim]
        have hdrop : (c.type ++ sizeText c.size c.scale).dropWhile isSpace = c.type.dropWhile isSpace ++ sizeText c.size c.scale := by
          by_cases hn : c.type.dropWhile isSpace = []
          · rw [List.dropWhile_append, hn]
            simp only [List.isEmpty_nil, if_true, List.nil_append]
            obtain ⟨q, hq⟩ : ∃ q, sizeText c.size c.scale = '(' :: q := by
              unfold sizeText
              split <;> exact ⟨_, rfl⟩
            rw [hq, List.dropWhile_cons_of_neg (by decide)]
          · exact dropWhile_append_ne hn
        rw [hdrop, hp, ← List.append_assoc]
        unfold rtrim
        rw [List.reverse_append, List.reverse_singleton, List.singleton_append, List.dropWhile_cons_of_neg (by decide)]
        simp
      rw [hfmt] at hs h2 ⊢
      obtain ⟨pre, suf, -, -, -, hp⟩ := C14_parse_format c' (fun h => ht ((List.dropWhile_sublist isSpace).mem h)) hz
      rw [hp] at hs ⊢
      split at hs
      · rename_i he
        rw [if_pos he]
        exact ⟨rfl, h2⟩
      · exact absurd hs hz
  · show attr _ "onUpdate"ₛ = [] ∨ attr _ "onUpdate"ₛ = attr _ "default"ₛ
    have e : cell (columnRow useNull c) 5 = join ", "ₛ (columnAttributes c) := rfl
    rw [e, a2, a3]
    split
    · exact Or.inl rfl
    · exact Or.inr rfl

theorem mem_bodyRows {useNull : Bool} {group : Str} {n i : Nat} {ts : List Table} {r : Row} (h : r ∈ bodyRows useNull group n i ts) :
    r = [] ∨ ∃ t ∈ ts, r = tableRow t ∨ (∃ c ∈ t.columns, r = columnRow useNull c) ∨ ∃ x ∈ t.indices, r ∈ indexRows x := by
  induction ts generalizing i with
  | nil => cases h
  | cons t ts ih =>
    rw [bodyRows] at h
    split at h
    · rcases ih h with h | ⟨u, hu, h⟩
      · exact Or.inl h
      · exact Or.inr ⟨u, List.mem_cons_of_mem _ hu, h⟩
    · rcases List.mem_append.1 h with h | h
      · refine Or.inr ⟨t, List.mem_cons_self, ?_⟩
        rcases List.mem_cons.1 h with h | h
        · exact Or.inl h
        · rcases List.mem_append.1 h with h | h
          · obtain ⟨c, hc, rfl⟩ := List.mem_map.1 h
            exact Or.inr (Or.inl ⟨c, hc, rfl⟩)
          · obtain ⟨x, hx, h⟩ := List.mem_flatMap.1 h
            exact Or.inr (Or.inr ⟨x, hx, h⟩)
      · rcases List.mem_append.1 h with h | h
        · split at h
          · exact Or.inl (List.mem_singleton.1 h)
          · cases h
        · rcases ih h with h | ⟨u, hu, h⟩
          · exact Or.inl h
          · exact Or.inr ⟨u, List.mem_cons_of_mem _ hu, h⟩

/-- The columns that come from the sheet of a group. -/
theorem groupRows_columns {useNull : Bool} {s : Schema} {g group : Str} {ts : List Table}
    (h : readGroupSheet group (groupRows useNull s g) = some ts) :
    ∀ t ∈ ts, ∀ x ∈ t.columns, ∃ un, ∃ u ∈ s.tables, ∃ c ∈ u.columns, x = readColumn un (columnRow useNull c) ∧
      trimSpace (cell (columnRow useNull c) 2) ≠ "table"ₛ := by
  obtain ⟨un, hall⟩ := sheet_columns h
  intro t ht x hx
  obtain ⟨r, hr, rfl, h1, h2, h3⟩ := (hall t ht).2.2 x hx
  rcases mem_bodyRows hr with rfl | ⟨u, hu, rfl | ⟨c, hc, rfl⟩ | ⟨i, -, hi⟩⟩
  · exact absurd rfl h1
  · exact absurd rfl h1
  · exact ⟨un, u, hu, c, hc, rfl, h3⟩
  · exact absurd (beq_iff_eq.1 (indexRow_key hi)) h2

/-- The sheets of an exported workbook. -/
theorem export_sheets {accepts : Str → Bool} {useNull : Bool} {s : Schema} {wb : List Sheet} (hx : exportSchema accepts useNull s = some wb)
    {p : Str × List Row} (hp : p ∈ sheetsByGroup wb) : ∃ g ∈ s.groups, p = (groupName g, groupRows useNull s g) := by
  obtain ⟨_, _, _, rfl⟩ := (export_iff accepts useNull s wb).1 hx
  unfold sheetsByGroup at hp
  have hk := mapGet_of_mem (nodup_mapOf _) hp
  rw [mapGet_mapOf] at hk
  cases hf : List.find? (fun q : Str × List Row => decide (q.1 = p.1)) (List.map (fun sh : Sheet => (sh.name, sh.rows))
      (List.filter (fun sh => sh.name != "Meta"ₛ) (⟨"Meta"ₛ, metaRows s⟩ :: s.groups.map (groupSheet useNull s)))).reverse with
  | none => rw [hf] at hk; cases hk
  | some q =>
    rw [hf] at hk
    have hv : q.2 = p.2 := Option.some.inj hk
    have he : q.1 = p.1 := by simpa using List.find?_some hf
    obtain ⟨sh, hsh, rfl⟩ := List.mem_map.1 (List.mem_reverse.1 (List.mem_of_find?_eq_some hf))
    obtain ⟨hsh, hne⟩ := List.mem_filter.1 hsh
    rcases List.mem_cons.1 hsh with rfl | hsh
    · simp at hne
    · obtain ⟨g, hg, rfl⟩ := List.mem_map.1 hsh
      exact ⟨g, hg, Prod.ext he.symm hv.symm⟩

/-- Where the tables come from that were exported and imported. -/
theorem import_export {accepts : Str → Bool} {useNull : Bool} {ord : List (Str × List Row) → List (Str × List Row)} (ho : ∀ l, (ord l).Perm l)
    {s s' : Schema} {wb : List Sheet} (hx : exportSchema accepts useNull s = some wb) (hi : importWorkbook ord wb = some s') :
    ∀ t ∈ s'.tables, t.group ≠ [] ∧ accepts t.group = true ∧ ∀ x ∈ t.columns, ∃ un, ∃ u ∈ s.tables, ∃ c ∈ u.columns,
      x = readColumn un (columnRow useNull c) ∧ trimSpace (cell (columnRow useNull c) 2) ≠ "table"ₛ := by
  obtain ⟨e, hall⟩ := import_tables hi
  intro t ht
  rw [e] at ht
  obtain ⟨l, hl, htl⟩ := List.mem_flatten.1 ht
  obtain ⟨p, hp, rfl⟩ := List.mem_map.1 hl
  have hread := hall p hp
  obtain ⟨g, hg, rfl⟩ := export_sheets hx ((ho _).mem_iff.1 hp)
  rw [(readGroupSheet_shape hread t htl).group]
  exact ⟨groupName_ne_nil g, ((export_iff accepts useNull s wb).1 hx).2.1 g hg, groupRows_columns hread t htl⟩

/-- C154: whatever exporting a schema to a spreadsheet and importing it again makes of it, doing the same again changes nothing, when no
type has a parenthesis and no default value a comma. -/
theorem C154_settled_partial (ord ord' : List (Str × List Row) → List (Str × List Row)) (ho : ∀ l, (ord l).Perm l)
    (ho' : ∀ l, (ord' l).Perm l) (accepts : Str → Bool) (useNull useNull' : Bool) (s : Schema)
    (ht : ∀ t ∈ s.tables, ∀ c ∈ t.columns, '(' ∉ c.type ∧ ',' ∉ c.defaultValue) (wb : List Sheet) (s₁ : Schema)
    (hx : exportSchema accepts useNull s = some wb) (hi : importWorkbook ord wb = some s₁) :
    ∃ wb' s₂, exportSchema accepts useNull' s₁ = some wb' ∧ importWorkbook ord' wb' = some s₂ ∧
      s₂.author = s₁.author ∧ s₂.name = s₁.name ∧ s₂.version = s₁.version ∧
      ∀ g, s₂.tables.filter (fun t => t.group == g) = s₁.tables.filter (fun t => t.group == g) := by
  refine (C154_exact ord ord' ho ho' accepts useNull' wb s₁ hi).2 ⟨fun t h c hc => ?_, fun t h => ?_, ((export_iff accepts useNull s wb).1 hx).1⟩
  · obtain ⟨un, u, hu, d, hd, rfl, h2⟩ := (import_export ho hx hi t h).2.2 c hc
    exact exported_settled (ht u hu d hd).1 (ht u hu d hd).2 h2
  · exact ⟨(import_export ho hx hi t h).1, (import_export ho hx hi t h).2.1⟩

/-- A default value that says an on-update value. -/
def unsettledDemo : Schema := { tables := [{ name := "t"ₛ, group := "g"ₛ
                                             columns := [{ name := "c"ₛ, type := "int32"ₛ, defaultValue := "1, onUpdate=2"ₛ }] }] }

/-- C154, violated: the second round trip changes the schema again. -/
theorem C154_violated : ∃ wb s₁, exportSchema (fun _ => true) false unsettledDemo = some wb ∧ importWorkbook id wb = some s₁ ∧
    ¬∃ wb' s₂, exportSchema (fun _ => true) false s₁ = some wb' ∧ importWorkbook id wb' = some s₂ ∧
      s₂.author = s₁.author ∧ s₂.name = s₁.name ∧ s₂.version = s₁.version ∧
      ∀ g, s₂.tables.filter (fun t => t.group == g) = s₁.tables.filter (fun t => t.group == g) := by
  have h1 : (exportSchema (fun _ => true) false unsettledDemo).isSome = true := by decide +kernel
  obtain ⟨wb, hwb⟩ := Option.isSome_iff_exists.1 h1
  have h2 : (exportSchema (fun _ => true) false unsettledDemo).bind (importWorkbook id) = some { tables := [{ name := "t"ₛ, group := "g"ₛ, columns :=
      [{ name := "c"ₛ, type := "int32"ₛ, defaultValue := "1"ₛ, onUpdate := "2"ₛ }] }] } := by decide +kernel
  rw [hwb] at h2
  refine ⟨wb, _, hwb, h2, ?_⟩
  rw [C154_exact id id (fun l => List.Perm.refl l) (fun l => List.Perm.refl l) _ _ wb _ h2]
  rintro ⟨h, -⟩
  have := (h _ (.head _) _ (.head _)).2
  revert this
  decide

/-- C154: the members of an enumeration and the kind of a reference are lost the first time only. -/
example : (∀ t ∈ xlsxLossy.tables, ∀ c ∈ t.columns, '(' ∉ c.type ∧ ',' ∉ c.defaultValue) ∧
    ∃ wb s₁, exportSchema (fun _ => true) true xlsxLossy = some wb ∧ importWorkbook id wb = some s₁ ∧ s₁.tables ≠ xlsxLossy.tables ∧
      s₁.tables ≠ [] := by
  refine ⟨by decide +kernel, ?_⟩
  have h1 : (exportSchema (fun _ => true) true xlsxLossy).isSome = true := by decide +kernel
  obtain ⟨wb, hwb⟩ := Option.isSome_iff_exists.1 h1
  have h2 : ((exportSchema (fun _ => true) true xlsxLossy).bind (importWorkbook id)).isSome = true := by decide +kernel
  have h3 : ∀ s₁, (exportSchema (fun _ => true) true xlsxLossy).bind (importWorkbook id) = some s₁ →
      s₁.tables ≠ xlsxLossy.tables ∧ s₁.tables ≠ [] := by
    have : ((exportSchema (fun _ => true) true xlsxLossy).bind (importWorkbook id)).all
        (fun s₁ => decide (s₁.tables ≠ xlsxLossy.tables ∧ s₁.tables ≠ [])) = true := by decide +kernel
    intro s₁ h
    rw [h] at this
    exact of_decide_eq_true this
  rw [hwb] at h2 h3
  obtain ⟨s₁, hs⟩ := Option.isSome_iff_exists.1 h2
  exact ⟨wb, s₁, hwb, hs, h3 s₁ hs⟩

/-- C154: sheets written by hand; the first is the same after a round trip, the second is not. -/
example : (∃ s, importWorkbook id demoBook = some s ∧ s.tables ≠ [] ∧ ∀ t ∈ s.tables, ∀ c ∈ t.columns, SheetSettled c) ∧
    ∃ s, importWorkbook id [⟨"g"ₛ, [["h"ₛ], ["t"ₛ, [], "table"ₛ], [[], "c"ₛ, "datetime"ₛ, [], [], "default=fn::A, onUpdate=fn::B"ₛ]]⟩] = some s ∧
      ¬∀ t ∈ s.tables, ∀ c ∈ t.columns, SheetSettled c := by
  constructor
  · refine ⟨_, rfl, by decide +kernel, ?_⟩
    unfold SheetSettled
    decide +kernel
  · refine ⟨_, rfl, ?_⟩
    unfold SheetSettled
    decide +kernel

end Octo

namespace Octo
open Xlsx Spec

theorem canon_no_paren {t : Str} (h : canon t ∈ supportedTypes) : '(' ∉ t := by
  intro hp
  have hl : '(' ∈ lower t := by
    unfold lower
    exact List.mem_map.2 ⟨_, hp, by decide⟩
  have hk : ∀ p ∈ aliases, '(' ∉ p.1 := by decide +kernel
  have hs : ∀ t ∈ supportedTypes, '(' ∉ t := by decide +kernel
  unfold canon at h
  cases hf : aliases.lookup (lower t) with
  | some y =>
    have : ∃ p ∈ aliases, p.1 = lower t := by
      revert hf
      generalize aliases = l
      intro hf
      induction l with
      | nil => cases hf
      | cons a l ih =>
        rw [List.lookup_cons] at hf
        split at hf
        · rename_i e; exact ⟨a, List.mem_cons_self, (beq_iff_eq.1 e).symm⟩
        · obtain ⟨p, hp, e⟩ := ih hf; exact ⟨p, List.mem_cons_of_mem _ hp, e⟩
    obtain ⟨p, hp, e⟩ := this
    exact hk p hp (by rw [e]; exact hl)
  | none => rw [hf] at h; exact hs _ h hl

/-- A normalised column that was exported and is accepted after the import is normalised. -/
theorem norm_read {useNull un : Bool} {c : Column} (hs : c.type ∈ supportedTypes) (hn : normColumn c = c) (hd : ',' ∉ c.defaultValue)
    (hv : canon (readColumn un (columnRow useNull c)).type ∈ supportedTypes) :
    normColumn (readColumn un (columnRow useNull c)) = readColumn un (columnRow useNull c) := by
  have hcanon : canon c.type = c.type := congrArg Column.type hn
  have hauto : (c.autoIncremental && decide (canon c.type ∈ integerTypes)) = c.autoIncremental := congrArg Column.autoIncremental hn
  obtain ⟨h1, h2, _, h4, _, h6⟩ := supported_text hs
  have hf : trimSpace c.format = c.format := supported_format hs
  have htype : (readColumn un (columnRow useNull c)).type = c.type := by
    have hv : canon (parseType (trimSpace c.format)).1 ∈ supportedTypes := hv
    show (parseType (trimSpace c.format)).1 = c.type
    rw [hf] at hv ⊢
    by_cases hz : c.size = 0
    · have : c.format = c.type := by simp [Column.format, hz]
      rw [this, parseType, typeMatch_none_of_no_paren _ h2]
    · rcases h6 with h6 | ⟨p, x, e, hx⟩
      · rw [C14_round_trip_partial c h6 h1 (fun e => absurd e hz)]
      · rw [(C14_violated c x p e hx h2 hz).1] at hv
        refine absurd ?_ (canon_no_paren hv)
        rw [format_sizeText c hz]
        unfold sizeText
        split <;> simp
  have ha : (readColumn un (columnRow useNull c)).autoIncremental = c.autoIncremental := by
    show (attr (parseAttributes (trimSpace (join ", "ₛ (columnAttributes c)))) "autoInc"ₛ == "true"ₛ) = _
    rw [(attrs_settle hd).1]
    cases c.autoIncremental <;> rfl
  revert htype ha
  generalize readColumn un (columnRow useNull c) = b
  intro htype ha
  unfold normColumn
  rw [htype, ha, hauto, hcanon, ← htype, ← ha]

end Octo

namespace Octo.Cli
open Spec Xlsx

/-- C154 on the command line: after `export xlsx` and `import xlsx` have succeeded, the same two commands on the imported file succeed
and leave the same schema, whatever was lost the first time. -/
theorem C154_commands_partial (w : World) (hw : Faithful w) (v v' u u' : Values) (fs : Files) (s : Schema)
    (hst : Stored w fs (v "input"ₛ) s) (hc : ∀ t ∈ s.tables, ∀ c ∈ t.columns, ',' ∉ c.defaultValue)
    (hin : v' "input"ₛ = v "output"ₛ) (ho : IsOctopus (v' "output"ₛ)) (h1 : (action w .exportXlsx v fs).status = .ok)
    (h2 : (action w .importXlsx v' (action w .exportXlsx v fs).files).status = .ok) {fs₁ : Files}
    (hfs₁ : (action w .importXlsx v' (action w .exportXlsx v fs).files).files = fs₁) {s₁ : Schema}
    (hl : load w fs₁ (v' "output"ₛ) = some s₁) (hd : DistinctTables s₁)
    (hu : u "input"ₛ = v' "output"ₛ) (hu' : u' "input"ₛ = u "output"ₛ) (ho' : IsOctopus (u' "output"ₛ))
    (hwu : w.writable (pathOf (u "output"ₛ)) = true) (hwu' : w.writable (pathOf (u' "output"ₛ)) = true) :
    (action w .exportXlsx u fs₁).status = .ok ∧
    (action w .importXlsx u' (action w .exportXlsx u fs₁).files).status = .ok ∧
    load w (action w .importXlsx u' (action w .exportXlsx u fs₁).files).files (u' "output"ₛ) = some s₁ := by
  have hx : ∃ wb, exportSchema w.accepts (v.bool "useNullColumn"ₛ) s = some wb ∧
      action w .exportXlsx v fs = ⟨fs.set (pathOf (v "output"ₛ)) (.book wb), .ok⟩ := by
    have e : action w .exportXlsx v fs = exportXlsxAction w v fs := rfl
    rw [e] at h1 ⊢
    unfold exportXlsxAction at h1 ⊢
    rw [withSchema_some (load_stored hw hst)] at h1 ⊢
    cases hb : exportSchema w.accepts (v.bool "useNullColumn"ₛ) s with
    | none => rw [hb] at h1; cases h1
    | some wb =>
      rw [hb] at h1
      refine ⟨wb, rfl, ?_⟩
      unfold write at h1 ⊢
      dsimp only at h1 ⊢
      split at h1
      · rename_i hwr; rw [if_pos hwr]
      · cases h1
  obtain ⟨wb, hb, he⟩ := hx
  rw [he] at h2 hfs₁
  have hi : ∃ s', importWorkbook w.sheets wb = some s' ∧ action w .importXlsx v' (fs.set (pathOf (v "output"ₛ)) (.book wb)) =
      save w (fs.set (pathOf (v "output"ₛ)) (.book wb)) s' (v' "output"ₛ) := by
    have e : action w .importXlsx v' (fs.set (pathOf (v "output"ₛ)) (.book wb)) =
        importXlsxAction w v' (fs.set (pathOf (v "output"ₛ)) (.book wb)) := rfl
    dsimp only at h2
    rw [e] at h2 ⊢
    unfold importXlsxAction at h2 ⊢
    rw [hin, files_set_at] at h2 ⊢
    dsimp only at h2 ⊢
    cases hs : importWorkbook w.sheets wb with
    | none => rw [hs] at h2; cases h2
    | some s' => exact ⟨s', rfl, rfl⟩
  obtain ⟨s', hs', he'⟩ := hi
  dsimp only at h2 hfs₁
  rw [he'] at h2 hfs₁
  have hperm : s₁.tables.Perm (s'.tables.map normTable) := by
    refine saved_perm hw hw h2 ho ?_
    rw [hfs₁]; exact hl
  have hd' : DistinctTables s' := by
    have := List.Pairwise.perm hd hperm (fun h h' => h ⟨h'.1.symm, h'.2.symm⟩)
    rw [List.pairwise_map] at this
    exact this
  have hst₁ : Stored w fs₁ (v' "output"ₛ) s₁ := by
    have := save_stored ho hd' h2
    rw [hfs₁] at this
    have e := load_stored hw this
    rw [hl] at e
    rw [Option.some.inj e]
    exact this
  have hvalid : ∀ t ∈ s'.tables, ∀ c ∈ t.columns, ValidColumn c := by
    unfold save at h2
    split at h2
    · cases h2
    · rename_i tx e
      exact (C04_accepts_iff w.sorter hw.sorter s').mp (toJson_ok e)
  have hfix := (stored_sorted hw hst).2
  have hsrc := import_export hw.sheets hb hs'
  have hset := import_settled hw.sheets hs'
  have hcol : ∀ t ∈ s.tables, ∀ c ∈ t.columns, c.type ∈ supportedTypes ∧ normColumn c = c := by
    intro t ht c hct
    have hn : t.columns.map normColumn = t.columns.map id := by
      rw [List.map_id]; exact congrArg Table.columns (hfix t ht).2
    have hn := List.map_inj_left.1 hn c hct
    have hn : normColumn c = c := hn
    have e : canon c.type = c.type := congrArg Column.type hn
    refine ⟨?_, hn⟩
    rw [← e]
    exact ((hfix t ht).1 c hct).supported
  have hnorm : ∀ t ∈ s'.tables, normTable t = t := by
    intro t ht
    unfold normTable
    have : t.columns.map normColumn = t.columns := by
      conv_rhs => rw [← List.map_id t.columns]
      refine List.map_congr_left fun x hx => ?_
      obtain ⟨un, y, hy, c, hcy, rfl, -⟩ := (hsrc t ht).2.2 x hx
      exact norm_read (hcol y hy c hcy).1 (hcol y hy c hcy).2 (hc y hy c hcy) (hvalid t ht _ hx).supported
    rw [this]
  have hin₁ : ∀ t ∈ s₁.tables, t ∈ s'.tables := by
    intro t ht
    obtain ⟨y, hy, rfl⟩ := List.mem_map.1 (hperm.mem_iff.1 ht)
    rw [hnorm y hy]
    exact hy
  refine (C119_exact w hw u u' fs₁ s₁ (by rw [hu]; exact hst₁) hu' ho' hwu hwu').2 ⟨fun t ht => ?_, fun t ht => ?_,
    ((export_iff _ _ s wb).1 hb).1⟩
  · refine (hset t (hin₁ t ht)).2.2 fun x hx => ?_
    obtain ⟨un, y, hy, c, hcy, rfl, h3⟩ := (hsrc t (hin₁ t ht)).2.2 x hx
    exact exported_settled (supported_text (hcol y hy c hcy).1).2.1 (hc y hy c hcy) h3
  · exact ⟨(hsrc t (hin₁ t ht)).1, (hset t (hin₁ t ht)).1, (hsrc t (hin₁ t ht)).2.1⟩

/-- C154: a column with both keys loses one of them, once. -/
example : ∃ (v v' u u' : Values) (fs : Files) (s s₁ : Schema), Stored demoWorld fs (v "input"ₛ) s ∧
    load demoWorld (action demoWorld .importXlsx v' (action demoWorld .exportXlsx v fs).files).files (v' "output"ₛ) = some s₁ ∧ s₁ ≠ s ∧
    load demoWorld (action demoWorld .importXlsx u' (action demoWorld .exportXlsx u
      (action demoWorld .importXlsx v' (action demoWorld .exportXlsx v fs).files).files).files).files (u' "output"ₛ) = some s₁ := by
  have hs : Stored demoWorld (oneFile keySchema) "a.json"ₛ keySchema :=
    stored_one rfl (by unfold DistinctTables; decide +kernel) (by decide +kernel)
  have hok : (action demoWorld .importXlsx (given [("input"ₛ, "a.xlsx"ₛ), ("output"ₛ, "b.json"ₛ)])
      (action demoWorld .exportXlsx (given [("input"ₛ, "a.json"ₛ), ("output"ₛ, "a.xlsx"ₛ)]) (oneFile keySchema)).files).status = .ok := by
    decide +kernel
  have hl : (load demoWorld (action demoWorld .importXlsx (given [("input"ₛ, "a.xlsx"ₛ), ("output"ₛ, "b.json"ₛ)])
      (action demoWorld .exportXlsx (given [("input"ₛ, "a.json"ₛ), ("output"ₛ, "a.xlsx"ₛ)]) (oneFile keySchema)).files).files "b.json"ₛ).any
      (fun s => decide (s.tables.Pairwise (fun a b => ¬(a.group = b.group ∧ a.name = b.name)))) = true := by
    decide +kernel
  rw [Option.any_eq_true] at hl
  obtain ⟨s₁, hl, hd⟩ := hl
  have hdist : DistinctTables s₁ := by
    unfold DistinctTables
    exact of_decide_eq_true hd
  refine ⟨given [("input"ₛ, "a.json"ₛ), ("output"ₛ, "a.xlsx"ₛ)], given [("input"ₛ, "a.xlsx"ₛ), ("output"ₛ, "b.json"ₛ)],
    given [("input"ₛ, "b.json"ₛ), ("output"ₛ, "b.xlsx"ₛ)], given [("input"ₛ, "b.xlsx"ₛ), ("output"ₛ, "c.json"ₛ)], _, _, s₁, hs, hl, ?_, ?_⟩
  · rintro rfl
    exact C119_lost _ demo_faithful _ _ (by decide +kernel) hok _ _ (.head _) _ (.head _) (.inr (.inl ⟨rfl, rfl⟩)) hl
  · exact (C154_commands_partial demoWorld demo_faithful (given [("input"ₛ, "a.json"ₛ), ("output"ₛ, "a.xlsx"ₛ)])
      (given [("input"ₛ, "a.xlsx"ₛ), ("output"ₛ, "b.json"ₛ)]) (given [("input"ₛ, "b.json"ₛ), ("output"ₛ, "b.xlsx"ₛ)])
      (given [("input"ₛ, "b.xlsx"ₛ), ("output"ₛ, "c.json"ₛ)]) _ _ hs (by decide +kernel) rfl (by decide +kernel) (by decide +kernel) hok rfl hl
      hdist rfl rfl (by decide +kernel) (by decide +kernel) (by decide +kernel)).2.2

end Octo.Cli
