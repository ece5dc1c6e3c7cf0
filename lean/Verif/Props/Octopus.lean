import Verif.Lemmas.Octopus

/-! Property theorems C01-C06 and C08-C10: the schema and its normalisation. -/

namespace Octo
open Spec

/-! ## C01 – type names -/

/-- C01: normalising a column gives the canonical type and changes nothing else. -/
theorem C01_type_is_canonical (c : Column) : c.normalizeType = { c with type := canon c.type } := by
  simp only [Column.normalizeType, toNormalizedType_eq, canon]

/-- C01: every documented alias, in any upper/lower case spelling, becomes the documented type. -/
theorem C01_alias (c : Column) (a t : Str) (h : (a, t) ∈ aliases) (hc : lower c.type = lower a) :
    c.normalizeType.type = t := by
  have key : ∀ p ∈ aliases, lower p.1 = p.1 ∧ aliases.lookup p.1 = some p.2 := by decide +kernel
  obtain ⟨h1, h2⟩ := key _ h
  rw [normalizeType_type, canon, hc, h1, h2]; rfl

example : (Column.normalizeType { name := "id"ₛ, type := "BigInt"ₛ }).type = "int64"ₛ :=
  C01_alias _ "bigint"ₛ _ (by decide) (by decide)

/-- C01: a type name that is no alias is only lower-cased. -/
theorem C01_other (c : Column) (h : lower c.type ∉ aliases.map Prod.fst) :
    c.normalizeType.type = lower c.type := by
  rw [normalizeType_type, canon]
  cases hh : aliases.lookup (lower c.type) with
  | none => rfl
  | some u => exact absurd (List.mem_map_of_mem (f := Prod.fst) (lookup_mem hh)) h

example : lower "VarChar"ₛ ∉ aliases.map Prod.fst := by decide

/-- C01: only the lower-cased spelling matters. -/
theorem C01_case_insensitive (c d : Column) (h : lower c.type = lower d.type) :
    c.normalizeType.type = d.normalizeType.type := by
  rw [normalizeType_type, normalizeType_type, canon, canon, h]

example : lower "INTEGER"ₛ = lower "integer"ₛ := by decide

/-- C01: a supported type is left alone. -/
theorem C01_supported_fixed (c : Column) (h : c.type ∈ supportedTypes) : c.normalizeType = c := by
  rw [C01_type_is_canonical, canon_of_supported h]

example : Column.normalizeType { name := "a"ₛ, type := "text16"ₛ } = { name := "a"ₛ, type := "text16"ₛ } :=
  C01_supported_fixed _ (by decide)

/-- C01: every alias leads to a supported type, never to another alias. -/
theorem C01_alias_supported (a t : Str) (h : (a, t) ∈ aliases) :
    t ∈ supportedTypes ∧ t ∉ aliases.map Prod.fst := by
  have key : ∀ p ∈ aliases, p.2 ∈ supportedTypes ∧ p.2 ∉ aliases.map Prod.fst := by decide +kernel
  exact key _ h

example : ("long"ₛ, "int64"ₛ) ∈ aliases := by decide

/-- C01: normalising twice is normalising once. -/
theorem C01_idempotent (c : Column) : c.normalizeType.normalizeType = c.normalizeType := by
  simp only [C01_type_is_canonical, canon_canon]

/-! ## C02 – normalisation is a frame-preserving map -/

/-- C02: if normalisation succeeds, the result holds the original tables (as a multiset), each with
its columns in order, changed only as `Spec.normColumn` allows; author, name, version stay. -/
theorem C02_normalize_frame (sorter : List Table → List Table) (hs : SortSpec sorter) (s : Schema)
    (h : (s.normalize sorter).2 = none) :
    ((s.normalize sorter).1.tables).Perm (s.tables.map normTable) ∧
    (s.normalize sorter).1.author = s.author ∧
    (s.normalize sorter).1.name = s.name ∧
    (s.normalize sorter).1.version = s.version := by
  refine ⟨?_, rfl, rfl, rfl⟩
  have hv := (normTables_none_iff _).1 h
  simp only [Schema.normalize, normTables_ok hv]
  exact ((hs s.tables).1).map _

/-- C02: the frame on one column, spelled out. -/
theorem C02_column_frame (c : Column) :
    (normColumn c).name = c.name ∧ (normColumn c).description = c.description ∧
    (normColumn c).size = c.size ∧ (normColumn c).scale = c.scale ∧
    (normColumn c).notNull = c.notNull ∧ (normColumn c).primaryKey = c.primaryKey ∧
    (normColumn c).uniqueKey = c.uniqueKey ∧ (normColumn c).defaultValue = c.defaultValue ∧
    (normColumn c).onUpdate = c.onUpdate ∧ (normColumn c).values = c.values ∧
    (normColumn c).ref = c.ref ∧
    ((normColumn c).autoIncremental = true ↔
      c.autoIncremental = true ∧ (normColumn c).type ∈ integerTypes) := by
  refine ⟨rfl, rfl, rfl, rfl, rfl, rfl, rfl, rfl, rfl, rfl, rfl, ?_⟩
  simp [normColumn]

/-- A two-table schema used as a concrete case below. -/
def exSchema : Schema :=
  { author := "me"ₛ, name := "demo"ₛ, version := "1"ₛ
    tables := [
      { name := "user"ₛ, group := "b"ₛ, columns := [
          { name := "id"ₛ, type := "LONG"ₛ, primaryKey := true, autoIncremental := true, notNull := true },
          { name := "name"ₛ, type := "string"ₛ, size := 40, uniqueKey := true, autoIncremental := true }] },
      { name := "group"ₛ, group := "a"ₛ, columns := [
          { name := "id"ₛ, type := "int"ₛ, primaryKey := true },
          { name := "kind"ₛ, type := "enum"ₛ, values := ["x"ₛ, "y"ₛ] }] } ] }

example : (exSchema.normalize tableSort).2 = none := by decide +kernel
example : ((exSchema.normalize tableSort).1.tables).Perm (exSchema.tables.map normTable) :=
  (C02_normalize_frame tableSort tableSort_spec exSchema (by decide +kernel)).1

/-! ## C03 – order of tables -/

/-- The keys (group, name) survive the table loop. -/
theorem normTables_keys (ts : List Table) :
    (normTables ts).1.map (fun t => (t.group, t.name)) = ts.map (fun t => (t.group, t.name)) := by
  induction ts with
  | nil => rfl
  | cons t ts ih =>
    simp only [normTables]
    split <;> simp_all

/-- C03: after `Normalize` (successful or not) the tables are sorted by (group, name). -/
theorem C03_sorted (sorter : List Table → List Table) (hs : SortSpec sorter) (s : Schema) :
    ((s.normalize sorter).1.tables).Pairwise (fun a b => ¬Before b a) := by
  have h1 := (hs s.tables).2
  let R : Str × Str → Str × Str → Prop := fun a b =>
    ¬(strLt b.1 a.1 = true ∨ (b.1 = a.1 ∧ strLt b.2 a.2 = true))
  have h2 : ((sorter s.tables).map (fun t => (t.group, t.name))).Pairwise R := by
    rw [List.pairwise_map]
    refine h1.imp ?_
    intro a b h
    have : ¬Before b a := by rw [← tableLess_iff, h]; simp
    exact this
  rw [← normTables_keys, List.pairwise_map] at h2
  exact h2

/-- C03: with distinct (group, name) keys the result does not depend on the sorting algorithm nor
on the order of the tables in the input file (including whether and which error is reported). -/
theorem C03_schedule_independent (sorter sorter' : List Table → List Table)
    (hs : SortSpec sorter) (hs' : SortSpec sorter') (s s' : Schema)
    (hmeta : s.author = s'.author ∧ s.name = s'.name ∧ s.version = s'.version)
    (hp : s.tables.Perm s'.tables) (hd : DistinctTables s) :
    s.normalize sorter = s'.normalize sorter' := by
  have h1 := hs s.tables
  have h2 := hs' s'.tables
  have hd' : (sorter s.tables).Pairwise (fun a b => ¬(a.group = b.group ∧ a.name = b.name)) :=
    List.Pairwise.perm hd h1.1.symm (fun h h' => h ⟨h'.1.symm, h'.2.symm⟩)
  have : sorter s.tables = sorter' s'.tables :=
    sorted_tables_unique hd' h1.2 h2.2 (h1.1.trans (hp.trans h2.1.symm))
  simp [Schema.normalize, this, hmeta.1, hmeta.2.1, hmeta.2.2]

example : DistinctTables exSchema := by
  unfold DistinctTables exSchema
  simp

/-- Canonicalising is stable on columns. -/
theorem normColumn_normColumn (c : Column) : normColumn (normColumn c) = normColumn c := by
  simp [normColumn, canon_canon]

theorem validColumn_normColumn {c : Column} (h : ValidColumn c) : ValidColumn (normColumn c) :=
  ⟨h.named, by simpa [normColumn, canon_canon] using h.supported,
   by simpa [normColumn, canon_canon] using h.setValues,
   by simpa [normColumn, canon_canon] using h.enumValues⟩

/-- C03: a normalised schema is a fixed point of normalisation. -/
theorem C03_idempotent (sorter sorter' : List Table → List Table)
    (hs : SortSpec sorter) (hs' : SortSpec sorter') (s : Schema) (hd : DistinctTables s)
    (h : (s.normalize sorter).2 = none) :
    (s.normalize sorter).1.normalize sorter' = ((s.normalize sorter).1, none) := by
  have hv := (normTables_none_iff _).1 h
  have hn := normTables_ok hv
  set ts := sorter s.tables with hts
  have h1 := hs s.tables
  have hd1 : ts.Pairwise (fun a b => ¬(a.group = b.group ∧ a.name = b.name)) :=
    List.Pairwise.perm hd h1.1.symm (fun h h' => h ⟨h'.1.symm, h'.2.symm⟩)
  have hd2 : (ts.map normTable).Pairwise (fun a b => ¬(a.group = b.group ∧ a.name = b.name)) := by
    rw [List.pairwise_map]; exact hd1
  have hsorted : (ts.map normTable).Pairwise (fun a b => tableLess b a = false) := by
    rw [List.pairwise_map]; exact h1.2
  have h2 := hs' (ts.map normTable)
  have heq : sorter' (ts.map normTable) = ts.map normTable :=
    (sorted_tables_unique hd2 hsorted h2.2 h2.1.symm).symm
  have hv2 : ∀ t ∈ ts.map normTable, ValidTable t := by
    intro t ht
    obtain ⟨u, hu, rfl⟩ := List.mem_map.1 ht
    intro c hc
    obtain ⟨d, hdc, rfl⟩ := List.mem_map.1 hc
    exact validColumn_normColumn (hv u hu d hdc)
  have hmap : (ts.map normTable).map normTable = ts.map normTable := by
    rw [List.map_map]
    apply List.map_congr_left
    intro t _
    simp [normTable, normColumn_normColumn]
  have hres : s.normalize sorter = ({ s with tables := ts.map normTable }, none) := by
    simp [Schema.normalize, ← hts, hn]
  rw [hres]
  simp only [Schema.normalize, heq, normTables_ok hv2, hmap]

/-- C03: the example can be normalised, and its tables are distinct. -/
example := C03_idempotent tableSort tableSort tableSort_spec tableSort_spec exSchema (by unfold DistinctTables exSchema; simp) (by decide +kernel)

/-! ## C04 – exactly the valid schemas are accepted -/

/-- C04: `Normalize` succeeds exactly on schemas all of whose columns are acceptable. -/
theorem C04_accepts_iff (sorter : List Table → List Table) (hs : SortSpec sorter) (s : Schema) :
    (s.normalize sorter).2 = none ↔ ∀ t ∈ s.tables, ∀ c ∈ t.columns, ValidColumn c := by
  simp only [Schema.normalize, normTables_none_iff, ValidTable]
  constructor
  · intro h t ht; exact h t ((hs s.tables).1.mem_iff.2 ht)
  · intro h t ht; exact h t ((hs s.tables).1.mem_iff.1 ht)

/-- C04: the table named in the error has an unacceptable column and every table before it in
(group, name) order is acceptable. -/
theorem C04_first_error (sorter : List Table → List Table) (hs : SortSpec sorter) (s : Schema)
    (name : Str) (e : ColErr) (h : (s.normalize sorter).2 = some (name, e)) :
    ∃ t ∈ s.tables, t.name = name ∧ ¬ValidTable t ∧
      ∀ u ∈ s.tables, Before u t → ValidTable u := by
  have hv : ¬∀ t ∈ sorter s.tables, ValidTable t := by
    intro hv
    have := (normTables_none_iff _).2 hv
    simp only [Schema.normalize] at h
    rw [this] at h; cases h
  obtain ⟨pre, t, post, e', h1, h2, h3, h4⟩ := normTables_err hv
  have h5 := hs s.tables
  simp only [Schema.normalize] at h
  rw [h4] at h
  simp only [Option.some.injEq, Prod.mk.injEq] at h
  refine ⟨t, h5.1.mem_iff.1 (by simp [h1]), h.1, h3, ?_⟩
  intro u hu hb
  have hu' : u ∈ sorter s.tables := h5.1.mem_iff.2 hu
  rw [h1, List.mem_append, List.mem_cons] at hu'
  rw [h1, List.pairwise_append, List.pairwise_cons] at h5
  rcases hu' with hu' | rfl | hu'
  · exact h2 u hu'
  · exfalso
    rcases hb with hb | ⟨_, hb⟩ <;> (rw [strLt_irrefl] at hb; cases hb)
  · exfalso
    have := h5.2.2.1.1 u hu'
    rw [(tableLess_iff u t).2 hb] at this; cases this

/-- C04: the auto-increment flag alone never makes a column unacceptable. -/
theorem C04_autoinc_never_error (c : Column) (b : Bool) :
    ValidColumn { c with autoIncremental := b } ↔ ValidColumn c :=
  ⟨fun h => ⟨h.named, h.supported, h.setValues, h.enumValues⟩,
   fun h => ⟨h.named, h.supported, h.setValues, h.enumValues⟩⟩

/-- Concrete rejected schema: a set column without values. -/
def exBad : Schema :=
  { tables := [
      { name := "t1"ₛ, columns := [{ name := "a"ₛ, type := "set"ₛ }, { name := "b"ₛ, type := "BIGINT"ₛ }] },
      { name := "t0"ₛ, columns := [{ name := "id"ₛ, type := "int"ₛ }] }] }

example : (exBad.normalize tableSort).2 = some ("t1"ₛ, .invalidValues) := by decide +kernel

/-! ## C05 – loading -/

/-- C05 as a user expects it: whatever `LoadSchema` returns is validated and canonical. -/
def C05_claim (sorter : List Table → List Table) : Prop :=
  ∀ (decoded : Option Schema) (s : Schema), loadSchema sorter true decoded = some s →
    ∀ t ∈ s.tables, ∀ c ∈ t.columns, ValidColumn c ∧ c.type ∈ supportedTypes

/-- C05 fails for the code: format/octopus/io.go line 20 drops the error of `Normalize`.  Witness:
the schema `exBad` is loaded "successfully" although a set column has no values, and the following
column keeps its raw type `BIGINT`. -/
theorem C05_violated (sorter : List Table → List Table) (hs : SortSpec sorter) :
    ¬C05_claim sorter := by
  intro h
  have h1 := h (some exBad) _ rfl
  have hn : exBad.normalize sorter = exBad.normalize tableSort :=
    C03_schedule_independent sorter tableSort hs tableSort_spec exBad exBad ⟨rfl, rfl, rfl⟩
      (List.Perm.refl _) (by unfold DistinctTables exBad; simp)
  beta_reduce at h1
  rw [hn] at h1
  have hmem : { name := "t1"ₛ, columns := [{ name := "a"ₛ, type := "set"ₛ }, { name := "b"ₛ, type := "BIGINT"ₛ }] }
      ∈ (exBad.normalize tableSort).1.tables := by decide +kernel
  have h2 := (h1 _ hmem { name := "b"ₛ, type := "BIGINT"ₛ } (by simp)).2
  exact absurd h2 (by decide)

/-- C05: nothing is ever rejected – every decodable octopus file is loaded without error. -/
theorem C05_never_reports (sorter : List Table → List Table) (s : Schema) :
    (loadSchema sorter true (some s)).isSome = true := rfl

/-- C05, the part that holds: if all columns of the file are acceptable, the loaded schema is
fully validated and canonical.  Missing: rejection of files with unacceptable columns. -/
theorem C05_load_partial (sorter : List Table → List Table) (hs : SortSpec sorter) (s r : Schema)
    (hv : ∀ t ∈ s.tables, ∀ c ∈ t.columns, ValidColumn c)
    (h : loadSchema sorter true (some s) = some r) :
    ∀ t ∈ r.tables, ∀ c ∈ t.columns, ValidColumn c ∧ c.type ∈ supportedTypes := by
  have h0 := (C04_accepts_iff sorter hs s).2 hv
  have hp := (C02_normalize_frame sorter hs s h0).1
  simp only [loadSchema, if_true, Option.map_some, Option.some.injEq] at h
  subst h
  intro t ht c hc
  obtain ⟨u, hu, rfl⟩ := List.mem_map.1 (hp.mem_iff.1 ht)
  obtain ⟨d, hd, rfl⟩ := List.mem_map.1 hc
  exact ⟨validColumn_normColumn (hv u hu d hd), (hv u hu d hd).supported⟩

example : ∀ t ∈ exSchema.tables, ∀ c ∈ t.columns, ValidColumn c :=
  (C04_accepts_iff tableSort tableSort_spec exSchema).1 (by decide +kernel)

/-! ## C06 – function values -/

/-- C06: a function default is read back as that function. -/
theorem C06_default_fn (c : Column) (f : Str) :
    (c.setDefaultValueFn f).getDefaultValue = (f, true) := by
  simp only [Column.setDefaultValueFn, Column.getDefaultValue, getValue, hasPrefix_append, if_true,
    List.drop_left]

/-- C06: a function on-update value is read back as that function. -/
theorem C06_onupdate_fn (c : Column) (f : Str) :
    (c.setOnUpdateFn f).getOnUpdate = (f, true) := by
  simp only [Column.setOnUpdateFn, Column.getOnUpdate, getValue, hasPrefix_append, if_true,
    List.drop_left]

/-- C06: a plain value that does not start with the marker `fn::` is read back unchanged, for the
default and for the on-update attribute. -/
theorem C06_plain (c : Column) (v : Str) (h : ¬∃ r, v = "fn::"ₛ ++ r) :
    (c.setDefaultValue (some v)).getDefaultValue = (v, false) ∧
    (c.setOnUpdate (some v)).getOnUpdate = (v, false) := by
  have : hasPrefix v fnPrefix = false := by
    rw [← Bool.not_eq_true, hasPrefix_iff]; exact h
  simp [Column.setDefaultValue, Column.getDefaultValue, Column.setOnUpdate, Column.getOnUpdate,
    getValue, this]

example : ¬∃ r, "CURRENT_TIMESTAMP"ₛ = "fn::"ₛ ++ r := by simp

/-- C06: setting one of the two attributes does not disturb the other. -/
theorem C06_independent (c : Column) (f : Str) :
    (c.setDefaultValueFn f).getOnUpdate = c.getOnUpdate ∧
    (c.setOnUpdateFn f).getDefaultValue = c.getDefaultValue := ⟨rfl, rfl⟩

/-- C06: the marker makes plain values ambiguous – exactly the plain values with the marker are
misread as functions. -/
theorem C06_plain_with_marker_misread (c : Column) (r : Str) :
    (c.setDefaultValue (some ("fn::"ₛ ++ r))).getDefaultValue = (r, true) := by
  simp only [Column.setDefaultValue, Column.getDefaultValue, getValue, fnPrefix, Option.getD_some,
    hasPrefix_append, if_true, List.drop_left]

/-! ## C08 – lookups -/

theorem find?_name_isSome {α : Type} (key : α → Str) (l : List α) (k : Str) :
    (l.find? (fun x => key x == k)).isSome = true ↔ ∃ x ∈ l, key x = k := by
  simp [List.find?_isSome]

theorem find?_name_spec {α : Type} {key : α → Str} {l : List α} {k : Str} {x : α}
    (h : l.find? (fun x => key x == k) = some x) : x ∈ l ∧ key x = k :=
  ⟨List.mem_of_find?_eq_some h, by simpa using List.find?_some h⟩

theorem find?_unique {α : Type} {key : α → Str} {l : List α}
    (hd : (l.map key).Nodup) {x : α} (hx : x ∈ l) :
    l.find? (fun y => key y == key x) = some x := by
  induction l with
  | nil => cases hx
  | cons y l ih =>
    simp only [List.map_cons, List.nodup_cons] at hd
    rcases List.mem_cons.1 hx with rfl | hx
    · simp [List.find?]
    · have : key y ≠ key x := fun e => hd.1 (e ▸ List.mem_map_of_mem (f := key) hx)
      rw [List.find?_cons_of_neg (by simpa using this)]; exact ih hd.2 hx

/-- C08: `TableByName` finds a table of that name exactly when there is one. -/
theorem C08_tableByName (s : Schema) (n : Str) :
    ((s.tableByName n).isSome = true ↔ ∃ t ∈ s.tables, t.name = n) ∧
    ∀ t, s.tableByName n = some t → t ∈ s.tables ∧ t.name = n :=
  ⟨find?_name_isSome _ _ _, fun _ h => find?_name_spec h⟩

/-- C08: `TablesByName` contains a table of that name exactly when there is one. -/
theorem C08_tablesByName (s : Schema) (n : Str) :
    ((s.tablesByName n).isSome = true ↔ ∃ t ∈ s.tables, t.name = n) ∧
    ∀ t, s.tablesByName n = some t → t ∈ s.tables ∧ t.name = n := by
  constructor
  · simp [Schema.tablesByName, lastBy, List.find?_isSome]
  · intro t h
    have := find?_name_spec (key := Table.name) h
    exact ⟨by simpa using this.1, this.2⟩

/-- C08: `ColumnByName` and `ColumnNameMap` contain a column exactly when there is one. -/
theorem C08_columns (t : Table) (n : Str) :
    ((t.columnByName n).isSome = true ↔ ∃ c ∈ t.columns, c.name = n) ∧
    (∀ c, t.columnByName n = some c → c ∈ t.columns ∧ c.name = n) ∧
    ((t.columnNameMap n).isSome = true ↔ ∃ c ∈ t.columns, c.name = n) ∧
    (∀ c, t.columnNameMap n = some c → c ∈ t.columns ∧ c.name = n) := by
  refine ⟨find?_name_isSome _ _ _, fun _ h => find?_name_spec h, ?_, ?_⟩
  · simp [Table.columnNameMap, lastBy, List.find?_isSome]
  · intro c h
    have := find?_name_spec (key := Column.name) h
    exact ⟨by simpa using this.1, this.2⟩

/-- C08: `IndexByName` finds an index of that name exactly when there is one. -/
theorem C08_indexByName (t : Table) (n : Str) :
    ((t.indexByName n).isSome = true ↔ ∃ i ∈ t.indices, i.name = n) ∧
    ∀ i, t.indexByName n = some i → i ∈ t.indices ∧ i.name = n :=
  ⟨find?_name_isSome _ _ _, fun _ h => find?_name_spec h⟩

/-- C08: with distinct names both lookup styles return the element itself. -/
theorem C08_agree (s : Schema) (t : Table) (hd : (s.tables.map Table.name).Nodup) (ht : t ∈ s.tables) :
    s.tableByName t.name = some t ∧ s.tablesByName t.name = some t := by
  refine ⟨find?_unique hd ht, ?_⟩
  apply find?_unique (key := Table.name)
  · rw [List.map_reverse]; exact List.nodup_reverse.2 hd
  · simpa using ht

theorem C08_agree_columns (t : Table) (c : Column) (hd : (t.columns.map Column.name).Nodup)
    (hc : c ∈ t.columns) :
    t.columnByName c.name = some c ∧ t.columnNameMap c.name = some c := by
  refine ⟨find?_unique hd hc, ?_⟩
  apply find?_unique (key := Column.name)
  · rw [List.map_reverse]; exact List.nodup_reverse.2 hd
  · simpa using hc

example : (exSchema.tables.map Table.name).Nodup := by decide

/-- C08: with duplicate names the two lookup styles disagree (first against last). -/
theorem C08_duplicates_disagree (t u : Table) (s : Schema) (hn : t.name = u.name) (hne : t ≠ u)
    (hs : s.tables = [t, u]) : s.tableByName t.name ≠ s.tablesByName t.name := by
  have h1 : s.tableByName t.name = some t := by simp [Schema.tableByName, hs]
  have h2 : s.tablesByName t.name = some u := by simp [Schema.tablesByName, lastBy, hs, hn]
  rw [h1, h2]
  simpa using hne

example : ∃ t u : Table, t.name = u.name ∧ t ≠ u :=
  ⟨{ name := "a"ₛ, group := "x"ₛ }, { name := "a"ₛ, group := "y"ₛ }, rfl, by decide⟩

/-- C08: a reference resolves exactly when its table is found and has the column; then the result is
a table of the schema with that name and one of its columns with that name.  When table names are
distinct this is: some table of that name has a column of that name. -/
theorem C08_findReference (s : Schema) (r : Reference) (hd : (s.tables.map Table.name).Nodup) :
    ((s.findReference r).isSome = true ↔
      ∃ t ∈ s.tables, t.name = r.table ∧ ∃ c ∈ t.columns, c.name = r.column) ∧
    ∀ t c, s.findReference r = some (t, c) →
      t ∈ s.tables ∧ t.name = r.table ∧ c ∈ t.columns ∧ c.name = r.column := by
  constructor
  · constructor
    · intro h
      unfold Schema.findReference at h
      cases h1 : s.tableByName r.table with
      | none => rw [h1] at h; cases h
      | some t =>
        rw [h1] at h
        cases h2 : t.columnByName r.column with
        | none => simp [h2] at h
        | some c =>
          have ha := find?_name_spec h1
          have hb := find?_name_spec h2
          exact ⟨t, ha.1, ha.2, c, hb.1, hb.2⟩
    · rintro ⟨t, ht, hn, c, hc, hcn⟩
      unfold Schema.findReference
      have h1 : s.tableByName r.table = some t := hn ▸ (C08_agree s t hd ht).1
      have h2 : (t.columnByName r.column).isSome = true :=
        (C08_columns t r.column).1.2 ⟨c, hc, hcn⟩
      rw [h1]
      cases h3 : t.columnByName r.column with
      | none => rw [h3] at h2; cases h2
      | some d => simp [h3]
  · intro t c h
    unfold Schema.findReference at h
    cases h1 : s.tableByName r.table with
    | none => rw [h1] at h; cases h
    | some t' =>
      rw [h1] at h
      cases h2 : t'.columnByName r.column with
      | none => simp [h2] at h
      | some c' =>
        simp only [h2, Option.some.injEq, Prod.mk.injEq] at h
        obtain ⟨rfl, rfl⟩ := h
        have ha := find?_name_spec h1
        have hb := find?_name_spec h2
        exact ⟨ha.1, ha.2, hb.1, hb.2⟩

example : (exSchema.findReference ⟨"user"ₛ, "id"ₛ, []⟩).isSome = true := by decide

/-! ## C09 – groups -/

theorem foldl_add_group (ts : List Table) (s : StringSet) (g : Str) :
    g ∈ (ts.foldl (fun g t => g.add t.group) s).keys ↔ g ∈ s.keys ∨ ∃ t ∈ ts, t.group = g := by
  induction ts generalizing s with
  | nil => simp
  | cons t ts ih =>
    rw [List.foldl_cons, ih, StringSet.mem_add]
    simp only [List.mem_cons, exists_eq_or_imp]
    constructor
    · rintro ((h | h) | h)
      · exact Or.inr (Or.inl h.symm)
      · exact Or.inl h
      · exact Or.inr (Or.inr h)
    · rintro (h | h | h)
      · exact Or.inl (Or.inr h)
      · exact Or.inl (Or.inl h.symm)
      · exact Or.inr h

theorem foldl_add_nodup (ts : List Table) (s : StringSet) (h : s.keys.Nodup) :
    (ts.foldl (fun g t => g.add t.group) s).keys.Nodup := by
  induction ts generalizing s with
  | nil => exact h
  | cons t ts ih => exact ih _ (StringSet.nodup_add h _)

/-- C09: the groups are exactly the groups of the tables, each once, in strictly ascending order,
for every map iteration order. -/
theorem C09_groups (s : Schema) (ord : List Str → List Str) (ho : ∀ l, (ord l).Perm l) :
    (∀ g, g ∈ s.groupsOrd ord ↔ ∃ t ∈ s.tables, t.group = g) ∧
    (s.groupsOrd ord).Pairwise (fun a b => strLt a b = true) ∧
    (s.groupsOrd ord).Nodup := by
  have hnd := foldl_add_nodup s.tables StringSet.empty (by simp [StringSet.empty])
  have hp := ho (s.tables.foldl (fun g t => g.add t.group) StringSet.empty).keys
  have hnd2 : (ord (s.tables.foldl (fun g t => g.add t.group) StringSet.empty).keys).Nodup :=
    hp.nodup_iff.2 hnd
  refine ⟨?_, ?_, ?_⟩
  · intro g
    simp only [Schema.groupsOrd, StringSet.sliceOrd, mem_sortStrings, hp.mem_iff, foldl_add_group]
    simp [StringSet.empty]
  · exact sortStrings_strict (sortStrings_nodup hnd2)
  · exact sortStrings_nodup (sortStrings_nodup hnd2)

/-- C09: the result does not depend on the schedule or on the order of the tables. -/
theorem C09_schedule_independent (s s' : Schema) (ord ord' : List Str → List Str)
    (ho : ∀ l, (ord l).Perm l) (ho' : ∀ l, (ord' l).Perm l)
    (hp : s.tables.Perm s'.tables) :
    s.groupsOrd ord = s'.groupsOrd ord' := by
  obtain ⟨h1, h2, h3⟩ := C09_groups s ord ho
  obtain ⟨g1, g2, g3⟩ := C09_groups s' ord' ho'
  apply sorted_perm_unique (h2.imp strLt_le) (g2.imp strLt_le)
  rw [List.perm_ext_iff_of_nodup h3 g3]
  intro g
  rw [h1, g1]
  constructor <;> rintro ⟨t, ht, e⟩
  · exact ⟨t, hp.mem_iff.1 ht, e⟩
  · exact ⟨t, hp.mem_iff.2 ht, e⟩

example : exSchema.groupsOrd List.reverse = ["a"ₛ, "b"ₛ] := by decide

/-! ## C10 – the groups option -/

/-- C10: the empty option selects every table. -/
theorem C10_empty (t : Table) : passes (getTableFilterFn []) t = true := rfl

/-- C10: an option naming groups (joined by commas) selects exactly the tables of those groups. -/
theorem C10_selects (gs : List Str) (hg : ∀ g ∈ gs, ',' ∉ g) (hne : join [','] gs ≠ []) (t : Table) :
    passes (getTableFilterFn (join [','] gs)) t = true ↔ t.group ∈ gs := by
  have hgs : gs ≠ [] := by rintro rfl; exact hne rfl
  simp only [getTableFilterFn, if_neg hne, passes, split_join hgs hg, List.any_eq_true, beq_iff_eq]
  constructor
  · rintro ⟨g, h, e⟩; rw [e]; exact h
  · intro h; exact ⟨_, h, rfl⟩

example : passes (getTableFilterFn "a,b"ₛ) { name := "t"ₛ, group := "b"ₛ } = true :=
  (C10_selects ["a"ₛ, "b"ₛ] (by decide) (by decide) _).2 (by decide)

/-- C10: every non-empty option string is of that form, so the previous theorem covers all options. -/
theorem C10_all_options (o : Str) :
    ∃ gs, o = join [','] gs ∧ ∀ g ∈ gs, ',' ∉ g :=
  ⟨split ',' o, (join_split ',' o).symm, fun _ h => not_mem_split h⟩

/-- C10: entries are compared literally: a blank after the comma makes the entry a different group. -/
theorem C10_no_trimming (a b : Str) (ha : ',' ∉ a) (hb : ',' ∉ b) (t : Table)
    (hg : t.group = b) (hab : a ≠ b) :
    passes (getTableFilterFn (a ++ [',', ' '] ++ b)) t = false := by
  have h : a ++ [',', ' '] ++ b = join [','] [a, ' ' :: b] := by simp [join]
  rw [h, ← Bool.not_eq_true, C10_selects]
  · simp only [hg, List.mem_cons, List.not_mem_nil, or_false, not_or]
    refine ⟨fun e => hab e.symm, ?_⟩
    intro e
    have := congrArg List.length e
    simp at this
  · intro g hg'
    simp only [List.mem_cons, List.not_mem_nil, or_false] at hg'
    rcases hg' with rfl | rfl
    · exact ha
    · simp [hb]
  · simp [join]

example : passes (getTableFilterFn "a, b"ₛ) { name := "t"ₛ, group := "b"ₛ } = false :=
  C10_no_trimming "a"ₛ "b"ₛ (by decide) (by decide) _ rfl (by decide)

end Octo
