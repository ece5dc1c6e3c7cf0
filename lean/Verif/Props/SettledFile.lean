import Verif.Props.SettledSheet

/-! C154 on the command line, exactly: files that were imported from a workbook. -/

namespace Octo.Cli
open Xlsx Spec

/-- What a column in a file says that a cell can say as well: no decimals with a size of zero, no size with a type whose name has a digit,
and no on-update value of its own. -/
def SheetSettledFile (c : Column) : Prop :=
  (c.size = 0 → c.scale = 0) ∧ (c.size ≠ 0 → ∀ x ∈ c.type, isAlpha x = true) ∧ (c.onUpdate = [] ∨ c.onUpdate = c.defaultValue)

instance (c : Column) : Decidable (SheetSettledFile c) := inferInstanceAs (Decidable (_ ∧ _ ∧ _))

/-- A column that was read and normalised can be represented again, but for these things. -/
theorem sheetColumn_norm {un : Bool} {r : Row} (h1 : trimSpace (cell r 1) ≠ []) (hv : ValidColumn (readColumn un r))
    (h2 : SheetSettledFile (normColumn (readColumn un r))) : SheetColumn (normColumn (readColumn un r)) := by
  have hshape := readColumn_shape un h1
  obtain ⟨s1, s2, -, s4, s5, -⟩ := supported_text hv.supported
  refine ⟨hshape.name, fun h0 => ⟨h2.1 h0, ?_, s5, s4⟩, fun h0 => ⟨s1, h2.2.1 h0⟩, hshape.keys, attrText_attr _ _, h2.2.2,
    hshape.description, hshape.values, fun x hx => sheetRef_of_parse hx⟩
  exact (typeMatch_none_iff _).1 (typeMatch_none_of_no_paren _ s2)

/-- A table that was read and normalised can be represented again, but for these things. -/
theorem sheetTable_norm {group : Str} {rows : List Row} {ts : List Table} (h : readGroupSheet group rows = some ts) :
    ∀ t ∈ ts, ValidTable t → (SheetTable (normTable t) ↔ ∀ c ∈ (normTable t).columns, SheetSettledFile c) := by
  intro t ht hv
  have hshape := readGroupSheet_shape h t ht
  constructor
  · intro hst c hc
    have := hst.columns c hc
    exact ⟨fun h0 => (this.plain h0).1, fun h0 => (this.sized h0).2, this.onUpdate⟩
  · intro hs
    cases rows with
    | nil => cases h; cases ht
    | cons hdr rs =>
      obtain ⟨un, hall⟩ := sheet_columns h
      obtain ⟨a, b, c⟩ := hall t ht
      refine ⟨hshape.name, a, hshape.description, fun x hx => ?_, hshape.indexNames, fun i hi => ?_⟩
      · obtain ⟨y, hy, rfl⟩ := List.mem_map.1 (show x ∈ t.columns.map normColumn from hx)
        obtain ⟨r, -, rfl, h1, -⟩ := c y hy
        exact sheetColumn_norm h1 (hv _ hy) (hs _ hx)
      · exact ⟨(b i hi).1, (hshape.indices i hi).1, fun x hx => ⟨(hshape.indices i hi).2 x hx, (b i hi).2 x hx⟩⟩

/-- **C154** on the command line, exactly: a file that was imported from a workbook, whoever has made it, is the same for every other command
after it has been exported to a workbook and imported again, if and only if no column has decimals with a size of zero, a size with a type
whose name has a digit, or an on-update value of its own, and the library accepts the names of the sheets. -/
theorem C154_file_exact (w : World) (hw : Faithful w) (v u u' : Values) (fs : Files)
    (h1 : (action w .importXlsx v fs).status = .ok) (ho : IsOctopus (v "output"ₛ)) {fs₁ : Files} (hfs₁ : (action w .importXlsx v fs).files = fs₁)
    {s₁ : Schema} (hl : load w fs₁ (v "output"ₛ) = some s₁) (hd : DistinctTables s₁)
    (hu : u "input"ₛ = v "output"ₛ) (hu' : u' "input"ₛ = u "output"ₛ) (ho' : IsOctopus (u' "output"ₛ))
    (hwu : w.writable (pathOf (u "output"ₛ)) = true) (hwu' : w.writable (pathOf (u' "output"ₛ)) = true) :
    ((action w .exportXlsx u fs₁).status = .ok ∧
      (action w .importXlsx u' (action w .exportXlsx u fs₁).files).status = .ok ∧
      load w (action w .importXlsx u' (action w .exportXlsx u fs₁).files).files (u' "output"ₛ) = some s₁) ↔
    (∀ t ∈ s₁.tables, ∀ c ∈ t.columns, SheetSettledFile c) ∧ (∀ t ∈ s₁.tables, t.group ≠ [] ∧ w.accepts t.group = true) ∧
      w.accepts "Meta"ₛ = true := by
  have hi : ∃ wb s', importWorkbook w.sheets wb = some s' ∧ action w .importXlsx v fs = save w fs s' (v "output"ₛ) := by
    have e : action w .importXlsx v fs = importXlsxAction w v fs := rfl
    rw [e] at h1 ⊢
    unfold importXlsxAction at h1 ⊢
    split at h1
    · rename_i wb hwb
      cases hs : importWorkbook w.sheets wb with
      | none => rw [hs] at h1; cases h1
      | some s' => exact ⟨wb, s', hs, rfl⟩
    · cases h1
  obtain ⟨wb, s', hs', he'⟩ := hi
  rw [he'] at h1 hfs₁
  have hperm : s₁.tables.Perm (s'.tables.map normTable) := by
    refine saved_perm hw hw h1 ho ?_
    rw [hfs₁]; exact hl
  have hd' : DistinctTables s' := by
    have := List.Pairwise.perm hd hperm (fun h h' => h ⟨h'.1.symm, h'.2.symm⟩)
    rw [List.pairwise_map] at this
    exact this
  have hst₁ : Stored w fs₁ (v "output"ₛ) s₁ := by
    have := save_stored ho hd' h1
    rw [hfs₁] at this
    have e := load_stored hw this
    rw [hl] at e
    rw [Option.some.inj e]
    exact this
  have hvalid : ∀ t ∈ s'.tables, ValidTable t := by
    unfold save at h1
    split at h1
    · cases h1
    · rename_i tx e
      exact (C04_accepts_iff w.sorter hw.sorter s').mp (toJson_ok e)
  rw [C119_exact w hw u u' fs₁ s₁ (by rw [hu]; exact hst₁) hu' ho' hwu hwu']
  obtain ⟨et, hall⟩ := import_tables hs'
  have key : ∀ t ∈ s₁.tables, t.group ≠ "Meta"ₛ ∧ (SheetTable t ↔ ∀ c ∈ t.columns, SheetSettledFile c) := by
    intro t ht
    obtain ⟨y, hy, rfl⟩ := List.mem_map.1 (hperm.mem_iff.1 ht)
    refine ⟨(import_settled hw.sheets hs' y hy).1, ?_⟩
    have hy' := hy
    rw [et] at hy'
    obtain ⟨l, hl, htl⟩ := List.mem_flatten.1 hy'
    obtain ⟨p, hp, rfl⟩ := List.mem_map.1 hl
    exact sheetTable_norm (hall p hp) y htl (hvalid y hy)
  constructor
  · rintro ⟨a, b, c⟩
    exact ⟨fun t ht => (key t ht).2.1 (a t ht), fun t ht => ⟨(b t ht).1, (b t ht).2.2⟩, c⟩
  · rintro ⟨a, b, c⟩
    exact ⟨fun t ht => (key t ht).2.2 (a t ht), fun t ht => ⟨(b t ht).1, (key t ht).1, (b t ht).2⟩, c⟩

/-- A workbook made by hand, with a column of the given type. -/
def handBook (type : Str) : Files :=
  Files.set (fun _ => none) (pathOf "a.xlsx"ₛ) (.book [⟨"g"ₛ, [["h"ₛ], ["t"ₛ, [], "table"ₛ], [[], "c"ₛ, type]]⟩])

/-- The options of the three commands. -/
def handImport : Values := given [("input"ₛ, "a.xlsx"ₛ), ("output"ₛ, "b.json"ₛ)]
def handExport : Values := given [("input"ₛ, "b.json"ₛ), ("output"ₛ, "b.xlsx"ₛ)]
def handAgain : Values := given [("input"ₛ, "b.xlsx"ₛ), ("output"ₛ, "c.json"ₛ)]

/-- C154: after the import of the type `int` or `decimal(10,2)` the file stays as it is; after that of `int(11)` it does not, as the file
says `int32` with the size 11, which a cell cannot say. -/
example : ∃ keeps : Str → Prop, keeps "int"ₛ ∧ keeps "decimal(10,2)"ₛ ∧ ¬keeps "int(11)"ₛ ∧
    ∀ type ∈ ["int"ₛ, "decimal(10,2)"ₛ, "int(11)"ₛ], ∃ fs₁ s₁, (action demoWorld .importXlsx handImport (handBook type)) = ⟨fs₁, .ok⟩ ∧
      load demoWorld fs₁ "b.json"ₛ = some s₁ ∧
      (keeps type ↔ (action demoWorld .exportXlsx handExport fs₁).status = .ok ∧
        (action demoWorld .importXlsx handAgain (action demoWorld .exportXlsx handExport fs₁).files).status = .ok ∧
        load demoWorld (action demoWorld .importXlsx handAgain (action demoWorld .exportXlsx handExport fs₁).files).files "c.json"ₛ =
          some s₁) := by
  refine ⟨fun type => type ≠ "int(11)"ₛ, by decide, by decide, fun h => h rfl, fun type ht => ?_⟩
  have hc : ∀ type ∈ ["int"ₛ, "decimal(10,2)"ₛ, "int(11)"ₛ], (action demoWorld .importXlsx handImport (handBook type)).status = .ok ∧
      (load demoWorld (action demoWorld .importXlsx handImport (handBook type)).files "b.json"ₛ).any (fun s =>
        decide (s.tables.Pairwise (fun a b => ¬(a.group = b.group ∧ a.name = b.name))) &&
        decide (type ≠ "int(11)"ₛ ↔ (∀ t ∈ s.tables, ∀ c ∈ t.columns, SheetSettledFile c)) &&
        decide (∀ t ∈ s.tables, t.group ≠ [])) = true := by
    decide +kernel
  obtain ⟨h1, h2⟩ := hc type ht
  obtain ⟨s₁, hl, h2⟩ := (Option.any_eq_true _ _).1 h2
  rw [Bool.and_eq_true, Bool.and_eq_true, decide_eq_true_eq, decide_eq_true_eq, decide_eq_true_eq] at h2
  obtain ⟨⟨h2, h3⟩, h4⟩ := h2
  refine ⟨_, s₁, ?_, hl, ?_⟩
  · rw [← h1]
  · have := C154_file_exact demoWorld demo_faithful handImport handExport handAgain (handBook type) h1 (by decide +kernel) rfl hl
      (by unfold DistinctTables; exact h2) rfl rfl (by decide +kernel) (by decide +kernel) (by decide +kernel)
    refine h3.trans (Iff.trans ?_ this.symm)
    exact ⟨fun h => ⟨h, fun t ht => ⟨h4 t ht, rfl⟩, rfl⟩, fun h => h.1⟩

end Octo.Cli
