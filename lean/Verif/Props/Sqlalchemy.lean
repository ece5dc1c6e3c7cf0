import Verif.Lemmas.SaGenerate
import Verif.Lemmas.Strcase

/-! Properties C63, C64 and C97-C103: the SQLAlchemy generator. -/

namespace Octo
open Spec Sqlalchemy

/-- The schema of the examples. -/
def saSchema : Schema :=
  { tables := [
      { name := "t_user"ₛ, columns := [
          { name := "id"ₛ, type := "int64"ₛ, primaryKey := true, notNull := true, autoIncremental := true },
          { name := "userName"ₛ, type := "varchar"ₛ, size := 20, uniqueKey := true, notNull := true },
          { name := "class"ₛ, type := "varchar"ₛ, uniqueKey := true },
          { name := "balance"ₛ, type := "decimal"ₛ, size := 10, scale := 2 },
          { name := "seen"ₛ, type := "datetime"ₛ },
          { name := "created_at"ₛ, type := "datetime"ₛ, notNull := true }] },
      { name := "item"ₛ, columns := [
          { name := "id"ₛ, type := "int64"ₛ, primaryKey := true, notNull := true },
          { name := "day"ₛ, type := "date"ₛ }] }] }

/-- The options of the examples. -/
def saOption : SaOption := ⟨⟨[], [], false⟩, none, ["t_"ₛ], "_uq"ₛ, true⟩

theorem saOption_plain {s : Schema}
    (ht : ∀ t ∈ s.tables, PlainQuoted '\'' t.name ∧ HasAlnum (["t_"ₛ].foldl trimPrefix t.name) ∧ (t.className = [] ∨ Ident t.className))
    (hc : ∀ t ∈ s.tables, ∀ c ∈ t.columns, PlainQuoted '\'' c.name ∧ Ident (strcase.toSnake (lower c.name))) : PlainSa strcase saOption s where
  tables := ht
  prefixes g := rfl
  columns := hc
  suffix := by decide

theorem saSchema_plain : PlainSa strcase saOption saSchema := saOption_plain (by decide +kernel) (by decide +kernel)

theorem single_example : SingleFile "models.py"ₛ := (single_iff _).1 (by decide +kernel)

theorem several_example : ¬ SingleFile "models"ₛ := fun h => absurd ((single_iff _).2 h) (by decide +kernel)

/-! ### C63: imports -/

/-- C63: a single file is written, and every name that it uses is imported or defined before. -/
theorem C63_imports_single {sc : Strcase} {o : SaOption} {s : Schema} (hc : CleanCase sc) (hp : PlainSa sc o s) {out : Str}
    (h : SingleFile out) : ∃ text, generate sc o s out = [(Jpa.pathJoin [out], text)] ∧
      ∀ f, readPy text = some f → ∀ n, (n, none) ∉ pyNames f :=
  ⟨_, generate_single h, fun _ hf _ hn => (single_names hc hp (fun _ ht => mem_selected ht) hf hn).1 rfl⟩

/-- The hypotheses of C63 hold of the example, and the file uses these names. -/
example : SingleFile "models.py"ₛ ∧ ((generate strcase saOption saSchema "models.py"ₛ).map fun w =>
    (readPy w.2).map fun f => ((pyNames f).map Prod.fst).dedup) =
    [some ["declarative_base"ₛ, "RepresentableBase"ₛ, "TypeDecorator"ₛ, "timezone"ₛ, "UniqueConstraint"ₛ, "String"ₛ, "Numeric"ₛ, "TZDateTime"ₛ,
      "DateTime"ₛ, "datetime"ₛ, "Base"ₛ, "BigInteger"ₛ, "Column"ₛ, "Date"ₛ]] :=
  ⟨single_example, by decide +kernel⟩

/-- C63: when a file per table is written, a name is not bound only when it is `Column`, in another file than the first one, or the
class for times. -/
theorem C63_imports_partial {sc : Strcase} {o : SaOption} {s : Schema} (hc : CleanCase sc) (hp : PlainSa sc o s) {out : Str}
    (h : ¬ SingleFile out) {i : Nat} {t : Table} {w : List Str × Str} (ht : (SaSelected o s)[i]? = some t)
    (hw : (generate sc o s out)[i]? = some w) {f : PyFile} (hf : readPy w.2 = some f) {n : Str} (hn : (n, none) ∈ pyNames f) :
    n = "Column"ₛ ∧ i ≠ 0 ∨ n = "TZDateTime"ₛ ∧ ∃ c ∈ t.columns, Converted o c := by
  obtain ⟨imports, sa, h1, h2, rfl⟩ := (generate_files h).2 i t w ht hw
  have hm := mem_selected (List.mem_iff_getElem?.2 ⟨i, ht⟩)
  rw [read_classText hc hp hm h1 h2] at hf
  split at hf
  · cases hf
    rcases class_names hp hm h1 h2 hn with h | h | h
    · exact absurd rfl h.1
    · exact Or.inl h
    · exact Or.inr h
  · cases hf

/-- C63: the first file binds every name, when there is no class for times. -/
theorem C63_first_partial {sc : Strcase} {o : SaOption} {s : Schema} (hc : CleanCase sc) (hp : PlainSa sc o s) {out : Str}
    (h : ¬ SingleFile out) {t : Table} {w : List Str × Str} (ht : (SaSelected o s)[0]? = some t) (hC : ∀ c ∈ t.columns, ¬ Converted o c)
    (hw : (generate sc o s out)[0]? = some w) {f : PyFile} (hf : readPy w.2 = some f) (n : Str) : (n, none) ∉ pyNames f := by
  intro hn
  rcases C63_imports_partial hc hp h ht hw hf hn with h | ⟨_, c, hc, h⟩
  · exact h.2 rfl
  · exact hC c hc h

/-- C63 is violated: no file but the first one imports `Column`. -/
theorem C63_imports_violated {sc : Strcase} {o : SaOption} {s : Schema} (hc : CleanCase sc) (hp : PlainSa sc o s) {out : Str}
    (h : ¬ SingleFile out) {i : Nat} (hi : i ≠ 0) {t : Table} {w : List Str × Str} (ht : (SaSelected o s)[i]? = some t)
    (hw : (generate sc o s out)[i]? = some w) {f : PyFile} (hf : readPy w.2 = some f) (hne : t.columns ≠ []) :
    ("Column"ₛ, none) ∈ pyNames f := by
  obtain ⟨imports, sa, h1, h2, rfl⟩ := (generate_files h).2 i t w ht hw
  have hm := mem_selected (List.mem_iff_getElem?.2 ⟨i, ht⟩)
  rw [read_classText hc hp hm h1 h2] at hf
  split at hf
  · cases hf
    obtain ⟨c, cs, hcs⟩ := List.exists_cons_of_ne_nil hne
    have hcol : "Column"ₛ ∈ memberUses (columnMember o.useUTC sc c) :=
      (column_uses (hp.columns t hm c (by rw [hcs]; simp)).1 _).2 (Or.inl rfl)
    have := first_column_name (sc := sc) (o := o) hcs (imports := imports) (sa := sa) hcol (by decide)
    rw [header_sa (fun l hl => needs_time ((h1 l).1 hl)) (by decide +kernel), if_neg] at this
    · exact this
    · intro hs
      rcases (h2 _).1 hs with h | h
      · exact hi h.1
      · rcases h with ⟨e, _⟩ | ⟨c, _, h | ⟨e, _⟩⟩
        · exact absurd e (by decide)
        · exact absurd (saType_mem h) (by decide +kernel)
        · exact absurd e (by decide)
  · cases hf

/-- C63 is violated: the class for times is used in the file of a table, and not defined there. -/
theorem C63_converted_violated {sc : Strcase} {o : SaOption} {s : Schema} (hc : CleanCase sc) (hp : PlainSa sc o s) {out : Str}
    (h : ¬ SingleFile out) {i : Nat} {t : Table} {w : List Str × Str} (ht : (SaSelected o s)[i]? = some t)
    (hw : (generate sc o s out)[i]? = some w) {f : PyFile} (hf : readPy w.2 = some f) (hN : NoClash sc o t)
    (hC : ∃ c ∈ t.columns, Converted o c) : ("TZDateTime"ₛ, none) ∈ pyNames f := by
  obtain ⟨imports, sa, h1, h2, rfl⟩ := (generate_files h).2 i t w ht hw
  have hm := mem_selected (List.mem_iff_getElem?.2 ⟨i, ht⟩)
  rw [read_classText hc hp hm h1 h2] at hf
  split at hf
  · cases hf
    obtain ⟨c, hcm, hC⟩ := hC
    have hty : saTypeName o c = some "TZDateTime"ₛ := if_pos hC
    have hs : ∀ n ∈ sa, n ∈ saImportable := by
      intro n hn
      rcases (h2 n).1 hn with ⟨_, rfl⟩ | h
      · decide +kernel
      · exact needs_importable h
    have := column_name (sc := sc) (o := o) hcm (imports := imports) (sa := sa)
      ((column_uses (hp.columns t hm c hcm).1 _).2 (Or.inr (Or.inl hty))) (noClash_bound hN (by decide +kernel)).1
    rw [header_tz (fun l hl => needs_time ((h1 l).1 hl)) hs] at this
    exact this
  · cases hf

/-- The names of the two files of the example that are not bound. -/
example : ¬ SingleFile "models"ₛ ∧ ((generate strcase saOption saSchema "models"ₛ).map fun w =>
    (readPy w.2).map fun f => (((pyNames f).filter fun p => p.2.isNone).map Prod.fst).dedup) = [some ["TZDateTime"ₛ], some ["Column"ₛ]] :=
  ⟨several_example, by decide +kernel⟩

/-! ### C64: attribute names -/

/-- C64: what the attribute of a column is called, and that it stands for its column: by an explicit name, or by its own name. -/
theorem C64_names {sc : Strcase} {o : SaOption} {s : Schema} (hc : CleanCase sc) (hp : PlainSa sc o s) {out : Str} {w : List Str × Str}
    (hw : w ∈ generate sc o s out) {f : PyFile} (hf : readPy w.2 = some f) {k : PyClass} (hk : k ∈ pyClasses f) :
    k.name = "TZDateTime"ₛ ∨ ∃ t ∈ SaSelected o s, List.Forall₂ (fun c m => ∃ as, attributeArgs m = some (saAttribute sc c.name, as) ∧
      (explicitNames as).headD (saAttribute sc c.name) = c.name) t.columns (classColumns k) := by
  rcases read_class_of hc hp hw hf hk with rfl | ⟨t, ht, rfl⟩
  · exact Or.inl rfl
  · refine Or.inr ⟨t, ht, ?_⟩
    rw [classColumns_eq, List.forall₂_map_right_iff, List.forall₂_same]
    exact fun c hcm => ⟨_, rfl, name_kept (hp.columns t (mem_selected ht) c hcm).1⟩

/-- C64: an explicit name is there when the name in snake case is a word of Python, or is not the name of the column, and only then. -/
theorem C64_explicit {sc : Strcase} {o : SaOption} {s : Schema} (hc : CleanCase sc) (hp : PlainSa sc o s) {out : Str} {w : List Str × Str}
    (hw : w ∈ generate sc o s out) {f : PyFile} (hf : readPy w.2 = some f) {k : PyClass} (hk : k ∈ pyClasses f) :
    k.name = "TZDateTime"ₛ ∨ ∃ t ∈ SaSelected o s, List.Forall₂ (fun c m => ∃ as, attributeArgs m = some (saAttribute sc c.name, as) ∧
      explicitNames as = if sc.toSnake (lower c.name) ∈ pyOldKeywords ∨ c.name ≠ sc.toSnake (lower c.name) then [c.name] else [])
      t.columns (classColumns k) := by
  rcases read_class_of hc hp hw hf hk with rfl | ⟨t, ht, rfl⟩
  · exact Or.inl rfl
  · refine Or.inr ⟨t, ht, ?_⟩
    rw [classColumns_eq, List.forall₂_map_right_iff, List.forall₂_same]
    refine fun c hcm => ⟨_, rfl, ?_⟩
    rw [explicit_eq (hp.columns t (mem_selected ht) c hcm).1]
    exact if_congr (newField_override sc c) rfl rfl

/-- The attributes of the example. -/
example : ((generate strcase saOption saSchema "models.py"ₛ).map fun w => (readPy w.2).map fun f => (pyClasses f).map fun k =>
    (classColumns k).filterMap fun m => (attributeArgs m).map fun p => (p.1, explicitNames p.2)) =
    [some [[], [("id"ₛ, []), ("username"ₛ, ["userName"ₛ]), ("class_"ₛ, ["class"ₛ]), ("balance"ₛ, []), ("seen"ₛ, []), ("created_at"ₛ, [])],
      [("id"ₛ, []), ("day"ₛ, [])]]] := by decide +kernel

/-- C64: the attribute is a name of Python exactly when the name in snake case does not start with a digit, and is none of the two
newest words of Python. -/
theorem C64_legal_partial {sc : Strcase} {n : Str} (h : Ident (sc.toSnake (lower n))) : PyName (saAttribute sc n) ↔
    ¬ StartsWithDigit (sc.toSnake (lower n)) ∧ sc.toSnake (lower n) ≠ "async"ₛ ∧ sc.toSnake (lower n) ≠ "await"ₛ := by
  have hold : ∀ w ∈ pyOldKeywords, ¬ StartsWithDigit w ∧ w ≠ "async"ₛ ∧ w ≠ "await"ₛ ∧ PyName (w ++ "_"ₛ) := by decide +kernel
  unfold saAttribute
  by_cases hk : sc.toSnake (lower n) ∈ pyOldKeywords
  · rw [if_pos hk]
    obtain ⟨h1, h2, h3, h4⟩ := hold _ hk
    exact ⟨fun _ => ⟨h1, h2, h3⟩, fun _ => h4⟩
  · rw [if_neg hk]
    unfold PyName
    rw [and_iff_right h]
    refine and_congr Iff.rfl ?_
    have : sc.toSnake (lower n) ∉ pyKeywords ↔ ¬ (sc.toSnake (lower n) = "async"ₛ ∨ sc.toSnake (lower n) = "await"ₛ) := by
      refine not_congr ⟨fun hm => ?_, fun e => ?_⟩
      · by_contra hne
        rw [not_or] at hne
        exact hk (List.mem_filter.2 ⟨hm, decide_eq_true hne⟩)
      · rcases e with e | e <;> rw [e] <;> decide
    rw [this, not_or]

/-- C64 is violated: when the name of a column in snake case starts with a digit, or is one of the two newest words of Python, the
file with its table is no Python. -/
theorem C64_legal_violated {sc : Strcase} {o : SaOption} {s : Schema} (hc : CleanCase sc) (hp : PlainSa sc o s) {out : Str}
    (h : SingleFile out) {t : Table} (ht : t ∈ SaSelected o s) {c : Column} (hcm : c ∈ t.columns)
    (hb : StartsWithDigit (sc.toSnake (lower c.name)) ∨ sc.toSnake (lower c.name) = "async"ₛ ∨ sc.toSnake (lower c.name) = "await"ₛ) :
    ∃ text, generate sc o s out = [(Jpa.pathJoin [out], text)] ∧ readPy text = none := by
  refine ⟨_, generate_single h, ?_⟩
  obtain ⟨imports, sa, tz, _, _, _, hr⟩ := read_single hc hp (ts := SaSelected o s) (fun t ht => mem_selected ht)
  rw [hr]
  refine if_neg fun e => ?_
  have hl := (C64_legal_partial (hp.columns t (mem_selected ht) c hcm).2).1 ((e t ht).2 c hcm).1
  rcases hb with hb | hb | hb
  · exact hl.1 hb
  · exact hl.2.1 hb
  · exact hl.2.2 hb

/-- A column whose name is a word of Python that the generator does not know. -/
example : let s : Schema := { tables := [{ name := "job"ₛ, columns := [{ name := "async"ₛ, type := "boolean"ₛ }] }] }
    PlainSa strcase saOption s ∧ strcase.toSnake (lower "async"ₛ) = "async"ₛ ∧
      (generate strcase saOption s "models.py"ₛ).map (fun w => (readPy w.2).isSome) = [false] :=
  ⟨saOption_plain (by decide +kernel) (by decide +kernel), by decide +kernel, by decide +kernel⟩

/-! ### C97: what the files say -/

/-- C97: a single file is Python exactly when the names fit and no column has an unknown type together with an attribute; then it has
a class per selected table, in order, besides the class for times. -/
theorem C97_single_partial {sc : Strcase} {o : SaOption} {s : Schema} (hc : CleanCase sc) (hp : PlainSa sc o s) {out : Str}
    (h : SingleFile out) : ∃ text, generate sc o s out = [(Jpa.pathJoin [out], text)] ∧
      ((readPy text).isSome = true ↔ ∀ t ∈ SaSelected o s, PyTable sc o t) ∧
      ∀ f, readPy text = some f → (∀ t ∈ SaSelected o s, ∀ c ∈ t.columns, saType c ≠ none) →
        ∃ pre ks, pyClasses f = pre ++ ks ∧ (∀ k ∈ pre, k.name = "TZDateTime"ₛ) ∧ List.Forall₂ (SaDescribes sc o) (SaSelected o s) ks := by
  refine ⟨_, generate_single h, ?_⟩
  obtain ⟨imports, sa, tz, _, _, _, hr⟩ := read_single hc hp (ts := SaSelected o s) (fun t ht => mem_selected ht)
  rw [hr]
  constructor
  · split
    · rename_i hk; simpa using hk
    · rename_i hk; simpa using hk
  · intro f hf hT
    split at hf
    · cases hf
      refine ⟨_, _, pyClasses_fileOf _ _ _ _, ?_, ?_⟩
      · intro k hk
        split at hk
        · rw [List.mem_singleton.1 hk]; rfl
        · cases hk
      · rw [List.forall₂_map_right_iff, List.forall₂_same]
        exact fun t ht => table_described hp (mem_selected ht) (hT t ht)
    · cases hf

/-- C97: when the names fit and all types are known, each selected table that is not empty is described in a file. -/
theorem C97_described_partial {sc : Strcase} {o : SaOption} {s : Schema} (hc : CleanCase sc) (hp : PlainSa sc o s)
    (hk : ∀ t ∈ SaSelected o s, PyTable sc o t ∧ t.columns ≠ [] ∧ ∀ c ∈ t.columns, saType c ≠ none) (out : Str) {t : Table}
    (ht : t ∈ SaSelected o s) : ∃ w ∈ generate sc o s out, ∃ f, readPy w.2 = some f ∧ ∃ k ∈ pyClasses f, SaDescribes sc o t k := by
  obtain ⟨w, hw, f, hf, h⟩ := written hc hp hk out ht
  exact ⟨w, hw, f, hf, _, h, table_described hp (mem_selected ht) (hk t ht).2.2⟩

/-- The hypotheses of C97 hold of the example. -/
example : CleanCase strcase ∧ PlainSa strcase saOption saSchema ∧
    ∀ t ∈ SaSelected saOption saSchema, PyTable strcase saOption t ∧ t.columns ≠ [] ∧ ∀ c ∈ t.columns, saType c ≠ none :=
  ⟨strcase_clean, saSchema_plain, by decide +kernel⟩

/-- C97 is violated: the file is no Python when a column of an unknown type is part of the key, unique, counted up or not null. -/
theorem C97_unknown_violated {sc : Strcase} {o : SaOption} {s : Schema} (hc : CleanCase sc) (hp : PlainSa sc o s) {out : Str}
    (h : SingleFile out) {t : Table} (ht : t ∈ SaSelected o s) {c : Column} (hcm : c ∈ t.columns) (hu : saType c = none)
    (ha : c.primaryKey = true ∨ c.uniqueKey = true ∨ c.autoIncremental = true ∨ c.notNull = true) :
    ∃ text, generate sc o s out = [(Jpa.pathJoin [out], text)] ∧ readPy text = none := by
  refine ⟨_, generate_single h, ?_⟩
  obtain ⟨imports, sa, tz, _, _, _, hr⟩ := read_single hc hp (ts := SaSelected o s) (fun t ht => mem_selected ht)
  rw [hr]
  refine if_neg fun e => ?_
  rcases ((e t ht).2 c hcm).2 with hk | ⟨h1, h2, h3, h4⟩
  · exact hk hu
  · rw [h1, h2, h3, h4] at ha
    simp at ha

/-- C97 is violated: a column of an unknown type without attributes loses its type. -/
theorem C97_untyped_violated {sc : Strcase} {o : SaOption} {s : Schema} (hc : CleanCase sc) (hp : PlainSa sc o s) {out : Str}
    {w : List Str × Str} (hw : w ∈ generate sc o s out) {f : PyFile} (hf : readPy w.2 = some f) {k : PyClass} (hk : k ∈ pyClasses f) :
    k.name = "TZDateTime"ₛ ∨ ∃ t ∈ SaSelected o s, List.Forall₂ (fun c m => ∃ as, attributeArgs m = some (saAttribute sc c.name, as) ∧
      (columnTypes as = [] ↔ saType c = none)) t.columns (classColumns k) := by
  rcases read_class_of hc hp hw hf hk with rfl | ⟨t, ht, rfl⟩
  · exact Or.inl rfl
  · refine Or.inr ⟨t, ht, ?_⟩
    rw [classColumns_eq, List.forall₂_map_right_iff, List.forall₂_same]
    refine fun c hcm => ⟨_, rfl, ?_⟩
    have hq := (hp.columns t (mem_selected ht) c hcm).1
    constructor
    · intro he
      by_contra hn
      rw [types_eq hq hn] at he
      cases he
    · intro hn
      unfold columnTypes
      rw [filterMap_named _ (fun k t => by cases t <;> rfl)]
      unfold positionalArgs
      rw [if_pos ((fieldType_nil c).2 hn), List.append_nil]
      split
      · rw [List.filterMap_cons_none]
        · rfl
        · show (if (unquote '\'' (pyQuoted c.name)).isSome = true then (none : Option PyTerm) else some _) = none
          rw [unquote_pyQuoted hq]; rfl
      · rfl

/-- A column of an unknown type, with and without an attribute. -/
example : let s b : Schema := { tables := [{ name := "job"ₛ, columns := [{ name := "data"ₛ, type := "json"ₛ, notNull := b }] }] }
    (∀ b, PlainSa strcase saOption (s b)) ∧
      (generate strcase saOption (s true) "models.py"ₛ).map (fun w => (readPy w.2).isSome) = [false] ∧
      (generate strcase saOption (s false) "models.py"ₛ).map (fun w => (readPy w.2).isSome) = [true] :=
  ⟨fun b => by cases b <;> exact saOption_plain (by decide +kernel) (by decide +kernel), by decide +kernel, by decide +kernel⟩

/-! ### C98: what the names stand for -/

/-- C98: in a single file, when no class and no attribute has a name that the texts use, each name stands for what it should. -/
theorem C98_origins_partial {sc : Strcase} {o : SaOption} {s : Schema} (hc : CleanCase sc) (hp : PlainSa sc o s) {out : Str}
    (h : SingleFile out) (hN : ∀ t ∈ SaSelected o s, NoClash sc o t) : ∃ text, generate sc o s out = [(Jpa.pathJoin [out], text)] ∧
      ∀ f, readPy text = some f → ∀ p ∈ pyNames f, p.2 = saOrigins.lookup p.1 :=
  ⟨_, generate_single h, fun _ hf _ hn => (single_names hc hp (fun _ ht => mem_selected ht) hf hn).2 hN⟩

/-- The hypotheses of C98 hold of the example. -/
example : ∀ t ∈ SaSelected saOption saSchema, NoClash strcase saOption t := by decide +kernel

/-- C98 is violated: a class can hide a type of SQLAlchemy, and an attribute can hide the module for times. -/
theorem C98_origins_violated : ∃ s : Schema, PlainSa strcase saOption s ∧ (∀ t ∈ s.tables, PyTable strcase saOption t) ∧
    ((generate strcase saOption s "models.py"ₛ).map fun w => (readPy w.2).map fun f => (pyNames f).filter fun p => p.2 ≠ saOrigins.lookup p.1) =
      [some [("datetime"ₛ, some .attribute), ("Date"ₛ, some (.cls "Base"ₛ))]] := by
  refine ⟨{ tables := [
      { name := "date"ₛ, columns := [{ name := "datetime"ₛ, type := "int64"ₛ, primaryKey := true }, { name := "created_at"ₛ, type := "datetime"ₛ }] },
      { name := "event"ₛ, columns := [{ name := "day"ₛ, type := "date"ₛ, primaryKey := true }] }] },
    saOption_plain (by decide +kernel) (by decide +kernel), by decide +kernel, by decide +kernel⟩

/-! ### C99: files -/

instance (out : Str) : Decidable (SingleFile out) := decidable_of_iff _ (single_iff out)

/-- C99: a path that ends with `.py` gets a single file; otherwise there is a file per selected table, in order, with its name. -/
theorem C99_files {sc : Strcase} {o : SaOption} {s : Schema} (out : Str) :
    (generate sc o s out).map Prod.fst =
      if SingleFile out then [Jpa.pathJoin [out]] else (SaSelected o s).map fun t => Jpa.pathJoin [out, t.name ++ ".py"ₛ] := by
  by_cases h : SingleFile out
  · rw [if_pos h, generate_single h]; rfl
  · rw [if_neg h]
    obtain ⟨h1, h2⟩ := generate_files (sc := sc) (o := o) (s := s) h
    refine List.ext_getElem? fun i => ?_
    rw [List.getElem?_map, List.getElem?_map]
    cases ht : (SaSelected o s)[i]? with
    | none =>
      rw [List.getElem?_eq_none_iff] at ht
      rw [List.getElem?_eq_none_iff.2 (by rw [h1]; exact ht)]
      rfl
    | some t =>
      obtain ⟨w, hw, imports, sa, _, _, rfl⟩ := file_at (sc := sc) h ht
      rw [hw]
      rfl

/-- C99: different tables get different files exactly when their names differ. -/
theorem C99_distinct {sc : Strcase} {o : SaOption} {s : Schema} {out : Str} (h : ¬ SingleFile out) :
    ((generate sc o s out).map Prod.fst).Nodup ↔ ((SaSelected o s).map (·.name)).Nodup := by
  rw [C99_files, if_neg h]
  have hinj : ∀ a b : Str, Jpa.pathJoin [out, a ++ ".py"ₛ] = Jpa.pathJoin [out, b ++ ".py"ₛ] → a = b := by
    intro a b e
    have key : ∀ a : Str, Jpa.pathJoin [out, a ++ ".py"ₛ] = Jpa.pathJoin [out] ++ [a ++ ".py"ₛ] := by
      intro a
      rw [show [out, a ++ ".py"ₛ] = [out] ++ [a ++ ".py"ₛ] from rfl, Jpa.pathJoin, List.filter_append]
      congr 1
      exact List.filter_cons_of_pos (by simp)
    rw [key, key] at e
    have := List.append_cancel_left e
    exact List.append_cancel_right (List.cons.inj this).1
  have e : ((SaSelected o s).map fun t => Jpa.pathJoin [out, t.name ++ ".py"ₛ]) =
      ((SaSelected o s).map (·.name)).map fun n => Jpa.pathJoin [out, n ++ ".py"ₛ] := by rw [List.map_map]; rfl
  rw [e]
  exact ⟨fun hn => hn.of_map _, fun hn => hn.map fun a b => hinj a b⟩

/-- The files of the example. -/
example : (generate strcase saOption saSchema "models"ₛ).map Prod.fst = [["models"ₛ, "t_user.py"ₛ], ["models"ₛ, "item.py"ₛ]] ∧
    (generate strcase saOption saSchema "models.py"ₛ).map Prod.fst = [["models.py"ₛ]] := by decide +kernel

/-! ### C100: attributes -/

/-- C100: the attributes of a class differ exactly when the names of its columns do after the renaming. -/
theorem C100_attributes_partial {sc : Strcase} {o : SaOption} {s : Schema} (hc : CleanCase sc) (hp : PlainSa sc o s)
    (hk : ∀ t ∈ SaSelected o s, PyTable sc o t ∧ t.columns ≠ [] ∧ ∀ c ∈ t.columns, saType c ≠ none) (out : Str) {t : Table}
    (ht : t ∈ SaSelected o s) : ∃ w ∈ generate sc o s out, ∃ f, readPy w.2 = some f ∧ ∃ k ∈ pyClasses f, SaDescribes sc o t k ∧
      (((classColumns k).filterMap fun m => (attributeArgs m).map Prod.fst).Nodup ↔ (t.columns.map fun c => saAttribute sc c.name).Nodup) := by
  obtain ⟨w, hw, f, hf, h⟩ := written hc hp hk out ht
  refine ⟨w, hw, f, hf, _, h, table_described hp (mem_selected ht) (hk t ht).2.2, ?_⟩
  rw [classColumns_eq, List.filterMap_map]
  have e : ∀ cs : List Column, cs.filterMap ((fun m => (attributeArgs m).map Prod.fst) ∘ columnMember o.useUTC sc) =
      cs.map fun c => saAttribute sc c.name := by
    intro cs
    induction cs with
    | nil => rfl
    | cons c cs ih =>
      rw [List.filterMap_cons_some (b := saAttribute sc c.name), ih]
      · rfl
      · rfl
  rw [e]

/-- C100 is violated: two columns can have the same attribute, so that the first one is lost. -/
theorem C100_attributes_violated : ∃ s : Schema, PlainSa strcase saOption s ∧ (∀ t ∈ s.tables, (t.columns.map (·.name)).Nodup) ∧
    ((generate strcase saOption s "models.py"ₛ).map fun w => (readPy w.2).map fun f => (pyClasses f).map fun k =>
      (classColumns k).filterMap fun m => (attributeArgs m).map Prod.fst) = [some [["class_"ₛ, "class_"ₛ]]] := by
  refine ⟨{ tables := [{ name := "pupil"ₛ, columns := [{ name := "class"ₛ, type := "int32"ₛ, primaryKey := true },
    { name := "class_"ₛ, type := "int32"ₛ }] }] }, saOption_plain (by decide +kernel) (by decide +kernel), by decide +kernel, by decide +kernel⟩

/-! ### C101: unique constraints -/

/-- C101: each unique column is unique by itself, and the others are not. -/
theorem C101_unique_partial {sc : Strcase} {o : SaOption} {s : Schema} (hc : CleanCase sc) (hp : PlainSa sc o s) {out : Str}
    {w : List Str × Str} (hw : w ∈ generate sc o s out) {f : PyFile} (hf : readPy w.2 = some f) {k : PyClass} (hk : k ∈ pyClasses f) :
    k.name = "TZDateTime"ₛ ∨ ∃ t ∈ SaSelected o s, List.Forall₂ (fun c m => ∃ as, attributeArgs m = some (saAttribute sc c.name, as) ∧
      columnArg as "unique"ₛ = whenTrue (c.uniqueKey = true)) t.columns (classColumns k) := by
  rcases read_class_of hc hp hw hf hk with rfl | ⟨t, ht, rfl⟩
  · exact Or.inl rfl
  · refine Or.inr ⟨t, ht, ?_⟩
    rw [classColumns_eq, List.forall₂_map_right_iff, List.forall₂_same]
    refine fun c hcm => ⟨_, rfl, ?_⟩
    rw [columnArg_eq, named_lookup]
    rfl

/-- C101 is violated: no class declares a unique constraint, whatever columns are unique. -/
theorem C101_unique_violated {sc : Strcase} {o : SaOption} {s : Schema} (hc : CleanCase sc) (hp : PlainSa sc o s) {out : Str}
    {w : List Str × Str} (hw : w ∈ generate sc o s out) {f : PyFile} (hf : readPy w.2 = some f) {k : PyClass} (hk : k ∈ pyClasses f) :
    ¬ DeclaresConstraint k "UniqueConstraint"ₛ := by
  rintro ⟨v, hv, hu⟩
  rcases read_class_of hc hp hw hf hk with rfl | ⟨t, ht, rfl⟩
  · have : ∀ m ∈ tzClass.members, "UniqueConstraint"ₛ ∉ memberUses m := by decide +kernel
    exact this _ hv hu
  · unfold pyClassOf at hv
    dsimp only at hv
    rcases List.mem_append.1 hv with hv | hv
    · rcases List.mem_cons.1 hv with hv | hv
      · have : "UniqueConstraint"ₛ ∈ memberUses (tableMember t) := hv ▸ hu
        rw [show memberUses (tableMember t) = [] from atomUses_quoted (hp.tables t (mem_selected ht)).1] at this
        cases this
      · split at hv
        · cases List.mem_singleton.1 hv
        · cases hv
    · obtain ⟨c, hcm, e⟩ := List.mem_map.1 hv
      have : "UniqueConstraint"ₛ ∈ memberUses (columnMember o.useUTC sc c) := by rw [e]; exact hu
      rcases (column_uses (hp.columns t (mem_selected ht) c hcm).1 _).1 this with h | h | ⟨h, _⟩
      · exact absurd h (by decide)
      · rcases typeName_cases h with ⟨_, h⟩ | ⟨h, _⟩
        · exact absurd h (by decide)
        · exact absurd (saType_mem h) (by decide +kernel)
      · exact absurd h (by decide)

/-- A table with two unique columns: the constraint is an expression by itself. -/
example : ((generate strcase saOption saSchema "models.py"ₛ).map fun w => (readPy w.2).map fun f => (pyClasses f).map fun k =>
    k.members.filterMap fun m => match m with | .expr e => some e.fn | _ => none) = [some [[], ["UniqueConstraint"ₛ], []]] := by decide +kernel

/-! ### C102: arguments of types -/

/-- C102: the constructor of the type of a column accepts its arguments exactly when it is no floating point type with a scale. -/
theorem C102_arguments_partial {sc : Strcase} {o : SaOption} {s : Schema} (hc : CleanCase sc) (hp : PlainSa sc o s)
    (hk : ∀ t ∈ SaSelected o s, PyTable sc o t ∧ t.columns ≠ [] ∧ ∀ c ∈ t.columns, saType c ≠ none) (out : Str) {t : Table}
    (ht : t ∈ SaSelected o s) : ∃ w ∈ generate sc o s out, ∃ f, readPy w.2 = some f ∧ ∃ k ∈ pyClasses f, SaDescribes sc o t k ∧
      List.Forall₂ (fun c m => ∃ n as ty, attributeArgs m = some (n, as) ∧ columnTypes as = [ty] ∧
        (AcceptedType ty ↔ ¬ (lower c.type ∈ ["float"ₛ, "double"ₛ] ∧ 0 < c.scale))) t.columns (classColumns k) := by
  obtain ⟨w, hw, f, hf, h⟩ := written hc hp hk out ht
  refine ⟨w, hw, f, hf, _, h, table_described hp (mem_selected ht) (hk t ht).2.2, ?_⟩
  rw [classColumns_eq, List.forall₂_map_right_iff, List.forall₂_same]
  intro c hcm
  have hs := (hk t ht).2.2 c hcm
  refine ⟨_, _, _, rfl, types_eq (hp.columns t (mem_selected ht) c hcm).1 hs, ?_⟩
  have hty := typeTerm_type (o := o) hs
  generalize typeTerm o.useUTC c = ty at hty
  have hname : ∀ x ∈ [("float"ₛ, "Float"ₛ), ("double"ₛ, "Float"ₛ), ("decimal"ₛ, "Numeric"ₛ)], lower c.type = x.1 → ty.fn = x.2 := by
    intro x hx e
    have hn := hty.name
    unfold saTypeName saType at hn
    have hx' : x.1 ≠ "datetime"ₛ ∧ x.1 ≠ "bit"ₛ ∧ saTypes.lookup x.1 = some x.2 := by
      have : ∀ x ∈ [("float"ₛ, "Float"ₛ), ("double"ₛ, "Float"ₛ), ("decimal"ₛ, "Numeric"ₛ)],
        x.1 ≠ "datetime"ₛ ∧ x.1 ≠ "bit"ₛ ∧ saTypes.lookup x.1 = some x.2 := by decide +kernel
      exact this x hx
    rw [if_neg (fun h => hx'.1 (e ▸ h.2.1)), if_neg (fun h => hx'.2.1 (e ▸ h.1)), e, hx'.2.2] at hn
    exact (Option.some.inj hn).symm
  constructor
  · rintro ha ⟨h1, h2⟩
    have hm := (hty.scale (itoa c.scale.toNat)).2 ⟨rfl, h2, by
      rcases List.mem_cons.1 h1 with e | e
      · rw [e]; decide
      · rw [List.mem_singleton.1 e]; decide⟩
    have := ha _ _ hm
    have hf : ty.fn = "Float"ₛ := by
      rcases List.mem_cons.1 h1 with e | e
      · exact hname ("float"ₛ, "Float"ₛ) (by simp) e
      · exact hname ("double"ₛ, "Float"ₛ) (by simp) (List.mem_singleton.1 e)
    rw [hf] at this
    exact absurd this (by decide)
  · intro hn k v hm
    rcases hty.others k v hm with rfl | rfl
    · obtain ⟨_, _, h2⟩ := (hty.precision v).1 hm
      rcases List.mem_cons.1 h2 with e | e
      · rw [hname ("float"ₛ, "Float"ₛ) (by simp) e]; decide
      rcases List.mem_cons.1 e with e | e
      · rw [hname ("double"ₛ, "Float"ₛ) (by simp) e]; decide
      · rw [hname ("decimal"ₛ, "Numeric"ₛ) (by simp) (List.mem_singleton.1 e)]; decide
    · obtain ⟨_, h1, h2⟩ := (hty.scale v).1 hm
      rcases List.mem_cons.1 h2 with e | e
      · exact absurd ⟨by rw [e]; simp, h1⟩ hn
      rcases List.mem_cons.1 e with e | e
      · exact absurd ⟨by rw [e]; simp, h1⟩ hn
      · rw [hname ("decimal"ₛ, "Numeric"ₛ) (by simp) (List.mem_singleton.1 e)]; decide

/-- C102 is violated: there is a column whose type gets an argument that its constructor does not have. -/
theorem C102_arguments_violated : ∃ s : Schema, PlainSa strcase saOption s ∧ (∀ t ∈ s.tables, PyTable strcase saOption t) ∧
    ((generate strcase saOption s "models.py"ₛ).map fun w => (readPy w.2).map fun f => (pyClasses f).flatMap fun k =>
      (classColumns k).filterMap fun m => (attributeArgs m).map fun p => columnTypes p.2) =
      [some [[.call "Float"ₛ [(some "precision"ₛ, "10"ₛ), (some "scale"ₛ, "2"ₛ)]]]] ∧
    ¬ AcceptedType (.call "Float"ₛ [(some "precision"ₛ, "10"ₛ), (some "scale"ₛ, "2"ₛ)]) := by
  refine ⟨{ tables := [{ name := "item"ₛ, columns := [{ name := "price"ₛ, type := "double"ₛ, size := 10, scale := 2, primaryKey := true }] }] },
    saOption_plain (by decide +kernel) (by decide +kernel), by decide +kernel, by decide +kernel, fun h => ?_⟩
  exact absurd (h "scale"ₛ "2"ₛ (by simp [PyNode.args])) (by decide)

/-! ### C103: nullability -/

/-- C103: a column is not nullable exactly when it is part of the key, or not null and not counted up. -/
theorem C103_nullable_partial {sc : Strcase} {o : SaOption} {s : Schema} (hc : CleanCase sc) (hp : PlainSa sc o s) {out : Str}
    {w : List Str × Str} (hw : w ∈ generate sc o s out) {f : PyFile} (hf : readPy w.2 = some f) {k : PyClass} (hk : k ∈ pyClasses f) :
    k.name = "TZDateTime"ₛ ∨ ∃ t ∈ SaSelected o s, List.Forall₂ (fun c m => ∃ as, attributeArgs m = some (saAttribute sc c.name, as) ∧
      (saNullable as = false ↔ c.primaryKey = true ∨ c.notNull = true ∧ c.autoIncremental = false)) t.columns (classColumns k) := by
  rcases read_class_of hc hp hw hf hk with rfl | ⟨t, ht, rfl⟩
  · exact Or.inl rfl
  · refine Or.inr ⟨t, ht, ?_⟩
    rw [classColumns_eq, List.forall₂_map_right_iff, List.forall₂_same]
    refine fun c hcm => ⟨_, rfl, ?_⟩
    have h1 : columnArg (columnArgs o.useUTC sc c) "nullable"ₛ =
        if c.notNull = true ∧ c.autoIncremental = false then some (.atom "False"ₛ) else none := by rw [columnArg_eq, named_lookup]; rfl
    have h2 : columnArg (columnArgs o.useUTC sc c) "primary_key"ₛ = if c.primaryKey = true then some (.atom "True"ₛ) else none := by
      rw [columnArg_eq, named_lookup]; rfl
    unfold saNullable
    rw [h1, h2]
    by_cases hn : c.notNull = true ∧ c.autoIncremental = false
    · rw [if_pos hn]
      exact ⟨fun _ => Or.inr hn, fun _ => (by decide : decide ((PyNode.atom "False"ₛ : PyTerm) = .atom "True"ₛ) = false)⟩
    · rw [if_neg hn]
      dsimp only
      cases hpk : c.primaryKey
      · exact ⟨fun h => absurd h (by decide), fun h => h.elim (fun h => by cases h) fun h => absurd h hn⟩
      · exact ⟨fun _ => Or.inl rfl, fun _ => by decide⟩

/-- C103 is violated: a column that is not null and counted up, but not part of the key, is nullable. -/
theorem C103_nullable_violated : ∃ (s : Schema) (c : Column), PlainSa strcase saOption s ∧ (∀ t ∈ s.tables, PyTable strcase saOption t) ∧
    (∃ t ∈ s.tables, c ∈ t.columns) ∧ c.notNull = true ∧
    ((generate strcase saOption s "models.py"ₛ).map fun w => (readPy w.2).map fun f => (pyClasses f).flatMap fun k =>
      (classColumns k).filterMap fun m => (attributeArgs m).map fun p => (p.1, saNullable p.2)) =
      [some [("code"ₛ, false), ("no"ₛ, true)]] := by
  let c : Column := { name := "no"ₛ, type := "int64"ₛ, notNull := true, autoIncremental := true }
  exact ⟨{ tables := [{ name := "item"ₛ, columns := [{ name := "code"ₛ, type := "varchar"ₛ, primaryKey := true }, c] }] }, c,
    saOption_plain (by decide +kernel) (by decide +kernel), by decide +kernel, ⟨_, List.mem_singleton.2 rfl, by simp⟩, rfl, by decide +kernel⟩

/-- C100 and C102: the first table of the demo. -/
example := C100_attributes_partial strcase_clean saSchema_plain (by decide +kernel) "models.py"ₛ
  (show saSchema.tables[0] ∈ SaSelected saOption saSchema by decide +kernel)

example := C102_arguments_partial strcase_clean saSchema_plain (by decide +kernel) "models.py"ₛ
  (show saSchema.tables[0] ∈ SaSelected saOption saSchema by decide +kernel)

/-- C103: the files of the demo can be read and have classes. -/
example : ((generate strcase saOption saSchema "models"ₛ).map fun w => (readPy w.2).map fun f => (pyClasses f).map (·.name)) =
    [some ["User"ₛ], some ["Item"ₛ]] := by decide +kernel

end Octo
