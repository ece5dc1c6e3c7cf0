import Verif.Props.TypeArgs
import Verif.Props.Reimport

/-! Property C165: the types of scripts from elsewhere, after import and export. -/

namespace Octo.Spec
open MysqlImport

/-- A declared type whose column gets a type that MySQL accepts when it is exported: a double has decimals, or neither these nor a length;
the length of a varchar is not lost. -/
def RetypedField (f : FieldType) : Prop :=
  match f.tp with
  | .varchar => storedLength f.flen ≠ 0
  | .double => storedLength f.flen = 0 ∨ storedLength f.decimal ≠ 0
  | .enum => f.elems ≠ []
  | .set => f.elems ≠ []
  | _ => True

end Octo.Spec

namespace Octo
open Spec MysqlImport

/-- C165 for types. -/
theorem retyped_iff (f : FieldType) (hn : f.tp ≠ .null) (ho : f.tp ≠ .other) (c : Column) (h1 : (c.type, c.size, c.scale) = columnType f)
    (h2 : c.values = columnValues (columnType f).1 f) : TypedColumn c ↔ RetypedField f := by
  have hz := stored_zero f.flen
  have hd := stored_zero f.decimal
  have h1' : ∀ (t : Str) (x y : UInt16), (c.type, c.size, c.scale) = (t, x, y) → c.type = t ∧ c.size = x ∧ c.scale = y :=
    fun t x y e => ⟨congrArg (·.1) e, congrArg (·.2.1) e, congrArg (·.2.2) e⟩
  have flat : ∀ t ∈ ["int8"ₛ, "int16"ₛ, "int24"ₛ, "int32"ₛ, "int64"ₛ, "bit"ₛ, "boolean"ₛ, "date"ₛ, "datetime"ₛ, "time"ₛ, "year"ₛ, "json"ₛ,
      "geometry"ₛ, "char"ₛ, "binary"ₛ, "text8"ₛ, "text16"ₛ, "text24"ₛ, "text32"ₛ, "blob8"ₛ, "blob16"ₛ, "blob24"ₛ, "blob32"ₛ],
      ∀ a v : Bool, typedFacts t a true v := by decide +kernel
  have free : ∀ t ∈ ["decimal"ₛ, "float"ₛ], ∀ a b v : Bool, typedFacts t a b v := by decide +kernel
  have double : ∀ a b v : Bool, typedFacts "double"ₛ a b v ↔ a = true ∨ b = false := by decide +kernel
  have varchar : ∀ a v : Bool, typedFacts "varchar"ₛ a true v ↔ a = false := by decide +kernel
  have members : ∀ t ∈ ["enum"ₛ, "set"ₛ], ∀ a b v : Bool, typedFacts t a b v ↔ v = false := by decide +kernel
  rw [← typedFacts_iff]
  unfold MysqlImport.columnType at h1 h2
  unfold RetypedField
  dsimp only at h1 h2
  cases htp : f.tp <;> rw [htp] at h1 h2 <;> dsimp only at h1 h2 ⊢
  case null => exact absurd htp hn
  case other => exact absurd htp ho
  case varchar =>
    obtain ⟨a1, a2, a3⟩ := h1' _ _ _ h1
    rw [a1, decide_eq_true a3, varchar, decide_eq_false_iff_not, a2, hz]
  case double =>
    obtain ⟨a1, a2, a3⟩ := h1' _ _ _ h1
    rw [a1, double, decide_eq_true_iff, decide_eq_false_iff_not, a2, a3, hz, hd]
  case enum | set =>
    obtain ⟨a1, -, -⟩ := h1' _ _ _ h1
    have hc : c.values = f.elems := h2
    rw [a1, members _ (by decide +kernel), decide_eq_false_iff_not, hc]
  case decimal | newDecimal | float =>
    obtain ⟨a1, -, -⟩ := h1' _ _ _ h1
    rw [a1]
    exact iff_of_true (free _ (by decide +kernel) _ _ _) trivial
  all_goals
    try split at h1
    all_goals
      obtain ⟨a1, -, a3⟩ := h1' _ _ _ h1
      rw [a1, decide_eq_true a3]
      exact iff_of_true (flat _ (by decide +kernel) _ _) trivial

/-- **C165** for imported scripts, exactly: MySQL accepts the types of the script that is exported after an import, if and only if every
declared type is of this kind. -/
theorem C165_import_exact (ex : List Str) (author version suffix : Str) (hsuf : UnescapedName suffix) (stmts : List Stmt) (s : Schema)
    (h : importSql ex author version stmts = some s) (hn : ∀ x ∈ statedTables ex stmts, ∀ d ∈ x.2.1, d.tp.tp ≠ .null ∧ d.tp.tp ≠ .other)
    (hp : ∀ t ∈ s.tables, PlainTable t) :
    ∃ script, readDdl (Mysql.exportSchema none suffix s) = some script ∧
      ((∀ t ∈ script, TypesAccepted t) ↔ ∀ x ∈ statedTables ex stmts, ∀ d ∈ x.2.1, RetypedField d.tp) := by
  obtain ⟨script, hr, hi⟩ := C165_exact none suffix hsuf s fun t ht _ => hp t ht
  refine ⟨script, hr, hi.trans ?_⟩
  rw [importSql_eq] at h
  obtain ⟨ts, hts, rfl⟩ := Option.map_eq_some_iff.1 h
  have hf := mapM_forall₂ hts
  have key : ∀ x ∈ statedTables ex stmts, ∀ t, importTable x = some t →
      ((∀ c ∈ t.columns, TypedColumn c) ↔ ∀ d ∈ x.2.1, RetypedField d.tp) := by
    intro x hx t hxt
    obtain ⟨k, -, rfl⟩ := Option.map_eq_some_iff.1 hxt
    show (∀ c ∈ x.2.1.map (column k), TypedColumn c) ↔ _
    rw [List.forall_mem_map]
    refine forall₂_congr fun d hd => retyped_iff d.tp (hn x hx d hd).1 (hn x hx d hd).2 _ ?_ ?_
    · rw [column_said]
    · rw [column_said]
  constructor
  · intro e x hx
    obtain ⟨t, ht, hxt⟩ := forall₂_mem_left hf _ hx
    exact (key x hx t hxt).1 (e t ht rfl)
  · intro e t ht _
    obtain ⟨x, hx, hxt⟩ := forall₂_mem_right hf _ ht
    exact (key x hx t hxt).2 (e x hx)

/-- C165: a table with a column of type `double(10,0)`. -/
def doubleScript (decimals : Int) : List Stmt :=
  [.createTable "item"ₛ [{ name := "id"ₛ, tp := { tp := .longlong }, options := [.notNull] },
      { name := "weight"ₛ, tp := { tp := .double, flen := 10, decimal := decimals }, options := [.notNull] }]
    [{ tp := .primaryKey, keys := [some "id"ₛ] }]]

theorem doubleScript_export (decimals : Int) (hc : (importSql [] [] [] (doubleScript decimals)).any scriptCheck = true)
    (hn : ∀ x ∈ statedTables [] (doubleScript decimals), ∀ d ∈ x.2.1, d.tp.tp ≠ .null ∧ d.tp.tp ≠ .other) :
    ∃ s script, importSql [] [] [] (doubleScript decimals) = some s ∧ readDdl (Mysql.exportSchema none "_u"ₛ s) = some script ∧
      ((∀ t ∈ script, TypesAccepted t) ↔ ∀ x ∈ statedTables [] (doubleScript decimals), ∀ d ∈ x.2.1, RetypedField d.tp) := by
  obtain ⟨s, hs, hc⟩ := (Option.any_eq_true _ _).1 hc
  obtain ⟨script, h1, h2⟩ := C165_import_exact [] [] [] "_u"ₛ (by unfold UnescapedName; decide) (doubleScript decimals) s hs hn
    (fun t ht => ((scriptable_of_check "_u"ₛ hc).plain t ht).1)
  exact ⟨s, script, hs, h1, h2⟩

theorem doubleScript_fields (decimals : Int) : (∀ x ∈ statedTables [] (doubleScript decimals), ∀ d ∈ x.2.1, RetypedField d.tp) ↔
    storedLength decimals ≠ 0 := by
  constructor
  · intro h
    have h10 : storedLength 10 ≠ 0 := by decide
    exact (h _ (.head _) _ (.tail _ (.head _))).resolve_left h10
  · intro h x hx d hd
    cases hx with
    | head =>
      cases hd with
      | head => trivial
      | tail _ hd =>
        cases hd with
        | head => exact .inr h
        | tail _ hd => cases hd
    | tail _ hx => cases hx

/-- C165: with decimals the exported script is accepted. -/
example : ∃ s script, fieldOf "double"ₛ ["10"ₛ, "3"ₛ] = some { tp := .double, flen := 10, decimal := 3 } ∧
    importSql [] [] [] (doubleScript 3) = some s ∧ readDdl (Mysql.exportSchema none "_u"ₛ s) = some script ∧ ∀ t ∈ script, TypesAccepted t := by
  obtain ⟨s, script, h1, h2, h3⟩ := doubleScript_export 3 (by decide +kernel) (by decide +kernel)
  exact ⟨s, script, by decide +kernel, h1, h2, h3.2 ((doubleScript_fields 3).2 (by decide))⟩

/-- **C165** is violated for imported scripts: MySQL accepts `double(10,0)`, which becomes `double(10)`. -/
theorem C165_violated_import : ∃ s script, acceptsArgs "double"ₛ 2 = true ∧
    fieldOf "double"ₛ ["10"ₛ, "0"ₛ] = some { tp := .double, flen := 10, decimal := 0 } ∧
    importSql [] [] [] (doubleScript 0) = some s ∧ readDdl (Mysql.exportSchema none "_u"ₛ s) = some script ∧ ¬∀ t ∈ script, TypesAccepted t := by
  obtain ⟨s, script, h1, h2, h3⟩ := doubleScript_export 0 (by decide +kernel) (by decide +kernel)
  exact ⟨s, script, by decide +kernel, by decide +kernel, h1, h2, fun h => (doubleScript_fields 0).1 (h3.1 h) (by decide)⟩

end Octo
