import Verif.Spec.TypeArgs
import Verif.Props.Mysql
import Verif.Props.MysqlDb
import Verif.Props.Flyway
import Verif.Props.CliConvert

/-! Property C165: the types of MySQL scripts. -/

namespace Octo
open Spec

/-- How many arguments are written, from the shape and whether size and scale are zero and there are no members. -/
def argCount (shape : TypeShape) (noSize noScale noValues : Bool) : Nat :=
  match shape with
  | .fixed => 0
  | .oneBit => 1
  | .members => if noValues then 0 else 1
  | .sized => if noSize then 0 else if noScale then 1 else 2

/-- `TypedColumn` for such facts. -/
def typedFacts (type : Str) (noSize noScale noValues : Bool) : Prop :=
  type ≠ "varbinary"ₛ ∧ (type ∈ ["enum"ₛ, "set"ₛ] → noValues = false) ∧ (type = "varchar"ₛ → noSize = false) ∧
    (type = "double"ₛ → noSize = true ∨ noScale = false) ∧
    (type ∈ ["bit"ₛ, "int8"ₛ, "int16"ₛ, "int24"ₛ, "int32"ₛ, "int64"ₛ, "char"ₛ, "varchar"ₛ] → noSize = true ∨ noScale = true)

instance (t : Str) (a b v : Bool) : Decidable (typedFacts t a b v) := inferInstanceAs (Decidable (_ ∧ _))

theorem typedFacts_iff (c : Column) :
    typedFacts c.type (decide (c.size = 0)) (decide (c.scale = 0)) (decide (c.values = [])) ↔ TypedColumn c := by
  unfold typedFacts
  simp only [decide_eq_true_iff, decide_eq_false_iff_not]
  exact ⟨fun ⟨a, b, c, d, e⟩ => ⟨a, b, c, d, e⟩, fun ⟨a, b, c, d, e⟩ => ⟨a, b, c, d, e⟩⟩

theorem accepts_typeArgs (c : Column) (e : Str × Str × TypeShape) (he : e ∈ mysqlTypes) :
    acceptsArgs e.2.1 (typeArgs e.2.2 c).length =
      acceptsArgs e.2.1 (argCount e.2.2 (decide (c.size = 0)) (decide (c.scale = 0)) (decide (c.values = []))) := by
  have hm : ∀ e ∈ mysqlTypes, e.2.2 = .members → e.2.1 ∈ ["enum"ₛ, "set"ₛ] := by decide +kernel
  have := hm e he
  obtain ⟨a, b, shape⟩ := e
  cases shape with
  | fixed => rfl
  | oneBit => rfl
  | sized =>
    unfold typeArgs argCount
    dsimp only
    by_cases h1 : c.size = 0
    · rw [if_pos h1, decide_eq_true h1]; rfl
    · rw [if_neg h1, decide_eq_false h1]
      by_cases h2 : c.scale = 0
      · rw [if_pos h2, decide_eq_true h2]; rfl
      · rw [if_neg h2, decide_eq_false h2]; rfl
  | members =>
    unfold typeArgs argCount acceptsArgs
    rw [if_pos (this rfl), if_pos (this rfl)]
    dsimp only
    rw [List.length_map]
    cases c.values with
    | nil => rfl
    | cons _ _ => rfl

/-- A type is accepted exactly when the column is typed. -/
theorem typeAccepted_iff (c : Column) (h : PlainColumn c) :
    (readType (Mysql.toMysqlColumnType c)).any (fun ty => acceptsArgs ty.1 ty.2.length) = true ↔ TypedColumn c := by
  obtain ⟨e, he, hte⟩ := C18_complete c h.type
  rw [C18_type c h.values e he hte, ← typedFacts_iff, hte]
  show acceptsArgs e.2.1 (typeArgs e.2.2 c).length = true ↔ _
  rw [accepts_typeArgs c e he]
  have all : ∀ e ∈ mysqlTypes, ∀ a b v : Bool, (acceptsArgs e.2.1 (argCount e.2.2 a b v) = true ↔ typedFacts e.1 a b v) := by decide +kernel
  exact all e he _ _ _

theorem typesAccepted_iff (suffix : Str) (t : Table) (h : PlainTable t) :
    TypesAccepted (ddlTable Mysql.toMysqlColumnType suffix t) ↔ ∀ c ∈ t.columns, TypedColumn c := by
  unfold TypesAccepted
  rw [ddlTable_columns, List.forall_mem_map]
  exact forall₂_congr fun c hc => typeAccepted_iff c (h.columns c hc)

/-- **C165**, exactly: MySQL accepts the types of the exported script if and only if no column of a selected table is a varbinary, an
enumeration or set without members, a varchar without size, a double with a size only, or a bit, an integer, a char or a varchar with a
scale. -/
theorem C165_exact (filter : Option (Table → Bool)) (suffix : Str) (hsuf : UnescapedName suffix) (s : Schema)
    (h : ∀ t ∈ s.tables, passes filter t = true → PlainTable t) :
    ∃ script, readDdl (Mysql.exportSchema filter suffix s) = some script ∧
      ((∀ t ∈ script, TypesAccepted t) ↔ ∀ t ∈ s.tables, passes filter t = true → ∀ c ∈ t.columns, TypedColumn c) := by
  refine ⟨_, C17_read_back filter suffix hsuf s h, ?_⟩
  rw [List.forall_mem_map]
  simp only [List.mem_filter, and_imp]
  exact forall_congr' fun t => forall_congr' fun ht => forall_congr' fun hp => typesAccepted_iff suffix t (h t ht hp)

/-- C165: a table with arguments of all kinds. -/
def typedSchema : Schema := { tables := [{ name := "item"ₛ, columns := [
  { name := "id"ₛ, type := "int64"ₛ, size := 20, notNull := true, primaryKey := true },
  { name := "name"ₛ, type := "varchar"ₛ, size := 80 }, { name := "price"ₛ, type := "decimal"ₛ, size := 10, scale := 2 },
  { name := "weight"ₛ, type := "double"ₛ, size := 8, scale := 3 }, { name := "picture"ₛ, type := "blob32"ₛ },
  { name := "sold"ₛ, type := "boolean"ₛ }] }] }

/-- C165: its script is accepted. -/
example : ∃ script, readDdl (Mysql.exportSchema none "_u"ₛ typedSchema) = some script ∧ ∀ t ∈ script, TypesAccepted t := by
  obtain ⟨script, h1, h2⟩ := C165_exact none "_u"ₛ (by unfold UnescapedName; decide) typedSchema
    (fun t ht _ => ((scriptable_of_check "_u"ₛ (s := typedSchema) (by decide +kernel)).plain t ht).1)
  exact ⟨script, h1, h2.2 (by decide +kernel)⟩

end Octo

namespace Octo.Cli
open Spec

/-- C165 on the command line: the file that `export mysql` writes can be read, and MySQL accepts its types exactly under this condition on
the stored tables of the groups. -/
theorem C165_commands (w : World) (hw : Faithful w) (v : Values) (fs : Files) (s : Schema) (hst : Stored w fs (v "input"ₛ) s)
    (hsuf : UnescapedName (v "uniqueNameSuffix"ₛ)) (hwr : w.writable (pathOf (v "output"ₛ)) = true)
    (hp : ∀ t ∈ s.tables, passes (getTableFilterFn (v "groups"ₛ)) t = true → PlainTable t) :
    (action w .exportMysql v fs).status = .ok ∧ ∃ text script, (action w .exportMysql v fs).files.at (v "output"ₛ) = some (.text text) ∧
      readDdl text = some script ∧ ((∀ t ∈ script, TypesAccepted t) ↔
        ∀ t ∈ s.tables, passes (getTableFilterFn (v "groups"ₛ)) t = true → ∀ c ∈ t.columns, TypedColumn c) := by
  have e : action w .exportMysql v fs = ⟨fs.set (pathOf (v "output"ₛ))
      (.text (Mysql.exportSchema (getTableFilterFn (v "groups"ₛ)) (v "uniqueNameSuffix"ₛ) s)), .ok⟩ := by
    show exportMysqlAction w v fs = _
    unfold exportMysqlAction
    rw [withSchema_some (load_stored hw hst)]
    unfold write
    rw [if_pos hwr]
  rw [e]
  obtain ⟨script, h1, h2⟩ := C165_exact (getTableFilterFn (v "groups"ₛ)) _ hsuf s hp
  exact ⟨rfl, _, script, files_set_at _ _ _, h1, h2⟩

/-- C165: a token of 16 bytes. -/
def tokenSchema : Schema := { tables := [{ name := "session"ₛ, columns := [
  { name := "id"ₛ, type := "int64"ₛ, notNull := true, primaryKey := true },
  { name := "token"ₛ, type := "varbinary"ₛ, size := 16, notNull := true }] }] }

/-- **C165** is violated: the tool reads, checks and stores the schema, and MySQL does not accept the script, as the size is left out. -/
theorem C165_violated : ∃ (v : Values) (fs : Files) (s : Schema), Stored demoWorld fs (v "input"ₛ) s ∧
    (action demoWorld .exportMysql v fs).status = .ok ∧ ∃ text script,
      (action demoWorld .exportMysql v fs).files.at (v "output"ₛ) = some (.text text) ∧
      readDdl text = some script ∧ ¬∀ t ∈ script, TypesAccepted t := by
  obtain ⟨fs, s, h1, h2⟩ := stored_demo demo_faithful (s := tokenSchema) (by unfold DistinctTables; decide +kernel) (fun t ht =>
    ⟨(C04_accepts_iff tableSort tableSort_spec tokenSchema).mp (by decide +kernel) t ht, by revert t; decide +kernel⟩)
  obtain ⟨h3, text, script, h4, h5, h6⟩ := C165_commands demoWorld demo_faithful
    (given [("input"ₛ, "a.json"ₛ), ("output"ₛ, "a.sql"ₛ), ("uniqueNameSuffix"ₛ, "_u"ₛ)]) fs s h1
    (by unfold UnescapedName; decide +kernel) (by decide +kernel)
    (fun t ht _ => ((scriptable_of_check "_u"ₛ (s := tokenSchema) (by decide +kernel)).plain t (h2.mem_iff.1 ht)).1)
  refine ⟨_, fs, s, h1, h3, text, script, h4, h5, fun h => ?_⟩
  have ht : tokenSchema.tables.head (by decide) ∈ s.tables := h2.mem_iff.2 (List.head_mem _)
  exact absurd (h6.1 h _ ht (by decide +kernel)) (by decide +kernel)

end Octo.Cli
