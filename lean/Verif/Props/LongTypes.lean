import Verif.Spec.LongTypes
import Verif.Props.Mysql
import Verif.Props.MysqlDb
import Verif.Props.Flyway
import Verif.Props.CliConvert

/-! Property C164: columns of long types in MySQL scripts. -/

namespace Octo
open Spec

/-- The types without default value and keys are those of the long types of a schema. -/
theorem longType_iff (c : Column) (h : PlainColumn c) :
    (readType (Mysql.toMysqlColumnType c)).any (fun ty => decide (ty.1 ∈ longTypes)) = true ↔ c.type ∈ longColTypes := by
  obtain ⟨e, he, hte⟩ := C18_complete c h.type
  rw [C18_type c h.values e he hte, hte]
  show decide (e.2.1 ∈ longTypes) = true ↔ _
  rw [decide_eq_true_iff]
  have all : ∀ e ∈ mysqlTypes, (e.2.1 ∈ longTypes ↔ e.1 ∈ longColTypes) := by decide +kernel
  exact all e he

theorem longAccepted_iff (suffix : Str) (t : Table) (h : PlainTable t) :
    LongAccepted (ddlTable Mysql.toMysqlColumnType suffix t) ↔ LongTable t := by
  unfold LongAccepted LongTable
  rw [ddlTable_columns, List.forall_mem_map]
  refine forall₂_congr fun c hc => imp_congr (longType_iff c (h.columns c hc)) (and_congr ?_ ?_)
  · show (if c.defaultValue = [] then none else some (valueMeaning c.type c.defaultValue)) = none ↔ _
    split
    · rename_i h; exact ⟨fun _ => h, fun _ => rfl⟩
    · rename_i h; exact ⟨fun e => (by cases e), fun e => absurd e h⟩
  · show (∀ k ∈ _, c.name ∉ k) ↔ _
    have keyed : ∀ (p : Column → Bool), (c.name ∉ (t.columns.filter p).map (·.name)) ↔ ∀ d ∈ t.columns, d.name = c.name → p d = false := by
      intro p
      rw [List.mem_map]
      constructor
      · intro h d hd e
        cases hp : p d with
        | false => rfl
        | true => exact absurd ⟨d, List.mem_filter.2 ⟨hd, hp⟩, e⟩ h
      · rintro h ⟨d, hd, e⟩
        obtain ⟨hd, hp⟩ := List.mem_filter.1 hd
        rw [h d hd e] at hp
        cases hp
    rw [ddlTable_keys, ddlTable_uniqueKeys, ddlTable_indexKeys]
    have h1 := keyed (·.primaryKey)
    have h2 := keyed (·.uniqueKey)
    simp only [List.map_append, List.forall_mem_append, List.map_map, List.forall_mem_map, forall_and, ← h1, ← h2, and_assoc]
    refine and_congr ?_ (and_congr ?_ Iff.rfl)
    · split
      · rename_i h; rw [h]; exact ⟨fun _ h => (by cases h), fun _ _ h => (by cases h)⟩
      · exact List.forall_mem_singleton
    · split
      · rename_i h; rw [h]; exact ⟨fun _ h => (by cases h), fun _ _ h => (by cases h)⟩
      · exact List.forall_mem_singleton

/-- **C164**, exactly: MySQL accepts the columns of the exported script that have long types if and only if no column of a selected table
with one of the types text, blob, json, geometry and point has a default value or the name of a column of a key or an index. -/
theorem C164_exact (filter : Option (Table → Bool)) (suffix : Str) (hsuf : UnescapedName suffix) (s : Schema)
    (h : ∀ t ∈ s.tables, passes filter t = true → PlainTable t) :
    ∃ script, readDdl (Mysql.exportSchema filter suffix s) = some script ∧
      ((∀ t ∈ script, LongAccepted t) ↔ ∀ t ∈ s.tables, passes filter t = true → LongTable t) := by
  refine ⟨_, C17_read_back filter suffix hsuf s h, ?_⟩
  rw [List.forall_mem_map]
  simp only [List.mem_filter, and_imp]
  exact forall_congr' fun t => forall_congr' fun ht => forall_congr' fun hp => longAccepted_iff suffix t (h t ht hp)

/-- C164: an article with a text and a title. -/
def articleSchema : Schema := { tables := [{ name := "article"ₛ, columns := [
  { name := "id"ₛ, type := "int64"ₛ, notNull := true, primaryKey := true, autoIncremental := true },
  { name := "title"ₛ, type := "varchar"ₛ, size := 80, notNull := true, uniqueKey := true },
  { name := "views"ₛ, type := "int32"ₛ, notNull := true, defaultValue := "0"ₛ },
  { name := "body"ₛ, type := "text16"ₛ }] }] }

/-- C164: the script of the article is accepted. -/
example : ∃ script, readDdl (Mysql.exportSchema none "_u"ₛ articleSchema) = some script ∧ ∀ t ∈ script, LongAccepted t := by
  obtain ⟨script, h1, h2⟩ := C164_exact none "_u"ₛ (by unfold UnescapedName; decide) articleSchema
    (fun t ht _ => ((scriptable_of_check "_u"ₛ (s := articleSchema) (by decide +kernel)).plain t ht).1)
  exact ⟨script, h1, h2.2 (by decide +kernel)⟩

end Octo

namespace Octo.Cli
open Spec

/-- C164 on the command line: the file that `export mysql` writes can be read, and MySQL accepts its columns of long types exactly under this
condition on the stored tables of the groups. -/
theorem C164_commands (w : World) (hw : Faithful w) (v : Values) (fs : Files) (s : Schema) (hst : Stored w fs (v "input"ₛ) s)
    (hsuf : UnescapedName (v "uniqueNameSuffix"ₛ)) (hwr : w.writable (pathOf (v "output"ₛ)) = true)
    (hp : ∀ t ∈ s.tables, passes (getTableFilterFn (v "groups"ₛ)) t = true → PlainTable t) :
    (action w .exportMysql v fs).status = .ok ∧ ∃ text script, (action w .exportMysql v fs).files.at (v "output"ₛ) = some (.text text) ∧
      readDdl text = some script ∧
      ((∀ t ∈ script, LongAccepted t) ↔ ∀ t ∈ s.tables, passes (getTableFilterFn (v "groups"ₛ)) t = true → LongTable t) := by
  have e : action w .exportMysql v fs = ⟨fs.set (pathOf (v "output"ₛ))
      (.text (Mysql.exportSchema (getTableFilterFn (v "groups"ₛ)) (v "uniqueNameSuffix"ₛ) s)), .ok⟩ := by
    show exportMysqlAction w v fs = _
    unfold exportMysqlAction
    rw [withSchema_some (load_stored hw hst)]
    unfold write
    rw [if_pos hwr]
  rw [e]
  obtain ⟨script, h1, h2⟩ := C164_exact (getTableFilterFn (v "groups"ₛ)) _ hsuf s hp
  exact ⟨rfl, _, script, files_set_at _ _ _, h1, h2⟩

/-- C164: a text as primary key, and a text with a default value. -/
def longKeySchema : Schema := { tables := [{ name := "note"ₛ, columns := [
  { name := "title"ₛ, type := "text16"ₛ, notNull := true, primaryKey := true },
  { name := "body"ₛ, type := "text32"ₛ, defaultValue := "empty"ₛ }] }] }

/-- **C164** is violated: the tool reads, checks and stores the schema, and MySQL does not accept the script. -/
theorem C164_violated : ∃ (v : Values) (fs : Files) (s : Schema), Stored demoWorld fs (v "input"ₛ) s ∧
    (action demoWorld .exportMysql v fs).status = .ok ∧ ∃ text script,
      (action demoWorld .exportMysql v fs).files.at (v "output"ₛ) = some (.text text) ∧
      readDdl text = some script ∧ ¬∀ t ∈ script, LongAccepted t := by
  obtain ⟨fs, s, h1, h2⟩ := stored_demo demo_faithful (s := longKeySchema) (by unfold DistinctTables; decide +kernel) (fun t ht =>
    ⟨(C04_accepts_iff tableSort tableSort_spec longKeySchema).mp (by decide +kernel) t ht, by revert t; decide +kernel⟩)
  obtain ⟨h3, text, script, h4, h5, h6⟩ := C164_commands demoWorld demo_faithful
    (given [("input"ₛ, "a.json"ₛ), ("output"ₛ, "a.sql"ₛ), ("uniqueNameSuffix"ₛ, "_u"ₛ)]) fs s h1
    (by unfold UnescapedName; decide +kernel) (by decide +kernel)
    (fun t ht _ => ((scriptable_of_check "_u"ₛ (s := longKeySchema) (by decide +kernel)).plain t (h2.mem_iff.1 ht)).1)
  refine ⟨_, fs, s, h1, h3, text, script, h4, h5, fun h => ?_⟩
  have ht : longKeySchema.tables.head (by decide) ∈ s.tables := h2.mem_iff.2 (List.head_mem _)
  exact absurd (h6.1 h _ ht (by decide +kernel)) (by decide +kernel)

end Octo.Cli
