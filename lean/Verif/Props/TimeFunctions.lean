import Verif.Spec.TimeFunctions
import Verif.Props.Mysql
import Verif.Props.MysqlDb
import Verif.Props.CliConvert

/-! Property C166: functions in MySQL scripts. -/

namespace Octo
open Spec

/-- The MySQL type of a column is `datetime` exactly for this type of the tool. -/
theorem datetime_iff (c : Column) (h : PlainColumn c) :
    readType (Mysql.toMysqlColumnType c) = some ("datetime"ₛ, []) ↔ c.type = "datetime"ₛ := by
  obtain ⟨e, he, hte⟩ := C18_complete c h.type
  rw [C18_type c h.values e he hte, hte, Option.some.injEq, Prod.mk.injEq]
  have all : ∀ e ∈ mysqlTypes, (e.2.1 = "datetime"ₛ ↔ e.1 = "datetime"ₛ) ∧ (e.1 = "datetime"ₛ → e.2.2 = .fixed) := by decide +kernel
  obtain ⟨h1, h2⟩ := all e he
  rw [h1]
  exact ⟨fun h => h.1, fun h => ⟨h, by rw [h2 h]; rfl⟩⟩

theorem timed_iff (c : Column) (h : PlainColumn c) :
    ((∀ v, (ddlColumn Mysql.toMysqlColumnType c).default = some v → v.isCall = true →
      readType (Mysql.toMysqlColumnType c) = some ("datetime"ₛ, []) ∧ IsNow v) ∧
      ∀ v, (ddlColumn Mysql.toMysqlColumnType c).onUpdate = some v →
        readType (Mysql.toMysqlColumnType c) = some ("datetime"ₛ, []) ∧ IsNow v) ↔ TimedColumn c := by
  rw [datetime_iff c h]
  have hchar : "datetime"ₛ ≠ "char"ₛ ∧ "datetime"ₛ ≠ "varchar"ₛ := by decide +kernel
  have hd : (∀ v, (ddlColumn Mysql.toMysqlColumnType c).default = some v → v.isCall = true → c.type = "datetime"ₛ ∧ IsNow v) ↔
      (hasPrefix c.defaultValue "fn::"ₛ = true → c.type = "datetime"ₛ ∧ lower (c.defaultValue.drop 4) ∈ "now"ₛ :: bareNow) := by
    show (∀ v, (if c.defaultValue = [] then none else some (valueMeaning c.type c.defaultValue)) = some v → _) ↔ _
    by_cases h0 : c.defaultValue = []
    · rw [if_pos h0, h0]
      exact iff_of_true (fun v e => by cases e) (fun e => absurd e (by decide +kernel))
    · rw [if_neg h0]
      unfold valueMeaning
      by_cases hf : hasPrefix c.defaultValue "fn::"ₛ = true
      · rw [if_pos hf]
        exact ⟨fun h _ => h _ rfl rfl, fun h v e _ => by rw [← Option.some.inj e]; exact h hf⟩
      · rw [if_neg hf]
        refine iff_of_true (fun v e hc => ?_) (fun e => absurd e hf)
        rw [← Option.some.inj e] at hc
        split at hc <;> cases hc
  have hu : (∀ v, (ddlColumn Mysql.toMysqlColumnType c).onUpdate = some v → c.type = "datetime"ₛ ∧ IsNow v) ↔
      (c.onUpdate ≠ [] → c.type = "datetime"ₛ ∧
        if hasPrefix c.onUpdate "fn::"ₛ then lower (c.onUpdate.drop 4) ∈ "now"ₛ :: bareNow else lower c.onUpdate ∈ bareNow) := by
    show (∀ v, (if c.onUpdate = [] then none else some (valueMeaning c.type c.onUpdate)) = some v → _) ↔ _
    by_cases h0 : c.onUpdate = []
    · rw [if_pos h0]
      exact iff_of_true (fun v e => by cases e) (fun e => absurd h0 e)
    · rw [if_neg h0]
      have e1 : (∀ v, some (valueMeaning c.type c.onUpdate) = some v → c.type = "datetime"ₛ ∧ IsNow v) ↔
          c.type = "datetime"ₛ ∧ IsNow (valueMeaning c.type c.onUpdate) :=
        ⟨fun h => h _ rfl, fun h v e => by rw [← Option.some.inj e]; exact h⟩
      have e2 : ∀ p : Prop, (c.onUpdate ≠ [] → p) ↔ p := fun p => ⟨fun h => h h0, fun h _ => h⟩
      rw [e1, e2]
      refine and_congr_right fun ht => ?_
      unfold valueMeaning
      by_cases hf : hasPrefix c.onUpdate "fn::"ₛ = true
      · rw [if_pos hf, if_pos hf]; exact Iff.rfl
      · rw [if_neg hf, if_neg hf, ht, if_neg (fun h => h.elim hchar.1 hchar.2)]; exact Iff.rfl
  rw [hd, hu]
  exact ⟨fun ⟨a, b⟩ => ⟨a, b⟩, fun ⟨a, b⟩ => ⟨a, b⟩⟩

/-- **C166**, exactly: MySQL accepts the functions of the exported script if and only if each column of a selected table whose default value
is a function, or that is updated, is a datetime, and the function or the update is the current time. -/
theorem C166_exact (filter : Option (Table → Bool)) (suffix : Str) (hsuf : UnescapedName suffix) (s : Schema)
    (h : ∀ t ∈ s.tables, passes filter t = true → PlainTable t) :
    ∃ script, readDdl (Mysql.exportSchema filter suffix s) = some script ∧
      ((∀ t ∈ script, TimesAccepted t) ↔ ∀ t ∈ s.tables, passes filter t = true → ∀ c ∈ t.columns, TimedColumn c) := by
  refine ⟨_, C17_read_back filter suffix hsuf s h, ?_⟩
  rw [List.forall_mem_map]
  simp only [List.mem_filter, and_imp]
  refine forall_congr' fun t => forall_congr' fun ht => forall_congr' fun hp => ?_
  unfold TimesAccepted
  rw [ddlTable_columns, List.forall_mem_map]
  exact forall₂_congr fun c hc => timed_iff c ((h t ht hp).columns c hc)

/-- C166: a table with the given first column, and the time of the last change. -/
def changedSchema (c : Column) : Schema := { tables := [{ name := "item"ₛ, columns := [c,
  { name := "changed"ₛ, type := "datetime"ₛ, notNull := true, defaultValue := "fn::NOW"ₛ, onUpdate := "fn::CURRENT_TIMESTAMP"ₛ }] }] }

/-- C166: an identifier that the database makes. -/
def uuidColumn : Column := { name := "id"ₛ, type := "char"ₛ, size := 36, notNull := true, primaryKey := true, defaultValue := "fn::uuid"ₛ }

/-- C166: an identifier without a default value. -/
def noUuidColumn : Column := { name := "id"ₛ, type := "char"ₛ, size := 36, notNull := true, primaryKey := true }

theorem changedSchema_plain (c : Column) (h : PlainColumn c) : ∀ t ∈ (changedSchema c).tables, PlainTable t := by
  have hw : Word "item"ₛ := by unfold Word; decide +kernel
  intro t ht
  rw [List.mem_singleton.1 ht]
  refine ⟨hw, ?_, fun i hi => (by cases hi)⟩
  intro d hd
  rcases List.mem_cons.1 hd with rfl | hd
  · exact h
  · rw [List.mem_singleton.1 hd]
    exact ⟨by unfold Word; decide +kernel, by decide +kernel, fun v hv => (by cases hv), by unfold Unescaped; decide +kernel,
      .inr (.inl ⟨by decide +kernel, by unfold Word; decide +kernel⟩), .inr (.inl ⟨by decide +kernel, by unfold Word; decide +kernel⟩)⟩

theorem uuidColumn_plain : PlainColumn uuidColumn :=
  ⟨by unfold Word; decide +kernel, by decide +kernel, fun v hv => (by cases hv), by unfold Unescaped; decide +kernel,
    .inr (.inl ⟨by decide +kernel, by unfold Word; decide +kernel⟩), .inl rfl⟩

theorem noUuidColumn_plain : PlainColumn noUuidColumn :=
  ⟨by unfold Word; decide +kernel, by decide +kernel, fun v hv => (by cases hv), by unfold Unescaped; decide +kernel, .inl rfl, .inl rfl⟩

/-- C166: without the function the script is accepted. -/
example : ∃ script, readDdl (Mysql.exportSchema none "_u"ₛ (changedSchema noUuidColumn)) = some script ∧ ∀ t ∈ script, TimesAccepted t := by
  obtain ⟨script, h1, h2⟩ := C166_exact none "_u"ₛ (by unfold UnescapedName; decide) (changedSchema noUuidColumn)
    (fun t ht _ => changedSchema_plain _ noUuidColumn_plain t ht)
  refine ⟨script, h1, h2.2 fun t ht _ => ?_⟩
  rw [List.mem_singleton.1 ht]
  intro d hd
  rcases List.mem_cons.1 hd with rfl | hd
  · exact ⟨fun h => absurd h (by decide +kernel), fun h => absurd rfl h⟩
  · rw [List.mem_singleton.1 hd]
    exact ⟨fun _ => by decide +kernel, fun _ => by decide +kernel⟩

end Octo

namespace Octo.Cli
open Spec

/-- C166 on the command line: the file that `export mysql` writes can be read, and MySQL accepts its functions exactly under this condition
on the stored tables of the groups. -/
theorem C166_commands (w : World) (hw : Faithful w) (v : Values) (fs : Files) (s : Schema) (hst : Stored w fs (v "input"ₛ) s)
    (hsuf : UnescapedName (v "uniqueNameSuffix"ₛ)) (hwr : w.writable (pathOf (v "output"ₛ)) = true)
    (hp : ∀ t ∈ s.tables, passes (getTableFilterFn (v "groups"ₛ)) t = true → PlainTable t) :
    (action w .exportMysql v fs).status = .ok ∧ ∃ text script, (action w .exportMysql v fs).files.at (v "output"ₛ) = some (.text text) ∧
      readDdl text = some script ∧ ((∀ t ∈ script, TimesAccepted t) ↔
        ∀ t ∈ s.tables, passes (getTableFilterFn (v "groups"ₛ)) t = true → ∀ c ∈ t.columns, TimedColumn c) := by
  have e : action w .exportMysql v fs = ⟨fs.set (pathOf (v "output"ₛ))
      (.text (Mysql.exportSchema (getTableFilterFn (v "groups"ₛ)) (v "uniqueNameSuffix"ₛ) s)), .ok⟩ := by
    show exportMysqlAction w v fs = _
    unfold exportMysqlAction
    rw [withSchema_some (load_stored hw hst)]
    unfold write
    rw [if_pos hwr]
  rw [e]
  obtain ⟨script, h1, h2⟩ := C166_exact (getTableFilterFn (v "groups"ₛ)) _ hsuf s hp
  exact ⟨rfl, _, script, files_set_at _ _ _, h1, h2⟩

/-- **C166** is violated: the tool reads, checks and stores a schema with the default value `uuid()`, and MySQL does not accept the script. -/
theorem C166_violated : ∃ (v : Values) (fs : Files) (s : Schema), Stored demoWorld fs (v "input"ₛ) s ∧
    (action demoWorld .exportMysql v fs).status = .ok ∧ ∃ text script,
      (action demoWorld .exportMysql v fs).files.at (v "output"ₛ) = some (.text text) ∧
      readDdl text = some script ∧ ¬∀ t ∈ script, TimesAccepted t := by
  obtain ⟨fs, s, h1, h2⟩ := stored_demo demo_faithful (s := changedSchema uuidColumn) (by unfold DistinctTables; decide +kernel) (fun t ht =>
    ⟨(C04_accepts_iff tableSort tableSort_spec (changedSchema uuidColumn)).mp (by decide +kernel) t ht, by revert t; decide +kernel⟩)
  obtain ⟨h3, text, script, h4, h5, h6⟩ := C166_commands demoWorld demo_faithful
    (given [("input"ₛ, "a.json"ₛ), ("output"ₛ, "a.sql"ₛ), ("uniqueNameSuffix"ₛ, "_u"ₛ)]) fs s h1
    (by unfold UnescapedName; decide +kernel) (by decide +kernel)
    (fun t ht _ => changedSchema_plain _ uuidColumn_plain t (h2.mem_iff.1 ht))
  refine ⟨_, fs, s, h1, h3, text, script, h4, h5, fun h => ?_⟩
  have ht : (changedSchema uuidColumn).tables.head (by decide) ∈ s.tables := h2.mem_iff.2 (List.head_mem _)
  have hc := h6.1 h _ ht (by decide +kernel) uuidColumn (.head _)
  exact absurd (hc.default (by decide +kernel)).1 (by decide +kernel)

end Octo.Cli
