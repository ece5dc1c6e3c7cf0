import Verif.Props.MysqlDb

/-! C126, exactly: when the changelog builds all that the script builds. -/

namespace Octo
open Lq Spec

/-- The script does nothing that the changelogs of the tool have no words for: it has no index and no value on update. -/
def NothingElse (script : List DdlTable) : Prop :=
  ∀ t ∈ script, t.indexKeys = [] ∧ ∀ c ∈ t.columns, c.onUpdate = none

/-- What the script of a schema has beyond its changelog. -/
theorem nothingElse_iff (f : Column → Str) (suffix : Str) (ts : List Table) :
    NothingElse (ts.map (ddlTable f suffix)) ↔ ∀ t ∈ ts, t.indices = [] ∧ ∀ c ∈ t.columns, c.onUpdate = [] := by
  unfold NothingElse
  simp only [List.forall_mem_map, ddlTable_indexKeys, ddlTable_columns, List.map_eq_nil_iff]
  refine forall₂_congr fun t _ => and_congr Iff.rfl (forall₂_congr fun c _ => ?_)
  unfold ddlColumn
  dsimp only
  split
  · rename_i h; exact ⟨fun _ => h, fun _ => rfl⟩
  · rename_i h; exact ⟨fun e => (by cases e), fun e => absurd e h⟩

/-- **C126**, exactly: under the conditions on texts and names of the theorem above, script and changelog build the same database, and the
script builds nothing besides, if and only if no selected table has an index or a value on update. -/
theorem C126_exact (env : LqEnv) (hlist : env.listed = true) (pf : Str → Option Str) (opt : GenOption) (s : Schema)
    (hsuf : UnescapedName opt.uniqueNameSuffix)
    (hplain : ∀ t ∈ s.tables.filter (passes opt.tableFilter), PlainTable t)
    (hnd : ((s.tables.filter (passes opt.tableFilter)).map (·.name)).Nodup)
    (hkeys : ∀ t ∈ s.tables.filter (passes opt.tableFilter), GoodKeys opt.uniqueNameSuffix t)
    (hclean : ∀ t ∈ s.tables.filter (passes opt.tableFilter), CleanTable pf t)
    (hno : ∀ t ∈ s.tables, ¬env.system (t.name ++ opt.uniqueNameSuffix)) :
    (∃ script sets d e, readDdl (Mysql.exportSchema opt.tableFilter opt.uniqueNameSuffix s) = some script ∧
      generateAll pf opt s = some sets ∧ DdlRuns script (fun _ => none) d ∧
      Runs (changelogOps env sets) (fun _ => none) e ∧ SameDb env.system opt.useComments d e ∧ NothingElse script) ↔
    ∀ t ∈ s.tables.filter (passes opt.tableFilter), t.indices = [] ∧ ∀ c ∈ t.columns, c.onUpdate = [] := by
  have hr := C17_read_back opt.tableFilter opt.uniqueNameSuffix hsuf s (fun t ht hp => hplain t (List.mem_filter.2 ⟨ht, hp⟩))
  rw [← nothingElse_iff Mysql.toMysqlColumnType opt.uniqueNameSuffix]
  constructor
  · rintro ⟨script, sets, d, e, h1, -, -, -, -, h6⟩
    rw [hr] at h1
    rw [Option.some.inj h1]
    exact h6
  · intro h
    obtain ⟨script, sets, d, e, h1, h2, h3, h4, h5⟩ := C126_agree_partial env hlist pf opt s hsuf hplain hnd hkeys hclean hno
    refine ⟨script, sets, d, e, h1, h2, h3, h4, h5, ?_⟩
    rw [hr] at h1
    rw [← Option.some.inj h1]
    exact h

/-- C126: the index of the table `user` is missing. -/
example (onRename onRetype : LqAttr → LqAttr) : ¬∃ script sets d e,
    readDdl (Mysql.exportSchema none "_UQ"ₛ exScript) = some script ∧
    generateAll some { uniqueNameSuffix := "_UQ"ₛ } exScript = some sets ∧ DdlRuns script (fun _ => none) d ∧
    Runs (changelogOps ⟨true, fun _ c => '?' :: c, onRename, onRetype⟩ sets) (fun _ => none) e ∧
    SameDb (LqEnv.system ⟨true, fun _ c => '?' :: c, onRename, onRetype⟩) false d e ∧ NothingElse script := by
  intro h
  have := (C126_exact ⟨true, fun _ c => '?' :: c, onRename, onRetype⟩ rfl some { uniqueNameSuffix := "_UQ"ₛ } exScript
    (by unfold UnescapedName; decide) (fun t ht => exScript_plain t (List.mem_filter.1 ht).1) (by decide)
    (fun t ht => (exScript_keys t (List.mem_filter.1 ht).1).2) (fun t ht => exScript_clean t (List.mem_filter.1 ht).1)
    (fun t ht => exScript_names t ht _ _)).1 h _ (List.mem_of_getElem? (i := 0) rfl)
  exact absurd this.1 (by decide)

end Octo
