import Verif.Props.Reimport
import Verif.Props.DiffImported

/-! Property C155 on the command line. -/

namespace Octo.Cli
open Spec MysqlImport

/-- **C155** on the command line: after `import mysql` of a script from elsewhere, `export mysql` and `import mysql` leave the same tables
if and only if all table definitions of the script are among those that survive.  Only on the exported script the parser has to be the
known one. -/
theorem C155_commands_exact (w : World) (hw : Faithful w) (v u u' : Values) (fs fs₁ : Files) (stmts : List Stmt) (s : Schema)
    (hstmts : (fs.text (v "input"ₛ)).bind w.sql = some stmts)
    (h : importSql (split ',' (v "excludes"ₛ)) (v "author"ₛ) (v "version"ₛ) stmts = some s)
    (hn : ∀ x ∈ statedTables (split ',' (v "excludes"ₛ)) stmts, ∀ d ∈ x.2.1, d.tp.tp ≠ .null ∧ d.tp.tp ≠ .other)
    (hp : ∀ t ∈ s.tables, PlainTable t) (hk : ∀ t ∈ s.tables, ∀ c ∈ t.columns, KnownDefault c)
    (hi : ∀ t ∈ s.tables, ∀ c ∈ t.columns, c.autoIncremental = true → c.type ∈ integerTypes)
    (hd : (s.tables.map (·.name)).Nodup) (ho : IsOctopus (v "output"ₛ)) (hok : (action w .importMysql v fs).status = .ok)
    (hfs₁ : (action w .importMysql v fs).files = fs₁)
    (hsuf : UnescapedName (u "uniqueNameSuffix"ₛ)) (hu : u "input"ₛ = v "output"ₛ) (hg : u "groups"ₛ = [])
    (hu' : u' "input"ₛ = u "output"ₛ) (ho' : IsOctopus (u' "output"ₛ)) (hx : ∀ t ∈ s.tables, t.name ∉ split ',' (u' "excludes"ₛ))
    (hwu : w.writable (pathOf (u "output"ₛ)) = true) (hwu' : w.writable (pathOf (u' "output"ₛ)) = true)
    (hsql : ∀ s' : Schema, s'.tables.Perm s.tables → w.sql (Mysql.exportSchema none (u "uniqueNameSuffix"ₛ) s') =
      parseSql (Mysql.exportSchema none (u "uniqueNameSuffix"ₛ) s')) :
    ∃ s₁, load w fs₁ (v "output"ₛ) = some s₁ ∧ s₁.tables.Perm s.tables ∧
      (((action w .exportMysql u fs₁).status = .ok ∧ (action w .importMysql u' (action w .exportMysql u fs₁).files).status = .ok ∧
        load w (action w .importMysql u' (action w .exportMysql u fs₁).files).files (u' "output"ₛ) =
          some { author := u' "author"ₛ, version := u' "version"ₛ, tables := s₁.tables }) ↔
      ∀ x ∈ statedTables (split ',' (v "excludes"ₛ)) stmts, SurvivingTable x) := by
  have himp : action w .importMysql v fs = save w fs s (v "output"ₛ) := by
    show importMysqlAction w v fs = _
    unfold importMysqlAction
    rw [hstmts]
    dsimp only
    rw [h]
  rw [himp] at hok hfs₁
  have hdt : DistinctTables s := by
    rw [List.Nodup, List.pairwise_map] at hd
    exact hd.imp fun h h' => h h'.2
  have hst₁ : Stored w fs₁ (v "output"ₛ) (s.normalize w.sorter).1 := by
    rw [← hfs₁]
    exact save_stored ho hdt hok
  obtain ⟨tx, htx, -⟩ := save_done hok
  have hnorm : s.tables.map normTable = s.tables := by
    conv_rhs => rw [← List.map_id s.tables]
    refine List.map_congr_left fun t ht => ?_
    have : t.columns.map normColumn = t.columns := by
      conv_rhs => rw [← List.map_id t.columns]
      refine List.map_congr_left fun c hc => ?_
      have hcan : canon c.type = c.type := colTypes_canon _ ((hp t ht).columns c hc).type
      unfold normColumn
      rw [hcan]
      have : (c.autoIncremental && decide (c.type ∈ integerTypes)) = c.autoIncremental := by
        cases ha : c.autoIncremental with
        | false => rfl
        | true => rw [Bool.true_and]; exact decide_eq_true (hi t ht c hc ha)
      rw [this]
      rfl
    unfold normTable
    rw [this]
    rfl
  have hperm := (C02_normalize_frame w.sorter hw.sorter s (toJson_ok htx)).1
  rw [hnorm] at hperm
  refine ⟨_, load_stored hw hst₁, hperm, ?_⟩
  set s₁ := (s.normalize w.sorter).1 with hs₁
  have hload₁ : load w fs₁ (u "input"ₛ) = some s₁ := by rw [hu]; exact load_stored hw hst₁
  have hflu : getTableFilterFn (u "groups"ₛ) = none := by rw [hg]; rfl
  -- the same with the known parser
  obtain ⟨w', hw'⟩ : ∃ w' : World, w' = { w with sql := parseSql } := ⟨_, rfl⟩
  have hwf : Faithful w' := by
    obtain ⟨a, b, c, d, e, f⟩ := hw
    rw [hw']
    exact ⟨a, b, c, d, e, f⟩
  have hst' : Stored w' fs₁ (u "input"ₛ) s₁ := by rw [hw', hu]; exact hst₁
  have e1 : action w' .exportMysql u fs₁ = action w .exportMysql u fs₁ := by rw [hw']; rfl
  have e2 : action w' .importMysql u' (action w .exportMysql u fs₁).files = action w .importMysql u' (action w .exportMysql u fs₁).files := by
    have hf : (action w .exportMysql u fs₁).files.text (u' "input"ₛ) = some (Mysql.exportSchema none (u "uniqueNameSuffix"ₛ) s₁) := by
      show (exportMysqlAction w u fs₁).files.text _ = _
      unfold exportMysqlAction
      rw [withSchema_some hload₁]
      unfold write
      rw [if_pos hwu, hflu]
      unfold Files.text
      rw [hu', files_set_at]
    show importMysqlAction w' u' _ = importMysqlAction w u' _
    unfold importMysqlAction
    rw [hf, Option.bind_some, Option.bind_some, hsql s₁ hperm, hw']
    rfl
  have e3 : ∀ F f, load w' F f = load w F f := by intro F f; rw [hw']; rfl
  have key := C120_exact w' hwf (by rw [hw']) u u' fs₁ s₁ hst' hsuf (fun t ht _ => hp t (hperm.mem_iff.1 ht))
    (fun t ht _ => hk t (hperm.mem_iff.1 ht)) hu' ho' (by rw [hw']; exact hwu) (by rw [hw']; exact hwu')
  have hsel : (s₁.tables.filter fun t => passes (getTableFilterFn (u "groups"ₛ)) t && decide (t.name ∉ split ',' (u' "excludes"ₛ))) = s₁.tables := by
    refine List.filter_eq_self.2 fun t ht => ?_
    rw [hflu, decide_eq_true (hx t (hperm.mem_iff.1 ht))]
    rfl
  rw [e1, e2, e3, hsel] at key
  rw [key]
  rw [importSql_eq] at h
  obtain ⟨ts, hts, hsts⟩ := Option.map_eq_some_iff.1 h
  have hf := mapM_forall₂ hts
  have htab : s.tables = ts := by rw [← hsts]
  constructor
  · intro e x hxs
    obtain ⟨t, ht, hxt⟩ := forall₂_mem_left hf _ hxs
    rw [← htab] at ht
    have := e t (hperm.mem_iff.2 ht) (by rw [hflu]; rfl)
    rw [if_neg (hx t ht)] at this
    exact (imported_exact hxt (fun d hd => (hn x hxs d hd).1) (fun d hd => (hn x hxs d hd).2)).1 this
  · intro e t ht _
    have ht' := hperm.mem_iff.1 ht
    rw [if_neg (hx t ht')]
    rw [htab] at ht'
    obtain ⟨x, hxs, hxt⟩ := forall₂_mem_right hf _ ht'
    exact (imported_exact hxt (fun d hd => (hn x hxs d hd).1) (fun d hd => (hn x hxs d hd).2)).2 (e x hxs)

/-- C155: the commands on a script of which a table is left out. -/
example : ∃ (w : World) (v u u' : Values) (fs : Files) (s₁ : Schema), (fs.text (v "input"ₛ)).bind w.sql = some elsewhere ∧
    load w (action w .importMysql v fs).files (v "output"ₛ) = some s₁ ∧ s₁.tables.Perm exPortable.tables ∧
    load w (action w .importMysql u' (action w .exportMysql u (action w .importMysql v fs).files).files).files (u' "output"ₛ) =
      some { author := u' "author"ₛ, version := u' "version"ₛ, tables := s₁.tables } := by
  obtain ⟨w, hwdef⟩ : ∃ w : World, w = { demoWorld with sql := fun t => if t = "dump"ₛ then some elsewhere else parseSql t } := ⟨_, rfl⟩
  have hw : Faithful w := by
    obtain ⟨a, b, c, d, e, f⟩ := demo_faithful
    rw [hwdef]
    exact ⟨a, b, c, d, e, f⟩
  obtain ⟨v, hv⟩ : ∃ v, v = given [("input"ₛ, "dump.sql"ₛ), ("output"ₛ, "a.json"ₛ), ("excludes"ₛ, "log"ₛ)] := ⟨_, rfl⟩
  obtain ⟨u, hu⟩ : ∃ u, u = given [("input"ₛ, "a.json"ₛ), ("output"ₛ, "a.sql"ₛ), ("uniqueNameSuffix"ₛ, "_u"ₛ)] := ⟨_, rfl⟩
  obtain ⟨u', hu'⟩ : ∃ u', u' = given [("input"ₛ, "a.sql"ₛ), ("output"ₛ, "b.json"ₛ)] := ⟨_, rfl⟩
  obtain ⟨fs, hfs⟩ : ∃ fs : Files, fs = Files.set (fun _ => none) (pathOf "dump.sql"ₛ) (.text "dump"ₛ) := ⟨_, rfl⟩
  have hstmts : (fs.text (v "input"ₛ)).bind w.sql = some elsewhere := by
    have : fs.text (v "input"ₛ) = some "dump"ₛ := by rw [hfs, hv]; decide +kernel
    rw [this, hwdef]
    rfl
  have himp : importSql (split ',' (v "excludes"ₛ)) (v "author"ₛ) (v "version"ₛ) elsewhere = some exPortable := by rw [hv]; decide +kernel
  have hex : split ',' (v "excludes"ₛ) = ["log"ₛ] := by rw [hv]; decide +kernel
  have hok : (action w .importMysql v fs).status = .ok := by
    show (importMysqlAction w v fs).status = _
    unfold importMysqlAction
    rw [hstmts]
    dsimp only
    rw [himp]
    refine (save_status hw.sorter ?_).2 ((C04_accepts_iff tableSort tableSort_spec exPortable).mp (by decide +kernel))
    rw [hwdef, hv]
    decide +kernel
  have hsql : ∀ s' : Schema, s'.tables.Perm exPortable.tables → w.sql (Mysql.exportSchema none (u "uniqueNameSuffix"ₛ) s') =
      parseSql (Mysql.exportSchema none (u "uniqueNameSuffix"ₛ) s') := by
    intro s' hs
    have ht : s'.tables = exPortable.tables := List.perm_singleton.1 hs
    have he : Mysql.exportSchema none (u "uniqueNameSuffix"ₛ) s' = Mysql.exportSchema none (u "uniqueNameSuffix"ₛ) exPortable := by
      unfold Mysql.exportSchema
      rw [ht]
    rw [hwdef]
    refine if_neg ?_
    rw [he, hu]
    decide +kernel
  obtain ⟨s₁, h1, h2, h3⟩ := C155_commands_exact w hw v u u' fs _ elsewhere exPortable hstmts himp (by rw [hex]; decide +kernel)
    (fun t ht => (exPortable_tables t ht).toPlainTable) exPortable_known (by decide +kernel) (by decide +kernel)
    (by rw [hv]; decide +kernel) hok rfl (by rw [hu]; unfold UnescapedName; decide +kernel) (by rw [hu, hv]; rfl) (by rw [hu]; rfl)
    (by rw [hu, hu']; rfl) (by rw [hu']; decide +kernel) (by rw [hu']; decide +kernel) (by rw [hwdef, hu]; decide +kernel)
    (by rw [hwdef, hu']; decide +kernel) hsql
  refine ⟨w, v, u, u', fs, s₁, hstmts, h1, h2, (h3.2 ?_).2.2⟩
  rw [hex]
  have h := C155_exact ["log"ₛ] [] [] "_u"ₛ (by unfold UnescapedName; decide +kernel) elsewhere exPortable elsewhere_import (by decide +kernel)
    (fun t ht => (exPortable_tables t ht).toPlainTable) exPortable_known
  exact h.1 ((C21_exact none _ (by unfold UnescapedName; decide +kernel) exPortable (fun t ht _ => (exPortable_tables t ht).toPlainTable)
    (fun t ht _ => exPortable_known t ht) [] []).2 fun t ht _ => exPortable_expressible t ht)

end Octo.Cli
