import Verif.Props.SameScript

/-! Property C162: different scripts are imported as different schemas. -/

namespace Octo
open Spec MysqlImport

/-- C162: when two scripts that the exporter has written are imported as the same schema, they have the same statements, if both are
said again after the import. Neither the filters nor anything else of the two schemas has to agree. -/
theorem C162_injective_partial (filter filter' : Option (Table → Bool)) (suffix : Str) (hsuf : UnescapedName suffix) (s t : Schema)
    (hs : ∀ x ∈ s.tables, passes filter x = true → PlainTable x ∧ (∀ c ∈ x.columns, KnownDefault c) ∧ SaidAgainTable x)
    (ht : ∀ x ∈ t.tables, passes filter' x = true → PlainTable x ∧ (∀ c ∈ x.columns, KnownDefault c) ∧ SaidAgainTable x)
    (author version : Str) {u : Schema}
    (h1 : (parseSql (Mysql.exportSchema filter suffix s)).bind (importSql [] author version) = some u)
    (h2 : (parseSql (Mysql.exportSchema filter' suffix t)).bind (importSql [] author version) = some u) :
    parseSql (Mysql.exportSchema filter suffix s) = parseSql (Mysql.exportSchema filter' suffix t) := by
  have e1 := (C161_script_exact filter suffix hsuf s (fun x hx hp => (hs x hx hp).1) (fun x hx hp => (hs x hx hp).2.1) author version h1).2
    fun x hx hp => (hs x hx hp).2.2
  have e2 := (C161_script_exact filter' suffix hsuf t (fun x hx hp => (ht x hx hp).1) (fun x hx hp => (ht x hx hp).2.1) author version h2).2
    fun x hx hp => (ht x hx hp).2.2
  exact e1.symm.trans e2

/-- C162 is violated: by a default with a sign and no default, by `tinyint(1)` and `bit(1)`, and by an auto-increment that may be null and
one that may not. -/
theorem C162_violated (author version : Str) : ∀ p ∈ [(signedUser, oneUser [plainId]), (tinyUser, oneUser [{ plainId with type := "boolean"ₛ }]),
      (autoUser, oneUser [{ plainId with autoIncremental := true, primaryKey := true }])], ∃ u,
    (parseSql (Mysql.exportSchema none "_uq"ₛ p.1)).bind (importSql [] author version) = some u ∧
    (parseSql (Mysql.exportSchema none "_uq"ₛ p.2)).bind (importSql [] author version) = some u ∧
    parseSql (Mysql.exportSchema none "_uq"ₛ p.1) ≠ parseSql (Mysql.exportSchema none "_uq"ₛ p.2) := by
  have hsuf : UnescapedName "_uq"ₛ := by unfold UnescapedName; decide
  have key : ∀ s t : Schema, Scriptable "_uq"ₛ s → Scriptable "_uq"ₛ t → (∃ ts, s.tables.mapM (thereAndBack "_uq"ₛ) = some ts) →
      s.tables.mapM (thereAndBack "_uq"ₛ) = t.tables.mapM (thereAndBack "_uq"ₛ) →
      (s.tables.map (ddlTable Mysql.toMysqlColumnType "_uq"ₛ)).mapM stmtOf ≠ (t.tables.map (ddlTable Mysql.toMysqlColumnType "_uq"ₛ)).mapM stmtOf →
      ∃ u, (parseSql (Mysql.exportSchema none "_uq"ₛ s)).bind (importSql [] author version) = some u ∧
        (parseSql (Mysql.exportSchema none "_uq"ₛ t)).bind (importSql [] author version) = some u ∧
        parseSql (Mysql.exportSchema none "_uq"ₛ s) ≠ parseSql (Mysql.exportSchema none "_uq"ₛ t) := by
    rintro s t hs ht ⟨ts, hts⟩ he hne
    have hfil : ∀ l : List Table, l.filter (passes none) = l := fun l => List.filter_eq_self.2 fun _ _ => rfl
    refine ⟨{ author := author, tables := ts, version := version }, ?_, ?_, ?_⟩
    · rw [import_eq none _ hsuf s (fun t ht _ => (hs.plain t ht).1), hfil, hts]; rfl
    · rw [import_eq none _ hsuf t (fun x hx _ => (ht.plain x hx).1), hfil, ← he, hts]; rfl
    · unfold parseSql
      rw [C17_read_back none _ hsuf s (fun t ht _ => (hs.plain t ht).1), C17_read_back none _ hsuf t (fun x hx _ => (ht.plain x hx).1),
        hfil, hfil]
      exact hne
  simp only [List.forall_mem_cons, List.not_mem_nil, false_implies, implies_true, and_true]
  exact ⟨key _ _ (scriptable_of_check _ (s := signedUser) (by decide +kernel))
      (scriptable_of_check _ (s := oneUser [plainId]) (by decide +kernel)) (Option.isSome_iff_exists.1 (by decide +kernel)) (by decide +kernel)
      (by decide +kernel),
    key _ _ (scriptable_of_check _ (s := tinyUser) (by decide +kernel))
      (scriptable_of_check _ (s := oneUser [{ plainId with type := "boolean"ₛ }]) (by decide +kernel))
      (Option.isSome_iff_exists.1 (by decide +kernel)) (by decide +kernel) (by decide +kernel),
    key _ _ (scriptable_of_check _ (s := autoUser) (by decide +kernel))
      (scriptable_of_check _ (s := oneUser [{ plainId with autoIncremental := true, primaryKey := true }]) (by decide +kernel))
      (Option.isSome_iff_exists.1 (by decide +kernel)) (by decide +kernel) (by decide +kernel)⟩

/-- C162: two schemas that are imported as the same, one with a group, description and class name. -/
example : ∃ u, (parseSql (Mysql.exportSchema none "_u"ₛ settledDemo)).bind (importSql [] [] []) = some u ∧
    (parseSql (Mysql.exportSchema none "_u"ₛ exPortable)).bind (importSql [] [] []) = some u ∧ exPortable.tables ≠ settledDemo.tables ∧
    parseSql (Mysql.exportSchema none "_u"ₛ settledDemo) = parseSql (Mysql.exportSchema none "_u"ₛ exPortable) := by
  have h1 : UnescapedName "_u"ₛ := by unfold UnescapedName; decide +kernel
  have said : ∀ s : Schema, (∀ t ∈ s.tables, ∀ c ∈ t.columns, ¬(c.type = "int8"ₛ ∧ c.size = 1) ∧ (c.type = "char"ₛ ∨ c.type = "varchar"ₛ ∨
      lower c.defaultValue ≠ "null"ₛ ∧ c.defaultValue.head? ≠ some '-' ∧ c.defaultValue.head? ≠ some '+') ∧
      (c.autoIncremental = true → c.notNull = true)) → (∀ t ∈ s.tables, ∀ c ∈ t.columns, ∀ d ∈ t.columns, c.name = d.name →
        c.primaryKey = d.primaryKey ∧ c.uniqueKey = d.uniqueKey) → ∀ t ∈ s.tables, SaidAgainTable t := by
    intro s h h' t ht
    exact ⟨fun c hc => ⟨(h t ht c hc).1, (h t ht c hc).2.1, (h t ht c hc).2.2⟩, h' t ht⟩
  have hb : ((settledDemo.tables.filter (passes none)).mapM (thereAndBack "_u"ₛ)) = some exPortable.tables := by
    decide +kernel
  have hb' : ((exPortable.tables.filter (passes none)).mapM (thereAndBack "_u"ₛ)) = some exPortable.tables := by
    decide +kernel
  have h : (parseSql (Mysql.exportSchema none "_u"ₛ settledDemo)).bind (importSql [] [] []) = some { tables := exPortable.tables } := by
    rw [import_eq none _ h1 settledDemo fun t ht _ => (settledDemo_tables t ht).1, hb]
    rfl
  have h' : (parseSql (Mysql.exportSchema none "_u"ₛ exPortable)).bind (importSql [] [] []) = some { tables := exPortable.tables } := by
    rw [import_eq none _ h1 exPortable fun t ht _ => (exPortable_tables t ht).toPlainTable, hb']
    rfl
  exact ⟨_, h, h', by decide +kernel, C162_injective_partial none none _ h1 settledDemo exPortable
    (fun t ht _ => ⟨(settledDemo_tables t ht).1, (settledDemo_tables t ht).2, said _ (by decide +kernel) (by decide +kernel) t ht⟩)
    (fun t ht _ => ⟨(exPortable_tables t ht).toPlainTable, exPortable_known t ht, said _ (by decide +kernel) (by decide +kernel) t ht⟩)
    [] [] h h'⟩

end Octo
