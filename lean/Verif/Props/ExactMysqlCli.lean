import Verif.Props.ExactMysqlSchema
import Verif.Props.ExactSheetCli

/-! The exact condition for C120. -/

namespace Octo
open Spec MysqlImport

theorem colTypes_canon : ∀ t ∈ colTypes, canon t = t := by decide +kernel

theorem auto_options (n a : Bool) (dl ul : List Expr) (cm : Option Str) :
    decide (ColOption.autoIncrement ∈ columnOptions n a dl ul cm) = a := by
  unfold columnOptions
  cases n <;> cases a <;> simp

/-- Normalisation does not hide that a column has changed. -/
theorem column_of_norm {c : Column} (hp : PlainColumn c) (k : Keys) (d : ColumnDef)
    (hd : columnDefOf (ddlColumn Mysql.toMysqlColumnType c) = some d) (hb : normColumn (column k d) = c) : column k d = c := by
  unfold columnDefOf ddlColumn at hd
  simp only [Option.bind_eq_some_iff] at hd
  obtain ⟨⟨base, args⟩, hr, f, hf, dl, hdl, ul, hul, hd⟩ := hd
  cases Option.some.inj hd
  rw [← columnOptions] at hb ⊢
  set opts := columnOptions c.notNull c.autoIncremental dl ul (if c.description = [] then none else some c.description) with ho
  have hty : (columnType f).1 ∈ colTypes := by
    refine C21_canonical c hp.type hp.values (columnType f) ?_
    unfold reimported
    rw [hr, Option.bind_some]
    dsimp only at hf ⊢
    rw [hf]
    rfl
  have ht : (column k { name := c.name, tp := f, options := opts }).type = (columnType f).1 := by
    unfold column
    simp only [foldl_optionStep]
  have ha : (column k { name := c.name, tp := f, options := opts }).autoIncremental = c.autoIncremental := by
    unfold column
    simp only [foldl_optionStep, Bool.false_or]
    exact auto_options ..
  revert hb ht ha
  generalize column k { name := c.name, tp := f, options := opts } = b
  intro hb ht ha
  have hc : canon b.type = b.type := by rw [ht]; exact colTypes_canon _ hty
  have h2 : (b.autoIncremental && decide (canon b.type ∈ integerTypes)) = b.autoIncremental :=
    (congrArg Column.autoIncremental hb).trans ha.symm
  rw [← hb]
  unfold normColumn
  rw [h2, hc]

/-- Normalisation does not hide that a table has changed. -/
theorem table_of_norm {suffix : Str} {t u : Table} (hp : PlainTable t) (h : thereAndBack suffix t = some u) (hn : normTable u = t) : u = t := by
  obtain ⟨k, hk, -, -, -⟩ := ddl_keys (suffix := suffix) (t := t)
  rw [thereAndBack_eq, Option.bind_eq_some_iff] at h
  obtain ⟨cols, hcols, h⟩ := h
  split at h
  · cases h
  unfold importTable at h
  rw [hk, Option.map_some] at h
  cases Option.some.inj h
  have hc := congrArg Table.columns hn
  have hf := List.forall₂_map_left_iff.1 (mapM_forall₂ hcols)
  unfold normTable at hc
  dsimp only at hc
  rw [List.map_map] at hc
  have hcols' : cols.map (column k) = t.columns := by
    have : ∀ (l : List Column) (r : List ColumnDef), (∀ c ∈ l, PlainColumn c) →
        List.Forall₂ (fun c d => columnDefOf (ddlColumn Mysql.toMysqlColumnType c) = some d) l r →
        r.map (normColumn ∘ column k) = l → r.map (column k) = l := by
      intro l r hpl hf
      induction hf with
      | nil => intro _; rfl
      | @cons c d l r hcd _ ih =>
        intro he
        rw [List.map_cons, List.cons.injEq] at he ⊢
        exact ⟨column_of_norm (hpl c List.mem_cons_self) k d hcd he.1, ih (fun c hc => hpl c (List.mem_cons_of_mem _ hc)) he.2⟩
    exact this _ _ hp.columns hf hc
  conv_rhs => rw [← hn]
  unfold normTable
  dsimp only
  rw [List.map_map, hc, hcols']

theorem thereAndBack_name {suffix : Str} {t u : Table} (h : thereAndBack suffix t = some u) : u.name = t.name ∧ u.group = [] := by
  rw [thereAndBack_eq, Option.bind_eq_some_iff] at h
  obtain ⟨cols, hcols, h⟩ := h
  split at h
  · cases h
  unfold importTable at h
  rw [Option.map_eq_some_iff] at h
  obtain ⟨k, -, rfl⟩ := h
  exact ⟨rfl, rfl⟩

/-- The tables of a script that are not excluded are imported one by one. -/
theorem stated_excludes (suffix : Str) (ex : List Str) (ts : List Table) (sts : List Stmt)
    (h : (ts.map (ddlTable Mysql.toMysqlColumnType suffix)).mapM stmtOf = some sts) :
    (statedTables ex sts).mapM importTable = (ts.filter fun t => decide (t.name ∉ ex)).mapM (thereAndBack suffix) := by
  induction ts generalizing sts with
  | nil => cases h; rfl
  | cons t l ih =>
    rw [List.map_cons, List.mapM_cons] at h
    cases hs : stmtOf (ddlTable Mysql.toMysqlColumnType suffix t) with
    | none => rw [hs] at h; cases h
    | some st =>
      have hst : ∃ cols csts, st = .createTable t.name cols csts := by
        unfold stmtOf at hs
        rw [Option.bind_eq_some_iff] at hs
        obtain ⟨cols, -, hs⟩ := hs
        dsimp only at hs
        split at hs
        · cases hs
        · cases hs; exact ⟨_, _, rfl⟩
      obtain ⟨cols, csts, rfl⟩ := hst
      rw [hs] at h
      cases hl : (l.map (ddlTable Mysql.toMysqlColumnType suffix)).mapM stmtOf with
      | none => rw [hl] at h; cases h
      | some r =>
        rw [hl] at h
        cases h
        by_cases hx : t.name ∈ ex
        · have e : statedTables ex (.createTable t.name cols csts :: r) = statedTables ex r := by simp [statedTables, hx]
          have e2 : (t :: l).filter (fun t => decide (t.name ∉ ex)) = l.filter fun t => decide (t.name ∉ ex) :=
            List.filter_cons_of_neg (by simp [hx])
          rw [e, e2]; exact ih r hl
        · have e : statedTables ex (.createTable t.name cols csts :: r) = (t.name, cols, csts) :: statedTables ex r := by
            simp [statedTables, hx]
          have e2 : (t :: l).filter (fun t => decide (t.name ∉ ex)) = t :: l.filter fun t => decide (t.name ∉ ex) :=
            List.filter_cons_of_pos (by simp [hx])
          rw [e, e2, List.mapM_cons, List.mapM_cons, ih r hl]
          have : thereAndBack suffix t = importTable (t.name, cols, csts) := by
            unfold thereAndBack; rw [hs]; rfl
          rw [this]

/-- A table whose name occurs once is found again among the normalised tables. -/
theorem back_of_perm {suffix : Str} {ts us : List Table} (hp : ∀ t ∈ ts, PlainTable t)
    (hd : ts.Pairwise fun a b => ¬(a.group = b.group ∧ a.name = b.name)) (hb : ts.mapM (thereAndBack suffix) = some us)
    (hperm : ts.Perm (us.map normTable)) : ∀ t ∈ ts, thereAndBack suffix t = some t := by
  have hf := mapM_forall₂ hb
  have hg : ∀ t ∈ ts, t.group = [] := by
    intro t ht
    obtain ⟨u, hu, rfl⟩ := List.mem_map.1 (hperm.mem_iff.1 ht)
    obtain ⟨x, -, hx⟩ := Cli.forall₂_right hf hu
    exact (thereAndBack_name hx).2
  have hn : (ts.map (·.name)).Nodup := by
    rw [List.Nodup, List.pairwise_map]
    refine List.Pairwise.imp_of_mem ?_ hd
    intro a b ha hb h e
    exact h ⟨by rw [hg a ha, hg b hb], e⟩
  intro t ht
  obtain ⟨u, hu, hut⟩ := List.mem_map.1 (hperm.mem_iff.1 ht)
  obtain ⟨x, hx, hxu⟩ := Cli.forall₂_right hf hu
  have e : x = t := by
    refine List.inj_on_of_nodup_map hn hx ht ?_
    rw [← (thereAndBack_name hxu).1, ← hut]
    rfl
  subst e
  rw [hxu, table_of_norm (hp x hx) hxu hut]

end Octo

namespace Octo.Cli
open Spec MysqlImport

/-- MySQL accepts the statement that is written for a table. -/
def AcceptedTable (suffix : Str) (t : Table) : Prop := (parseSql (Mysql.exportSchema none suffix { tables := [t] })).isSome = true

theorem accepted_iff {suffix : Str} (hsuf : UnescapedName suffix) {t : Table} (hp : PlainTable t) :
    AcceptedTable suffix t ↔ ∃ st, stmtOf (ddlTable Mysql.toMysqlColumnType suffix t) = some st := by
  unfold AcceptedTable parseSql
  rw [C17_read_back none suffix hsuf { tables := [t] } (fun u hu _ => by rw [List.mem_singleton.1 hu]; exact hp), Option.bind_some]
  have e : ({ tables := [t] } : Schema).tables.filter (passes none) = [t] := rfl
  rw [e, List.map_cons, List.map_nil, List.mapM_cons]
  cases stmtOf (ddlTable Mysql.toMysqlColumnType suffix t) with
  | none => simp
  | some st => simp

/-- C120, exactly: for tables whose texts need no escaping and whose literals are known, exporting to MySQL and importing again leaves
exactly the selected tables that are not excluded, with author and version of the command line, if and only if MySQL can express these
tables and accepts the excluded ones. -/
theorem C120_exact (w : World) (hw : Faithful w) (hsql : w.sql = parseSql) (v v' : Values) (fs : Files) (s : Schema)
    (hst : Stored w fs (v "input"ₛ) s) (hsuf : UnescapedName (v "uniqueNameSuffix"ₛ))
    (hp : ∀ t ∈ s.tables, passes (getTableFilterFn (v "groups"ₛ)) t = true → PlainTable t)
    (hk : ∀ t ∈ s.tables, passes (getTableFilterFn (v "groups"ₛ)) t = true → ∀ c ∈ t.columns, KnownDefault c)
    (hin : v' "input"ₛ = v "output"ₛ) (ho : IsOctopus (v' "output"ₛ))
    (hwr : w.writable (pathOf (v "output"ₛ)) = true) (hwr' : w.writable (pathOf (v' "output"ₛ)) = true) :
    ((action w .exportMysql v fs).status = .ok ∧
      (action w .importMysql v' (action w .exportMysql v fs).files).status = .ok ∧
      load w (action w .importMysql v' (action w .exportMysql v fs).files).files (v' "output"ₛ) =
        some { author := v' "author"ₛ, version := v' "version"ₛ
               tables := s.tables.filter fun t => passes (getTableFilterFn (v "groups"ₛ)) t && decide (t.name ∉ split ',' (v' "excludes"ₛ)) }) ↔
    ∀ t ∈ s.tables, passes (getTableFilterFn (v "groups"ₛ)) t = true →
      if t.name ∈ split ',' (v' "excludes"ₛ) then AcceptedTable (v "uniqueNameSuffix"ₛ) t else ExpressibleTable t := by
  set flt := getTableFilterFn (v "groups"ₛ) with hflt
  set suffix := v "uniqueNameSuffix"ₛ with hsx
  set ex := split ',' (v' "excludes"ₛ) with hex
  set sel := s.tables.filter (passes flt) with hsel
  have hfil : (s.tables.filter fun t => passes flt t && decide (t.name ∉ ex)) = sel.filter fun t => decide (t.name ∉ ex) := by
    rw [hsel, List.filter_filter]
    exact List.filter_congr fun t _ => Bool.and_comm _ _
  rw [hfil]
  set kept := sel.filter fun t => decide (t.name ∉ ex) with hkept
  have hps : ∀ t ∈ sel, PlainTable t := fun t h => hp t (List.mem_filter.1 h).1 (List.mem_filter.1 h).2
  have hks : ∀ t ∈ sel, ∀ c ∈ t.columns, KnownDefault c := fun t h => hk t (List.mem_filter.1 h).1 (List.mem_filter.1 h).2
  set text := Mysql.exportSchema flt suffix s with htext
  set fs' := fs.set (pathOf (v "output"ₛ)) (.text text) with hfs'
  have e : action w .exportMysql v fs = ⟨fs', .ok⟩ := by
    show exportMysqlAction w v fs = _
    unfold exportMysqlAction
    rw [withSchema_some (load_stored hw hst)]
    unfold write
    rw [if_pos hwr]
  have hparse : parseSql text = (sel.map (ddlTable Mysql.toMysqlColumnType suffix)).mapM stmtOf := by
    unfold parseSql
    rw [htext, C17_read_back flt suffix hsuf s hp, Option.bind_some]
  have ha : action w .importMysql v' fs' = importMysqlAction w v' fs' := rfl
  have hread : (fs'.text (v' "input"ₛ)).bind w.sql = parseSql text := by
    unfold Files.text
    rw [hin, hfs', files_set_at, hsql]
    rfl
  obtain ⟨hsorted, hnorm⟩ := stored_sorted hw hst
  have hdis : kept.Pairwise fun a b => ¬(a.group = b.group ∧ a.name = b.name) :=
    List.Pairwise.filter _ (List.Pairwise.filter _ (stored_distinct hw hst))
  rw [e]
  simp only [true_and]
  constructor
  · rintro ⟨h2, h3⟩
    rw [ha] at h2 h3
    unfold importMysqlAction at h2 h3
    rw [hread, hparse] at h2 h3
    cases hm : (sel.map (ddlTable Mysql.toMysqlColumnType suffix)).mapM stmtOf with
    | none => rw [hm] at h2; cases h2
    | some sts =>
      rw [hm] at h2 h3
      dsimp only at h2 h3
      rw [importSql_eq, stated_excludes suffix _ sel sts hm] at h2 h3
      cases hb : kept.mapM (thereAndBack suffix) with
      | none => rw [hb] at h2; cases h2
      | some us =>
        rw [hb] at h2 h3
        dsimp only [Option.map_some] at h2 h3
        have hperm := saved_perm hw hw h2 ho h3
        have hall := back_of_perm (fun t h => hps t (List.mem_filter.1 h).1) hdis hb hperm
        intro t ht hf
        have htm : t ∈ sel := List.mem_filter.2 ⟨ht, hf⟩
        split
        · rw [accepted_iff hsuf (hps t htm)]
          obtain ⟨st, -, hst⟩ := forall₂_left (mapM_forall₂ hm) (List.mem_map.2 ⟨t, htm, rfl⟩)
          exact ⟨st, hst⟩
        · rename_i hx
          exact (table_exact (hps t htm) (hks t htm)).1 (hall t (List.mem_filter.2 ⟨htm, decide_eq_true hx⟩))
  · intro h
    have hm : ∃ sts, (sel.map (ddlTable Mysql.toMysqlColumnType suffix)).mapM stmtOf = some sts := by
      cases hm : (sel.map (ddlTable Mysql.toMysqlColumnType suffix)).mapM stmtOf with
      | some sts => exact ⟨sts, rfl⟩
      | none =>
        obtain ⟨d, hd, hn⟩ := mapM_eq_none.1 hm
        obtain ⟨t, ht, rfl⟩ := List.mem_map.1 hd
        have := h t (List.mem_filter.1 ht).1 (List.mem_filter.1 ht).2
        split at this
        · obtain ⟨st, hst⟩ := (accepted_iff hsuf (hps t ht)).1 this
          rw [hn] at hst; cases hst
        · have := (table_exact (suffix := suffix) (hps t ht) (hks t ht)).2 this
          unfold thereAndBack at this
          rw [hn] at this; cases this
    obtain ⟨sts, hm⟩ := hm
    have hb : kept.mapM (thereAndBack suffix) = some kept := by
      rw [mapM_self_iff]
      intro t ht
      obtain ⟨h1, h2⟩ := List.mem_filter.1 ht
      have := h t (List.mem_filter.1 h1).1 (List.mem_filter.1 h1).2
      rw [if_neg (of_decide_eq_true h2)] at this
      exact (table_exact (hps t h1) (hks t h1)).2 this
    set s' : Schema := { author := v' "author"ₛ, version := v' "version"ₛ, tables := kept } with hs'
    have e' : action w .importMysql v' fs' = save w fs' s' (v' "output"ₛ) := by
      rw [ha]
      unfold importMysqlAction
      rw [hread, hparse, hm]
      dsimp only
      rw [importSql_eq, stated_excludes suffix _ sel sts hm, ← hex, ← hkept, hb]
      rfl
    rw [e']
    have hd : DistinctTables s' := hdis
    have hfix := normalize_fix hw.sorter (s := s') hd (List.Pairwise.filter _ (List.Pairwise.filter _ hsorted))
      (fun t h => hnorm t (List.mem_filter.1 (List.mem_filter.1 h).1).1)
    have hok : (save w fs' s' (v' "output"ₛ)).status = .ok :=
      (save_status hw.sorter hwr').mpr ((C04_accepts_iff w.sorter hw.sorter _).mp (by rw [hfix]))
    refine ⟨hok, ?_⟩
    rw [load_stored hw (save_stored ho hd hok), hfix]

/-- C120: the tables of C21 come back when nothing is excluded. -/
example : ∃ (w : World) (v v' : Values) (fs : Files) (s : Schema), Stored w fs (v "input"ₛ) s ∧ s.tables.length = 1 ∧
    (action w .exportMysql v fs).status = .ok ∧
    (action w .importMysql v' (action w .exportMysql v fs).files).status = .ok ∧
    load w (action w .importMysql v' (action w .exportMysql v fs).files).files (v' "output"ₛ) = some { tables := s.tables } := by
  have hw : Faithful { demoWorld with sql := parseSql } := by
    obtain ⟨a, b, c, d, e, f⟩ := demo_faithful
    exact ⟨a, b, c, d, e, f⟩
  obtain ⟨fs, s, h1, h2⟩ := stored_demo hw (s := exPortable) (by unfold DistinctTables; decide +kernel) (fun t ht =>
    ⟨(C04_accepts_iff tableSort tableSort_spec exPortable).mp (by decide +kernel) t ht, by revert t; decide +kernel⟩)
  have hs : ∀ t ∈ s.tables, t ∈ exPortable.tables := fun t h => h2.mem_iff.mp h
  refine ⟨_, given [("input"ₛ, "a.json"ₛ), ("output"ₛ, "a.sql"ₛ), ("uniqueNameSuffix"ₛ, "_u"ₛ)],
    given [("input"ₛ, "a.sql"ₛ), ("output"ₛ, "b.json"ₛ)], fs, s, h1, h2.length_eq, ?_⟩
  have := (C120_exact _ hw rfl (given [("input"ₛ, "a.json"ₛ), ("output"ₛ, "a.sql"ₛ), ("uniqueNameSuffix"ₛ, "_u"ₛ)])
    (given [("input"ₛ, "a.sql"ₛ), ("output"ₛ, "b.json"ₛ)]) fs s h1 (by unfold UnescapedName; decide +kernel)
    (fun t h _ => (exPortable_tables t (hs t h)).toPlainTable) (fun t h _ => exPortable_known t (hs t h)) rfl
    (by decide +kernel) (by decide +kernel) (by decide +kernel)).2 (fun t h _ => by
      rw [if_neg]
      · exact exPortable_expressible t (hs t h)
      · have : ∀ t ∈ exPortable.tables, t.name ∉ split ',' (given [("input"ₛ, "a.sql"ₛ), ("output"ₛ, "b.json"ₛ)] "excludes"ₛ) := by
          decide +kernel
        exact this t (hs t h))
  refine ⟨this.1, this.2.1, ?_⟩
  refine Eq.trans this.2.2 ?_
  refine congrArg some ?_
  have e : ∀ t ∈ exPortable.tables, (passes (getTableFilterFn (given [("input"ₛ, "a.json"ₛ), ("output"ₛ, "a.sql"ₛ),
      ("uniqueNameSuffix"ₛ, "_u"ₛ)] "groups"ₛ)) t &&
      decide (t.name ∉ split ',' (given [("input"ₛ, "a.sql"ₛ), ("output"ₛ, "b.json"ₛ)] "excludes"ₛ))) = true := by
    decide +kernel
  rw [List.filter_eq_self.2 fun t h => e t (hs t h)]
  rfl

/-- C120: a table with a group does not come back, whatever the runtime. -/
example (w : World) (hw : Faithful w) (hsql : w.sql = parseSql) (v v' : Values) (fs : Files) (s : Schema)
    (hst : Stored w fs (v "input"ₛ) s) (hsuf : UnescapedName (v "uniqueNameSuffix"ₛ))
    (hp : ∀ t ∈ s.tables, passes (getTableFilterFn (v "groups"ₛ)) t = true → PlainTable t)
    (hk : ∀ t ∈ s.tables, passes (getTableFilterFn (v "groups"ₛ)) t = true → ∀ c ∈ t.columns, KnownDefault c)
    (hin : v' "input"ₛ = v "output"ₛ) (ho : IsOctopus (v' "output"ₛ))
    (hwr : w.writable (pathOf (v "output"ₛ)) = true) (hwr' : w.writable (pathOf (v' "output"ₛ)) = true)
    (t : Table) (ht : t ∈ s.tables) (hf : passes (getTableFilterFn (v "groups"ₛ)) t = true) (hg : t.group ≠ [])
    (hx : t.name ∉ split ',' (v' "excludes"ₛ)) :
    ¬((action w .exportMysql v fs).status = .ok ∧
      (action w .importMysql v' (action w .exportMysql v fs).files).status = .ok ∧
      load w (action w .importMysql v' (action w .exportMysql v fs).files).files (v' "output"ₛ) =
        some { author := v' "author"ₛ, version := v' "version"ₛ
               tables := s.tables.filter fun t => passes (getTableFilterFn (v "groups"ₛ)) t && decide (t.name ∉ split ',' (v' "excludes"ₛ)) }) := by
  rw [C120_exact w hw hsql v v' fs s hst hsuf hp hk hin ho hwr hwr']
  intro h
  have := h t ht hf
  rw [if_neg hx] at this
  exact hg this.noGroup

end Octo.Cli
