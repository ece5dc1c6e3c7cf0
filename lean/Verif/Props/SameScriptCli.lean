import Verif.Props.SameScript

/-! Property C161 on the command line. -/

namespace Octo
open Spec MysqlImport

/-- Integers that are no `tinyint(1)` are imported as the same integers. -/
theorem integer_back {c : Column} (hi : c.type ∈ integerTypes) (h1 : ¬(c.type = "int8"ₛ ∧ c.size = 1)) (hv : ∀ v ∈ c.values, Unescaped v)
    {base : Str} {args : List Str} {f : FieldType} (hr : readType (Mysql.toMysqlColumnType c) = some (base, args))
    (hf : fieldOf base args = some f) : (columnType f).1 = c.type := by
  obtain ⟨e, he, hte, hs, hno⟩ : ∃ e ∈ mysqlTypes, c.type = e.1 ∧ e.2.2 = .sized ∧ ∀ x y, fieldOf e.2.1 [x, y] = none := by
    simp only [integerTypes, List.mem_cons, List.not_mem_nil, or_false] at hi
    rcases hi with h | h | h | h | h
    · exact ⟨("int8"ₛ, "tinyint"ₛ, .sized), by decide, h, rfl, fun _ _ => rfl⟩
    · exact ⟨("int16"ₛ, "smallint"ₛ, .sized), by decide, h, rfl, fun _ _ => rfl⟩
    · exact ⟨("int24"ₛ, "mediumint"ₛ, .sized), by decide, h, rfl, fun _ _ => rfl⟩
    · exact ⟨("int32"ₛ, "int"ₛ, .sized), by decide, h, rfl, fun _ _ => rfl⟩
    · exact ⟨("int64"ₛ, "bigint"ₛ, .sized), by decide, h, rfl, fun _ _ => rfl⟩
  rw [readType_eq hv he hte] at hr
  cases Option.some.inj hr
  obtain ⟨c', hc'⟩ : ∃ c' : Column, c' = { c with scale := 0, values := [] } := ⟨_, rfl⟩
  have hargs : typeArgs e.2.2 c' = typeArgs e.2.2 c := by
    have ha : typeArgs e.2.2 c = if c.size = 0 then [] else if c.scale = 0 then [itoa c.size.toNat]
        else [itoa c.size.toNat, itoa c.scale.toNat] := by rw [hs]; rfl
    have ha' : typeArgs e.2.2 c' = if c.size = 0 then [] else [itoa c.size.toNat] := by
      rw [hs, hc']
      unfold typeArgs
      dsimp only
      rw [if_pos (c := (0 : UInt16) = 0) rfl]
    rw [ha, ha']
    split
    · rfl
    · rename_i h0
      rw [ha, if_neg h0] at hf
      split
      · rfl
      · rename_i h2
        rw [if_neg h2, hno] at hf
        cases hf
  have hp : PortableType c' := by
    rw [hc']
    by_cases h8 : c.type = "int8"ₛ
    · exact Or.inr (Or.inr (Or.inr (Or.inl ⟨h8, fun h => h1 ⟨h8, h⟩, rfl, rfl⟩)))
    · refine Or.inr (Or.inr (Or.inl ⟨?_, rfl, rfl⟩))
      show c.type ∈ _
      simp only [integerTypes, List.mem_cons, List.not_mem_nil, or_false] at hi
      rcases hi.resolve_left h8 with h | h | h | h <;> rw [h] <;> decide
  have hv' : ∀ v ∈ c'.values, Unescaped v := by rw [hc']; exact fun v hv => absurd hv List.not_mem_nil
  obtain ⟨b, a, f', e1, e2, e3, -⟩ := C21_type_partial c' hp hv'
  have ht' : c'.type = e.1 := by rw [hc']; exact hte
  rw [readType_eq hv' he ht'] at e1
  cases Option.some.inj e1
  rw [hargs, hf] at e2
  cases Option.some.inj e2
  rw [e3, hc']

/-- Auto-increment is said. -/
theorem said_auto_def {c : Column} {d : ColumnDef} (hd : columnDefOf (ddlColumn Mysql.toMysqlColumnType c) = some d) :
    ColOption.autoIncrement ∈ d.options ↔ c.autoIncremental = true := by
  unfold columnDefOf ddlColumn at hd
  simp only [Option.bind_eq_some_iff] at hd
  obtain ⟨_, _, _, _, _, _, _, _, hd⟩ := hd
  cases Option.some.inj hd
  exact said_auto ..

/-- The definition of a column after the import and normalisation. -/
theorem column_norm {c : Column} (hp : PlainColumn c) (hkd : KnownDefault c) (hi : c.autoIncremental = true → c.type ∈ integerTypes) (k : Keys) (d : ColumnDef)
    (hd : columnDefOf (ddlColumn Mysql.toMysqlColumnType c) = some d) :
    columnDefOf (ddlColumn Mysql.toMysqlColumnType (normColumn (column k d))) = some d ↔ SaidAgain c := by
  rw [← column_again hp k d hd]
  obtain ⟨hpc, -⟩ := column_settles hp hkd k d hd
  have hcan : canon (column k d).type = (column k d).type := colTypes_canon _ hpc.type
  have ha := (column_kept hp k d hd).1
  have same : ∀ a : Bool, (a = true ↔ (column k d).autoIncremental = true) → a = ((column k d).autoIncremental && decide (canon (column k d).type ∈ integerTypes)) →
      normColumn (column k d) = column k d := by
    intro a h1 h2
    have : a = (column k d).autoIncremental := Bool.eq_iff_iff.2 h1
    unfold normColumn
    rw [← h2, this, hcan]
  constructor
  · intro h
    have h1 := said_auto_def h
    rw [said_auto_def hd, ← ha] at h1
    rw [same _ h1.symm rfl] at h
    exact h
  · intro h
    have hs := (column_again hp k d hd).1 h
    rw [same (column k d).autoIncremental Iff.rfl ?_]
    · exact h
    · cases hb : (column k d).autoIncremental with
      | false => rfl
      | true =>
        rw [Bool.true_and, hcan]
        refine (decide_eq_true ?_).symm
        rw [ha] at hb
        have hci := hi hb
        unfold columnDefOf ddlColumn at hd
        simp only [Option.bind_eq_some_iff] at hd
        obtain ⟨⟨base, args⟩, hr, f, hf, _, _, _, _, hd⟩ := hd
        cases Option.some.inj hd
        have ht := integer_back hci hs.type hp.values hr hf
        unfold column
        simp only [foldl_optionStep]
        rw [ht]
        exact hci

/-- The statement of a table after the import and normalisation. -/
theorem table_norm {suffix : Str} {t u : Table} (hp : PlainTable t) (hkd : ∀ c ∈ t.columns, KnownDefault c)
    (hi : ∀ c ∈ t.columns, c.autoIncremental = true → c.type ∈ integerTypes) (h : thereAndBack suffix t = some u) :
    (∃ st, stmtOf (ddlTable Mysql.toMysqlColumnType suffix t) = some st) ∧
    (stmtOf (ddlTable Mysql.toMysqlColumnType suffix (normTable u)) = stmtOf (ddlTable Mysql.toMysqlColumnType suffix t) ↔
      SaidAgainTable t) := by
  obtain ⟨h0, hagain⟩ := table_again hp h
  refine ⟨h0, ?_⟩
  rw [← hagain]
  obtain ⟨k, hk, -, -, -⟩ := ddl_keys (suffix := suffix) (t := t)
  rw [thereAndBack_eq, Option.bind_eq_some_iff] at h
  obtain ⟨cols, hcols, h⟩ := h
  split at h
  · cases h
  rename_i hno
  unfold importTable at h
  rw [hk, Option.map_some] at h
  have hu := (Option.some.inj h).symm
  clear h
  have hst : stmtOf (ddlTable Mysql.toMysqlColumnType suffix t) = some (.createTable t.name cols (ddlConstraints suffix t)) := by
    unfold stmtOf
    rw [filterMap_defColumn, filterMap_defConstraint, hcols, Option.bind_some]
    dsimp only
    rw [if_neg hno]
    rfl
  have hf := List.forall₂_map_left_iff.1 (mapM_forall₂ hcols)
  have hname : u.name = t.name := by rw [hu]
  have hcu : u.columns = cols.map (column k) := by rw [hu]
  have hcon : ddlConstraints suffix (normTable u) = ddlConstraints suffix u := by
    refine (ddlConstraints_eq (u := normTable u) (t := u) rfl rfl).2 ⟨?_, ?_⟩
    · show ((u.columns.map normColumn).filter _).map _ = _
      rw [List.filter_map, List.map_map]
      rfl
    · show ((u.columns.map normColumn).filter _).map _ = _
      rw [List.filter_map, List.map_map]
      rfl
  have hcol : ((normTable u).columns.map (ddlColumn Mysql.toMysqlColumnType)).mapM columnDefOf = some cols ↔
      (u.columns.map (ddlColumn Mysql.toMysqlColumnType)).mapM columnDefOf = some cols := by
    show ((u.columns.map normColumn).map _).mapM _ = _ ↔ _
    rw [hcu, List.map_map, List.map_map, List.map_map, mapM_self, mapM_self]
    refine forall₂_congr fun d hd => ?_
    obtain ⟨c, hc, hcd⟩ := forall₂_mem_right hf d hd
    exact (column_norm (hp.columns c hc) (hkd c hc) (hi c hc) k d hcd).trans (column_again (hp.columns c hc) k d hcd).symm
  have key : ∀ z : Table, z.name = t.name → ddlConstraints suffix z = ddlConstraints suffix u →
      (stmtOf (ddlTable Mysql.toMysqlColumnType suffix z) = stmtOf (ddlTable Mysql.toMysqlColumnType suffix t) ↔
        (z.columns.map (ddlColumn Mysql.toMysqlColumnType)).mapM columnDefOf = some cols ∧ ddlConstraints suffix u = ddlConstraints suffix t) := by
    intro z hz hzc
    rw [hst]
    unfold stmtOf
    rw [filterMap_defColumn, filterMap_defConstraint]
    constructor
    · intro h
      rw [Option.bind_eq_some_iff] at h
      obtain ⟨cols', hcols', h⟩ := h
      dsimp only at h
      split at h
      · cases h
      have h := Stmt.createTable.inj (Option.some.inj h)
      rw [h.2.1] at hcols'
      exact ⟨hcols', hzc.symm.trans h.2.2⟩
    · rintro ⟨h1, h2⟩
      rw [h1, hzc, h2, Option.bind_some]
      dsimp only
      rw [if_neg hno]
      show some (Stmt.createTable z.name _ _) = _
      rw [hz]
  rw [key (normTable u) hname hcon, key u hname rfl, hcol]

/-- Lists whose elements are told apart by a key, in the same order, are permutations of each other only if they are equal. -/
theorem perm_keys {α β : Type} (k : α → β) : ∀ {l r : List α}, l.map k = r.map k → (r.map k).Nodup → l.Perm r → l = r
  | [], [], _, _, _ => rfl
  | [], _ :: _, h, _, _ => by cases h
  | _ :: _, [], h, _, _ => by cases h
  | a :: l, b :: r, h, hn, hp => by
    rw [List.map_cons, List.map_cons, List.cons.injEq] at h
    rw [List.map_cons, List.nodup_cons] at hn
    have hab : a = b := by
      rcases List.mem_cons.1 (hp.mem_iff.1 List.mem_cons_self) with e | e
      · exact e
      · exact absurd (by rw [← h.1]; exact List.mem_map_of_mem e) hn.1
    subst hab
    rw [perm_keys k h.2 hn.2 ((List.perm_cons a).1 hp)]

theorem mapM_filterMap {α β : Type} {f : α → Option β} : ∀ {l : List α}, (∀ a ∈ l, ∃ b, f a = some b) → l.mapM f = some (l.filterMap f)
  | [], _ => rfl
  | a :: l, h => by
    obtain ⟨b, hb⟩ := h a List.mem_cons_self
    rw [List.mapM_cons, hb, mapM_filterMap fun a ha => h a (List.mem_cons_of_mem _ ha), List.filterMap_cons, hb]
    rfl

/-- The name of the table of a statement. -/
def stmtTable : Stmt → Str
  | .createTable n _ _ => n
  | _ => []

theorem stmt_name {suffix : Str} {t : Table} {st : Stmt} (h : stmtOf (ddlTable Mysql.toMysqlColumnType suffix t) = some st) :
    stmtTable st = t.name := by
  unfold stmtOf at h
  rw [Option.bind_eq_some_iff] at h
  obtain ⟨cols, -, h⟩ := h
  dsimp only at h
  split at h
  · cases h
  · cases Option.some.inj h
    rfl

end Octo

namespace Octo.Cli
open Spec MysqlImport

/-- **C161** on the command line: after `export mysql` and `import mysql` have succeeded, `export mysql` of the imported file writes a
script with the same statements up to their order in exactly these cases. -/
theorem C161_commands_exact (w : World) (hw : Faithful w) (hsql : w.sql = parseSql) (v v' u : Values) (fs : Files) (s : Schema)
    (hst : Stored w fs (v "input"ₛ) s) (hsuf : UnescapedName (v "uniqueNameSuffix"ₛ))
    (hp : ∀ t ∈ s.tables, passes (getTableFilterFn (v "groups"ₛ)) t = true → PlainTable t)
    (hk : ∀ t ∈ s.tables, passes (getTableFilterFn (v "groups"ₛ)) t = true → ∀ c ∈ t.columns, KnownDefault c)
    (hn : ((s.tables.filter (passes (getTableFilterFn (v "groups"ₛ)))).map (·.name)).Nodup)
    (hwr : w.writable (pathOf (v "output"ₛ)) = true) (hin : v' "input"ₛ = v "output"ₛ) (ho : IsOctopus (v' "output"ₛ))
    (hx : ∀ t ∈ s.tables, t.name ∉ split ',' (v' "excludes"ₛ))
    (hok : (action w .importMysql v' (action w .exportMysql v fs).files).status = .ok)
    (hu : u "input"ₛ = v' "output"ₛ) (hgu : u "groups"ₛ = []) (hus : u "uniqueNameSuffix"ₛ = v "uniqueNameSuffix"ₛ)
    (hwu : w.writable (pathOf (u "output"ₛ)) = true) {fs₁ : Files}
    (hfs₁ : (action w .importMysql v' (action w .exportMysql v fs).files).files = fs₁) :
    ∃ first second a b, (action w .exportMysql v fs).files.at (v "output"ₛ) = some (.text first) ∧
      (action w .exportMysql u fs₁).status = .ok ∧ (action w .exportMysql u fs₁).files.at (u "output"ₛ) = some (.text second) ∧
      parseSql first = some a ∧ parseSql second = some b ∧
      (b.Perm a ↔ ∀ t ∈ s.tables, passes (getTableFilterFn (v "groups"ₛ)) t = true → SaidAgainTable t) := by
  set flt := getTableFilterFn (v "groups"ₛ) with hflt
  set suffix := v "uniqueNameSuffix"ₛ with hsx
  set sel := s.tables.filter (passes flt) with hsel
  have hps : ∀ t ∈ sel, PlainTable t := fun t h => hp t (List.mem_filter.1 h).1 (List.mem_filter.1 h).2
  have hks : ∀ t ∈ sel, ∀ c ∈ t.columns, KnownDefault c := fun t h => hk t (List.mem_filter.1 h).1 (List.mem_filter.1 h).2
  set text := Mysql.exportSchema flt suffix s with htext
  set fs' := fs.set (pathOf (v "output"ₛ)) (.text text) with hfs'
  have e : action w .exportMysql v fs = ⟨fs', .ok⟩ := by
    show exportMysqlAction w v fs = _
    unfold exportMysqlAction
    rw [withSchema_some (load_stored hw hst)]
    unfold write
    rw [if_pos hwr]
  have hread : (fs'.text (v' "input"ₛ)).bind w.sql = parseSql text := by
    unfold Files.text
    rw [hin, hfs', files_set_at, hsql]
    rfl
  have ha : action w .importMysql v' fs' = importMysqlAction w v' fs' := rfl
  rw [e, ha] at hok hfs₁
  unfold importMysqlAction at hok hfs₁
  rw [hread] at hok hfs₁
  have hparse : parseSql text = (sel.map (ddlTable Mysql.toMysqlColumnType suffix)).mapM stmtOf := by
    unfold parseSql
    rw [htext, C17_read_back flt suffix hsuf s hp, Option.bind_some]
  rw [hparse] at hok hfs₁
  have hex : (sel.filter fun t => decide (t.name ∉ split ',' (v' "excludes"ₛ))) = sel :=
    List.filter_eq_self.2 fun t ht => decide_eq_true (hx t (List.mem_filter.1 ht).1)
  cases hm : (sel.map (ddlTable Mysql.toMysqlColumnType suffix)).mapM stmtOf with
  | none => rw [hm] at hok; cases hok
  | some sts =>
  rw [hm] at hok hfs₁
  dsimp only at hok hfs₁
  rw [importSql_eq, stated_excludes suffix _ sel sts hm, hex] at hok hfs₁
  cases hb : sel.mapM (thereAndBack suffix) with
  | none => rw [hb] at hok; cases hok
  | some us =>
  rw [hb] at hok hfs₁
  dsimp only [Option.map_some] at hok hfs₁
  set s₀ : Schema := { author := v' "author"ₛ, tables := us, version := v' "version"ₛ } with hs₀
  have hf := mapM_forall₂ hb
  have hnames : us.map (·.name) = sel.map (·.name) := (Lq.forall₂_map hf fun t u e => (thereAndBack_name e).1.symm).symm
  have hdt : DistinctTables s₀ := by
    have hn' : (us.map (·.name)).Nodup := by rw [hnames]; exact hn
    rw [List.Nodup, List.pairwise_map] at hn'
    exact hn'.imp fun h h' => h h'.2
  have hst₁ : Stored w fs₁ (v' "output"ₛ) (s₀.normalize w.sorter).1 := by
    rw [← hfs₁]
    exact save_stored ho hdt hok
  obtain ⟨tx, htx, hfiles⟩ := save_done hok
  have hperm : (s₀.normalize w.sorter).1.tables.Perm (us.map normTable) := (C02_normalize_frame w.sorter hw.sorter s₀ (toJson_ok htx)).1
  set s₁ := (s₀.normalize w.sorter).1 with hs₁
  have hload₁ : load w fs₁ (u "input"ₛ) = some s₁ := by rw [hu]; exact load_stored hw hst₁
  have hflu : getTableFilterFn (u "groups"ₛ) = none := by rw [hgu]; rfl
  set text' := Mysql.exportSchema none suffix s₁ with htext'
  have e' : action w .exportMysql u fs₁ = ⟨fs₁.set (pathOf (u "output"ₛ)) (.text text'), .ok⟩ := by
    show exportMysqlAction w u fs₁ = _
    unfold exportMysqlAction
    rw [withSchema_some hload₁]
    unfold write
    rw [if_pos hwu, hflu, hus]
  let g : Table → Option Stmt := fun t => stmtOf (ddlTable Mysql.toMysqlColumnType suffix t)
  have hmap : ∀ l : List Table, (l.map (ddlTable Mysql.toMysqlColumnType suffix)).mapM stmtOf = l.mapM g := fun l => by
    rw [List.mapM_map]
    rfl
  have hset : ∀ y ∈ us, PlainTable (normTable y) ∧ ∃ st, g (normTable y) = some st := by
    intro y hy
    obtain ⟨t, ht, ety⟩ := forall₂_mem_right hf y hy
    obtain ⟨h1, h2, h3⟩ := norm_settled (table_settles (hps t ht) (hks t ht) ety)
    exact ⟨h1, (table_again h1 ((table_exact h1 h2).2 h3)).1⟩
  have hpl₁ : ∀ t ∈ s₁.tables, PlainTable t ∧ ∃ st, g t = some st := by
    intro x hx
    obtain ⟨y, hy, rfl⟩ := List.mem_map.1 (hperm.mem_iff.1 hx)
    exact hset y hy
  have hpair : List.Forall₂ (fun t y => (∃ st, g t = some st) ∧ (g y = g t ↔ SaidAgainTable t)) sel (us.map normTable) := by
    rw [List.forall₂_map_right_iff]
    have : ∀ l r, (∀ t ∈ l, t ∈ sel) → List.Forall₂ (fun t y => thereAndBack suffix t = some y) l r →
        List.Forall₂ (fun t y => (∃ st, g t = some st) ∧ (g (normTable y) = g t ↔ SaidAgainTable t)) l r := by
      intro l r hl h
      induction h with
      | nil => exact .nil
      | @cons t y l r h _ ih =>
        have ht := hl t List.mem_cons_self
        exact .cons (table_norm (hps t ht) (hks t ht)
          (fun c hc ha => stored_auto hw hst (List.mem_filter.1 ht).1 hc ha) h) (ih fun t ht => hl t (List.mem_cons_of_mem _ ht))
    exact this sel us (fun _ h => h) hf
  have hall : ∀ t ∈ sel, ∃ st, g t = some st := fun t ht => by
    obtain ⟨y, -, h⟩ := forall₂_mem_left hpair t ht
    exact h.1
  have hsome : (us.map normTable).mapM g = some ((us.map normTable).filterMap g) := mapM_filterMap fun x hx => by
    obtain ⟨y, hy, rfl⟩ := List.mem_map.1 hx
    exact (hset y hy).2
  refine ⟨text, text', sel.filterMap g, s₁.tables.filterMap g, by rw [e]; exact files_set_at _ _ _, by rw [e'],
    by rw [e']; exact files_set_at _ _ _, by rw [hparse, hmap]; exact mapM_filterMap hall, ?_, ?_⟩
  · unfold parseSql
    rw [htext', C17_read_back none suffix hsuf s₁ (fun t ht _ => (hpl₁ t ht).1), Option.bind_some,
      (List.filter_eq_self.2 fun _ _ => rfl : s₁.tables.filter (passes none) = s₁.tables), hmap]
    exact mapM_filterMap fun t ht => (hpl₁ t ht).2
  · have hp₁ : (s₁.tables.filterMap g).Perm ((us.map normTable).filterMap g) := hperm.filterMap g
    have hkey : ∀ l : List Table, (∀ t ∈ l, ∃ st, g t = some st) →
        (l.filterMap g).map stmtTable = l.map (·.name) := by
      intro l hl
      induction l with
      | nil => rfl
      | cons t l ih =>
        obtain ⟨st, h⟩ := hl t List.mem_cons_self
        rw [List.filterMap_cons, h]
        dsimp only
        rw [List.map_cons, List.map_cons, ih fun t ht => hl t (List.mem_cons_of_mem _ ht)]
        congr 1
        exact stmt_name h
    have hnn : (us.map normTable).map (·.name) = sel.map (·.name) := by
      rw [List.map_map, ← hnames]
      rfl
    have hiff : (us.map normTable).mapM g = sel.mapM g ↔ ∀ t ∈ sel, SaidAgainTable t := mapM_pair hpair
    rw [hsome, mapM_filterMap hall, Option.some.injEq] at hiff
    have hgoal : (∀ t ∈ s.tables, passes flt t = true → SaidAgainTable t) ↔ ∀ t ∈ sel, SaidAgainTable t :=
      ⟨fun h t ht => h t (List.mem_filter.1 ht).1 (List.mem_filter.1 ht).2, fun h t ht hp => h t (List.mem_filter.2 ⟨ht, hp⟩)⟩
    rw [hgoal, ← hiff]
    constructor
    · intro h
      refine perm_keys stmtTable ?_ ?_ (hp₁.symm.trans h)
      · rw [hkey _ fun x hx => ?_, hkey _ hall, hnn]
        obtain ⟨y, hy, rfl⟩ := List.mem_map.1 hx
        exact (hset y hy).2
      · rw [hkey _ hall]
        exact hn
    · intro h
      rw [← h]
      exact hp₁

/-- C161: a schema with groups and descriptions, its script, and the script of what is imported of it. -/
example : ∃ (w : World) (v v' u : Values) (fs : Files) (s : Schema), Stored w fs (v "input"ₛ) s ∧ s.tables.length = settledDemo.tables.length ∧
    (∀ t ∈ s.tables, ¬ExpressibleTable t) ∧ ∃ first second a b, (action w .exportMysql v fs).files.at (v "output"ₛ) = some (.text first) ∧
      (action w .exportMysql u (action w .importMysql v' (action w .exportMysql v fs).files).files).files.at (u "output"ₛ) =
        some (.text second) ∧ parseSql first = some a ∧ parseSql second = some b ∧ b.Perm a := by
  have hw : Faithful { demoWorld with sql := parseSql } := by
    obtain ⟨a, b, c, d, e, f⟩ := demo_faithful
    exact ⟨a, b, c, d, e, f⟩
  obtain ⟨fs, s, h1, h2⟩ := stored_demo hw (s := settledDemo) (by unfold DistinctTables; decide +kernel) (fun t ht =>
    ⟨(C04_accepts_iff tableSort tableSort_spec settledDemo).mp (by decide +kernel) t ht, by revert t; decide +kernel⟩)
  have hs : ∀ t ∈ s.tables, t ∈ settledDemo.tables := fun t h => h2.mem_iff.mp h
  have hone : s.tables = settledDemo.tables := List.perm_singleton.1 h2
  have hp : ∀ t ∈ s.tables, PlainTable t := fun t h => (settledDemo_tables t (hs t h)).1
  have hsts : ∃ sts, ((s.tables.filter (passes (getTableFilterFn []))).map (ddlTable Mysql.toMysqlColumnType "_u"ₛ)).mapM stmtOf =
      some sts := by
    rw [hone]
    refine Option.isSome_iff_exists.1 ?_
    decide +kernel
  obtain ⟨sts, hm⟩ := hsts
  have hone' := import_after_export (w := { demoWorld with sql := parseSql }) hw rfl
    (v := given [("input"ₛ, "a.json"ₛ), ("output"ₛ, "a.sql"ₛ), ("uniqueNameSuffix"ₛ, "_u"ₛ)])
    (v' := given [("input"ₛ, "a.sql"ₛ), ("output"ₛ, "b.json"ₛ)]) (us := exPortable.tables) h1 (by unfold UnescapedName; decide +kernel)
    (fun t h _ => hp t h) rfl (by decide +kernel) hm (by rw [hone]; decide +kernel)
  have hok := (save_status (w := { demoWorld with sql := parseSql }) hw.sorter
    (fs := fs.set (pathOf "a.sql"ₛ) (.text (Mysql.exportSchema (getTableFilterFn []) "_u"ₛ s)))
    (s := { tables := exPortable.tables }) (out := "b.json"ₛ) (by decide +kernel)).2
    ((C04_accepts_iff tableSort tableSort_spec { tables := exPortable.tables }).mp (by decide +kernel))
  have hok' := (congrArg Result.status hone').trans hok
  have hx : ∀ t ∈ s.tables, t.name ∉ split ',' ((given [("input"ₛ, "a.sql"ₛ), ("output"ₛ, "b.json"ₛ)]) "excludes"ₛ) := fun t h => by
    have : ∀ t ∈ settledDemo.tables, t.name ∉ split ',' ((given [("input"ₛ, "a.sql"ₛ), ("output"ₛ, "b.json"ₛ)]) "excludes"ₛ) := by decide +kernel
    exact this t (hs t h)
  obtain ⟨first, second, a, b, f1, -, f2, f3, f4, f5⟩ := C161_commands_exact { demoWorld with sql := parseSql } hw rfl
    (given [("input"ₛ, "a.json"ₛ), ("output"ₛ, "a.sql"ₛ), ("uniqueNameSuffix"ₛ, "_u"ₛ)])
    (given [("input"ₛ, "a.sql"ₛ), ("output"ₛ, "b.json"ₛ)])
    (given [("input"ₛ, "b.json"ₛ), ("output"ₛ, "c.sql"ₛ), ("uniqueNameSuffix"ₛ, "_u"ₛ)]) fs s h1
    (by unfold UnescapedName; decide +kernel) (fun t h _ => hp t h) (fun t h _ => (settledDemo_tables t (hs t h)).2)
    (by rw [hone]; decide +kernel) (by decide +kernel) rfl (by decide +kernel) hx hok' rfl rfl rfl (by decide +kernel) rfl
  refine ⟨_, (given [("input"ₛ, "a.json"ₛ), ("output"ₛ, "a.sql"ₛ), ("uniqueNameSuffix"ₛ, "_u"ₛ)]),
    (given [("input"ₛ, "a.sql"ₛ), ("output"ₛ, "b.json"ₛ)]),
    (given [("input"ₛ, "b.json"ₛ), ("output"ₛ, "c.sql"ₛ), ("uniqueNameSuffix"ₛ, "_u"ₛ)]), fs, s, h1, h2.length_eq, ?_, first, second, a, b, f1, f2, f3, f4, f5.2 fun t ht _ => ?_⟩
  · intro t ht he
    have : ∀ t ∈ settledDemo.tables, t.group ≠ [] := by decide +kernel
    exact this t (hs t ht) he.noGroup
  · have said : ∀ t ∈ settledDemo.tables, (∀ c ∈ t.columns, ¬(c.type = "int8"ₛ ∧ c.size = 1) ∧ (c.type = "char"ₛ ∨ c.type = "varchar"ₛ ∨
        lower c.defaultValue ≠ "null"ₛ ∧ c.defaultValue.head? ≠ some '-' ∧ c.defaultValue.head? ≠ some '+') ∧
        (c.autoIncremental = true → c.notNull = true)) ∧ ∀ c ∈ t.columns, ∀ d ∈ t.columns, c.name = d.name →
          c.primaryKey = d.primaryKey ∧ c.uniqueKey = d.uniqueKey := by decide +kernel
    obtain ⟨g1, g2⟩ := said t (hs t ht)
    exact ⟨fun c hc => ⟨(g1 c hc).1, (g1 c hc).2.1, (g1 c hc).2.2⟩, g2⟩

end Octo.Cli
