import Verif.Lemmas.DiffOut

/-! Properties C34, C35, C36, C68, C69 and C70 of the writers for schema diffs. -/

namespace Octo
open Spec

/-! ## C34 The markdown report -/

/-- C34: for every map iteration order the report reads back as the two versions and one section per
changed table, in strictly ascending order, whose items describe the changes of that table in order. -/
theorem C34_report {ord : List Str → List Str} (hord : ∀ l, (ord l).Perm l) (f t : Str) (cs : List ChangeSet) (hf : '\n' ∉ f)
    (ht : '\n' ∉ t) (hcs : ∀ s ∈ cs, ∀ c ∈ s.changes, OneLine c) :
    ∃ r, readReport (markdown ord f t cs) = some r ∧ r.fromVersion = f ∧ r.toVersion = t ∧
      (r.sections.map Prod.fst).Pairwise (fun a b => strLt a b = true) ∧
      (∀ n, n ∈ r.sections.map Prod.fst ↔ ∃ s ∈ cs, ∃ c ∈ s.changes, c.depTable.name = n) ∧
      ∀ s ∈ r.sections,
        List.Forall₂ Describes s.2 ((cs.flatMap (·.changes)).filter fun c => decide (c.depTable.name = s.1)) := by
  have hall : ∀ c ∈ cs.flatMap (·.changes), OneLine c := by
    intro c hc
    obtain ⟨s, hs, hc⟩ := List.mem_flatMap.1 hc
    exact hcs s hs c hc
  have hnames : ∀ n, n ∈ reportNames (cs.flatMap (·.changes)) ↔ ∃ s ∈ cs, ∃ c ∈ s.changes, c.depTable.name = n := by
    intro n
    unfold reportNames
    rw [mem_sortStrings, (byTable_keys _).2]
    simp only [List.mem_flatMap]
    constructor
    · rintro ⟨c, ⟨s, hs, hc⟩, h⟩; exact ⟨s, hs, c, hc, h⟩
    · rintro ⟨s, hs, c, hc, h⟩; exact ⟨c, ⟨s, hs, hc⟩, h⟩
  have hfst : (reportSections (cs.flatMap (·.changes))).map Prod.fst = reportNames (cs.flatMap (·.changes)) := by
    unfold reportSections
    rw [List.map_map]
    exact List.map_id _
  refine ⟨⟨f, t, reportSections (cs.flatMap (·.changes))⟩, ?_, rfl, rfl, ?_, ?_, ?_⟩
  · rw [markdown_eq hord]
    refine readReport_lines hf ht ?_
    intro s hs
    obtain ⟨n, hn, rfl⟩ := List.mem_map.1 hs
    constructor
    · obtain ⟨s', hs', c, hc, rfl⟩ := (hnames n).1 hn
      exact oneLine_name (hcs s' hs' c hc)
    · intro i hi
      obtain ⟨c, hc, rfl⟩ := List.mem_map.1 hi
      exact oneLine_item (hall c (List.mem_filter.1 hc).1)
  · rw [hfst]
    exact sortStrings_strict (byTable_keys _).1
  · intro n
    rw [hfst, hnames]
  · intro s hs
    obtain ⟨n, hn, rfl⟩ := List.mem_map.1 hs
    rw [List.forall₂_map_left_iff, List.forall₂_same]
    exact fun c _ => ⟨readKind_line c, fun n h hn => readSubject_line h hn⟩

/-- C34: the text does not depend on the map iteration order. -/
theorem C34_schedule {ord ord' : List Str → List Str} (h : ∀ l, (ord l).Perm l) (h' : ∀ l, (ord' l).Perm l) (f t : Str)
    (cs : List ChangeSet) : markdown ord f t cs = markdown ord' f t cs := by
  rw [markdown_eq h, markdown_eq h']

/-- C34: the item of every change states its kind, whatever the texts in it. -/
theorem C34_kind (c : Change) : readKind (toMarkdownLine c) = some (kindOf c) := readKind_line c

example : OneLine (.setDefaultValue { name := "user"ₛ } { name := "age"ₛ, type := "int32"ₛ, defaultValue := "0"ₛ }) := by
  unfold OneLine; decide

/-! ## C35 A statement for every change -/

/-- C35 is violated: eight kinds of change never produce SQL. -/
theorem C35_violated (suffix n : Str) (t : Table) (c d : Column) :
    toSQL suffix (.createUnique n t) = [] ∧ toSQL suffix (.dropUnique n t) = [] ∧ toSQL suffix (.setTableComment t) = [] ∧
    toSQL suffix (.dropColumn t n) = [] ∧ toSQL suffix (.setColumnComment t c) = [] ∧
    toSQL suffix (.changeColumnType t c d) = [] ∧ toSQL suffix (.renameColumn t c d) = [] ∧
    toSQL suffix (.setDefaultValue t c) = [] := ⟨rfl, rfl, rfl, rfl, rfl, rfl, rfl, rfl⟩

/-- The kinds of change that produce no SQL. -/
def Silent : Change → Prop
  | .createUnique _ _ => True
  | .dropUnique _ _ => True
  | .setTableComment _ => True
  | .dropColumn _ _ => True
  | .setColumnComment _ _ => True
  | .changeColumnType _ _ _ => True
  | .renameColumn _ _ _ => True
  | .setDefaultValue _ _ => True
  | _ => False

/-- C35: a change produces no statement exactly when it is one of those. -/
theorem C35_silent_iff (suffix : Str) (c : Change) : toSQL suffix c = [] ↔ Silent c := by
  cases c <;> simp only [toSQL, Silent] <;> try simp
  all_goals split <;> simp

/-- C35, for the changes whose SQL is right (`SqlOk`) and whose texts need no escaping: the script
reads back as exactly the statements meant, in the order of the diff.  Full statement: the same for
every diff; see `C35_violated`, `C36_violated`, `C68_violated`, `C69_violated` and `C70_violated`. -/
theorem C35_script_partial (suffix : Str) (hsuf : UnescapedName suffix) (cs : List ChangeSet)
    (h : ∀ s ∈ cs, ∀ c ∈ s.changes, PlainChange c ∧ SqlOk c) :
    readScript (flyway suffix cs) = some (cs.flatMap fun s => s.changes.flatMap (meant Mysql.toMysqlColumnType suffix)) :=
  (flyway_reads hsuf h).script

/-- C35: a change set of silent changes leaves an empty script. -/
theorem C35_empty_script (suffix : Str) (cs : List ChangeSet) (h : ∀ s ∈ cs, ∀ c ∈ s.changes, Silent c) :
    readScript (flyway suffix cs) = some [] := by
  have : Reads (flyway suffix cs) (cs.flatMap fun _ => []) := by
    refine Reads.flatMap fun s hs => ?_
    have e : (s.changes.flatMap fun c => (toSQL suffix c).flatMap (· ++ "\n"ₛ)) = [] := by
      rw [List.flatMap_eq_nil_iff]
      intro c hc
      rw [(C35_silent_iff suffix c).2 (h s hs c hc)]
      rfl
    rw [e]
    exact Reads.blank (by decide)
  have e : (cs.flatMap fun _ => ([] : List SqlAction)) = [] := by rw [List.flatMap_eq_nil_iff]; exact fun _ _ => rfl
  rw [e] at this
  exact this.script

example : PlainChange (.updatePrimaryKey { name := "user"ₛ, columns := [{ name := "id"ₛ, type := "int64"ₛ, primaryKey := true }] }
      { name := "user"ₛ, columns := [{ name := "key"ₛ, type := "int64"ₛ, primaryKey := true }] }) ∧
    SqlOk (.updatePrimaryKey { name := "user"ₛ, columns := [{ name := "id"ₛ, type := "int64"ₛ, primaryKey := true }] }
      { name := "user"ₛ, columns := [{ name := "key"ₛ, type := "int64"ₛ, primaryKey := true }] }) := by
  refine ⟨⟨?_, ?_⟩, rfl⟩
  · unfold Word; decide
  · unfold Word; decide

/-! ## C36 Auto-increment -/

/-- C36 is violated: the statement for switching auto-increment off asks for an auto-increment primary
key, for every column. -/
theorem C36_violated (suffix : Str) (t : Table) (c : Column) (hp : PlainChange (.setAutoIncrement t c))
    (ha : c.autoIncremental = false) :
    readScript ((toSQL suffix (.setAutoIncrement t c)).flatMap (· ++ "\n"ₛ)) =
      some [.modifyColumn t.name { name := c.name, type := Mysql.toMysqlColumnType c, autoIncrement := true } true] := by
  obtain ⟨s, hs, hr⟩ := setAutoIncrement_off_reads hp.1 hp.2.1 hp.2.2 ha suffix
  rw [hs]
  exact (one_line hr).script

/-- C36, for switching auto-increment on: the statement restates the whole column, with
auto-increment. -/
theorem C36_on_partial (suffix : Str) (t : Table) (c : Column) (hp : PlainChange (.setAutoIncrement t c))
    (ha : c.autoIncremental = true) :
    readScript ((toSQL suffix (.setAutoIncrement t c)).flatMap (· ++ "\n"ₛ)) =
      some [.modifyColumn t.name (ddlColumn Mysql.toMysqlColumnType c) false] := by
  obtain ⟨s, hs, hr⟩ := setAutoIncrement_on_reads hp.1 hp.2.1 hp.2.2 ha suffix
  rw [hs]
  exact (one_line hr).script

example : PlainChange (.setAutoIncrement { name := "user"ₛ } { name := "id"ₛ, type := "int64"ₛ, notNull := true }) := by
  refine ⟨by unfold Word; decide, ⟨by unfold Word; decide, by decide, by simp, by unfold Unescaped; decide, Or.inl rfl, Or.inl rfl⟩, by decide⟩

/-! ## C68 Added columns -/

/-- C68 is violated: the statement for an added column (`MODIFY ADD`) is no statement at all, so no
script containing it can be read. -/
theorem C68_violated (suffix : Str) (t : Table) (c : Column) (hp : PlainChange (.addColumn t c)) (rest : Str) :
    readScript ((toSQL suffix (.addColumn t c)).flatMap (· ++ "\n"ₛ) ++ rest) = none := by
  obtain ⟨s, hs, h1, h2, h3⟩ := addColumn_unreadable hp.1 hp.2.1 suffix
  rw [hs]
  have e : [s ++ ";"ₛ].flatMap (· ++ "\n"ₛ) ++ rest = s ++ ";"ₛ ++ ("\n"ₛ ++ rest) := by simp
  rw [e]
  exact unreadable h1 h2 h3 _

/-- C68: adding a column `n` to the table `user`. -/
example := C68_violated "_UQ"ₛ { name := "user"ₛ } { name := "n"ₛ, type := "int64"ₛ }
  ⟨by unfold Word; decide, ⟨by unfold Word; decide, by decide, by simp, by unfold Unescaped; decide, Or.inl rfl, Or.inl rfl⟩, by decide⟩

/-- C68: what is written after the table name is the keyword `MODIFY`, followed by what would be the
right statement. -/
theorem C68_text_partial (suffix : Str) (t : Table) (c : Column) :
    toSQL suffix (.addColumn t c) =
      ["ALTER TABLE "ₛ ++ t.name ++ " MODIFY"ₛ ++ " ADD "ₛ ++ Mysql.columnDefinition c ++ ";"ₛ] := by
  rw [toSQL, Mysql.columnDefinition]
  generalize Mysql.columnConstraints c = X
  generalize Mysql.toMysqlColumnType c = Y
  by_cases hX : X = []
  · simp [hX, join]
  · simp [hX, join]

/-! ## C69 Nullability -/

/-- C69 is violated: the statement for a change of nullability drops the default, the on-update value,
the comment and auto-increment of the column, whatever they are. -/
theorem C69_violated (suffix : Str) (t : Table) (c : Column) (hp : PlainChange (.setNotNull t c)) :
    readScript ((toSQL suffix (.setNotNull t c)).flatMap (· ++ "\n"ₛ)) =
      some [.modifyColumn t.name { name := c.name, type := Mysql.toMysqlColumnType c, notNull := c.notNull } false] := by
  obtain ⟨s, hs, hr⟩ := setNotNull_reads hp.1 hp.2.1 hp.2.2 (t := t) rfl suffix
  rw [hs]
  exact (one_line hr).script

/-- C69: it says what is meant exactly for columns that have none of those. -/
theorem C69_exact_partial (suffix : Str) (t : Table) (c : Column) (hp : PlainChange (.setNotNull t c)) :
    readScript ((toSQL suffix (.setNotNull t c)).flatMap (· ++ "\n"ₛ)) =
      some (meant Mysql.toMysqlColumnType suffix (.setNotNull t c)) ↔ OnlyNullability c := by
  rw [C69_violated suffix t c hp]
  simp only [meant, ddlColumn, Option.some.injEq, List.cons.injEq, SqlAction.modifyColumn.injEq, DdlColumn.mk.injEq, true_and,
    and_true, OnlyNullability]
  constructor
  · rintro ⟨h1, h2, h3, h4⟩
    refine ⟨h1.symm, ?_, ?_, ?_⟩
    · by_contra h; rw [if_neg h] at h2; cases h2
    · by_contra h; rw [if_neg h] at h3; cases h3
    · by_contra h; rw [if_neg h] at h4; cases h4
  · rintro ⟨h1, h2, h3, h4⟩
    rw [if_pos h2, if_pos h3, if_pos h4]
    exact ⟨h1.symm, rfl, rfl, rfl⟩

example : PlainChange (.setNotNull { name := "user"ₛ } { name := "n"ₛ, type := "int64"ₛ, notNull := true, defaultValue := "1"ₛ }) := by
  refine ⟨by unfold Word; decide, ⟨by unfold Word; decide, by decide, by simp, by unfold Unescaped; decide,
    Or.inr (Or.inr ⟨by decide, ?_⟩), Or.inl rfl⟩, by decide⟩
  rw [if_neg (by decide)]
  unfold Word; decide

/-! ## C70 Primary keys -/

/-- C70 is violated: the statements for a change of primary key begin with dropping the primary key
even when the old table has none. -/
theorem C70_violated (suffix : Str) (o n : Table) (hp : PlainChange (.updatePrimaryKey o n)) :
    ∃ r, readScript ((toSQL suffix (.updatePrimaryKey o n)).flatMap (· ++ "\n"ₛ)) = some (.dropPrimaryKey n.name :: r) := by
  have h : toSQL suffix (.updatePrimaryKey o n) = toSQL suffix (.updatePrimaryKey { columns := [{ primaryKey := true }] } n) := rfl
  have := change_reads (suffix := []) (c := .updatePrimaryKey { columns := [{ primaryKey := true }] } n)
    (by simp [UnescapedName]) hp rfl
  have h2 := this.script
  rw [meant, if_pos (by rfl)] at h2
  rw [h]
  exact ⟨_, h2⟩

/-- C70: they say what is meant exactly when the old table has a primary key. -/
theorem C70_exact_partial (suffix : Str) (hsuf : UnescapedName suffix) (o n : Table) (hp : PlainChange (.updatePrimaryKey o n)) :
    readScript ((toSQL suffix (.updatePrimaryKey o n)).flatMap (· ++ "\n"ₛ)) =
      some (meant Mysql.toMysqlColumnType suffix (.updatePrimaryKey o n)) ↔ o.columns.any (·.primaryKey) = true := by
  constructor
  · intro h
    obtain ⟨r, hr⟩ := C70_violated suffix o n hp
    rw [hr] at h
    by_contra ho
    rw [meant, if_neg ho] at h
    split at h <;> simp at h
  · intro h
    exact (change_reads hsuf hp h).script

/-- C70: a table that gets a primary key, and one whose primary key changes. -/
example := C70_violated "_UQ"ₛ { name := "user"ₛ }
  { name := "user"ₛ, columns := [{ name := "id"ₛ, type := "int64"ₛ, primaryKey := true }] }
  ⟨by unfold Word; decide, by unfold Word; decide⟩

example := (C70_exact_partial "_UQ"ₛ (by unfold UnescapedName; decide)
  { name := "user"ₛ, columns := [{ name := "id"ₛ, type := "int64"ₛ, primaryKey := true }] }
  { name := "user"ₛ, columns := [{ name := "key"ₛ, type := "int64"ₛ, primaryKey := true }] }
  ⟨by unfold Word; decide, by unfold Word; decide⟩).2 rfl

end Octo
