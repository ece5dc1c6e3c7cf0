import Verif.Props.ExactXlsx
import Verif.Props.MysqlImport
import Verif.Props.LiquibaseDb
import Verif.Lemmas.ProtobufMessages

/-! Property C157: schemas without groups, such as imported ones, in a spreadsheet. -/

namespace Octo
open Spec Xlsx

/-- The table in the group that stands for no group. -/
def commoned (t : Table) : Table := { t with group := "Common"ₛ }

theorem groups_one {s : Schema} {g : Str} (h : ∀ t ∈ s.tables, t.group = g) (hne : s.tables ≠ []) : s.groups = [g] := by
  obtain ⟨h1, h2⟩ := groups_spec s
  obtain ⟨t, ht⟩ := List.exists_mem_of_ne_nil _ hne
  have hm : g ∈ s.groups := (h1 g).2 ⟨t, ht, h t ht⟩
  have ha : ∀ x ∈ s.groups, x = g := fun x hx => by
    obtain ⟨u, hu, e⟩ := (h1 x).1 hx
    rw [← e]
    exact h u hu
  cases hg : s.groups with
  | nil => rw [hg] at hm; cases hm
  | cons a l =>
    rw [hg] at h2 ha
    obtain rfl := ha a List.mem_cons_self
    cases l with
    | nil => rfl
    | cons b l =>
      obtain rfl := ha b (List.mem_cons_of_mem _ List.mem_cons_self)
      exact absurd List.mem_cons_self (List.nodup_cons.1 h2).1

theorem bodyRows_commoned (useNull : Bool) (n : Nat) : ∀ (ts : List Table) (i : Nat), (∀ t ∈ ts, t.group = []) →
    bodyRows useNull [] n i ts = bodyRows useNull "Common"ₛ n i (ts.map commoned)
  | [], _, _ => rfl
  | t :: ts, i, h => by
    have h1 : ¬t.group ≠ [] := fun hn => hn (h t List.mem_cons_self)
    have h2 : ¬(commoned t).group ≠ "Common"ₛ := fun hn => hn rfl
    rw [List.map_cons, bodyRows, bodyRows, if_neg h1, if_neg h2,
      bodyRows_commoned useNull n ts (i + 1) fun u hu => h u (List.mem_cons_of_mem _ hu)]
    rfl

/-- The workbook of a schema without groups. -/
theorem export_commoned (accepts : Str → Bool) (useNull : Bool) (s : Schema) (hg : ∀ t ∈ s.tables, t.group = []) :
    exportSchema accepts useNull s = exportSchema accepts useNull { s with tables := s.tables.map commoned } := by
  by_cases hne : s.tables = []
  · have : s.tables.map commoned = s.tables := by rw [hne]; rfl
    rw [this]
  have h1 := groups_one hg hne
  have h2 : ({ s with tables := s.tables.map commoned } : Schema).groups = ["Common"ₛ] :=
    groups_one (fun t ht => by obtain ⟨u, _, rfl⟩ := List.mem_map.1 ht; rfl) (fun e => hne (List.map_eq_nil_iff.1 e))
  unfold exportSchema
  rw [h1, h2]
  have h3 : groupRows useNull s [] = groupRows useNull { s with tables := s.tables.map commoned } "Common"ₛ := by
    unfold groupRows
    rw [bodyRows_commoned useNull _ _ _ hg]
    dsimp only
    rw [List.length_map]
  unfold addGroups addGroups
  rw [h3]
  rfl

/-- **C157**: a schema without groups that is exported to a spreadsheet and imported again has the same tables in the same order, in the
group `Common`, and the same meta data, if and only if the spreadsheet can represent every table and the library accepts the names of the
sheets. -/
theorem C157_exact (accepts : Str → Bool) (useNull : Bool) (ord : List (Str × List Row) → List (Str × List Row)) (ho : ∀ l, (ord l).Perm l)
    (s : Schema) (hg : ∀ t ∈ s.tables, t.group = []) :
    (∃ wb s', exportSchema accepts useNull s = some wb ∧ importWorkbook ord wb = some s' ∧
      s'.author = s.author ∧ s'.name = s.name ∧ s'.version = s.version ∧ s'.tables = s.tables.map fun t => { t with group := "Common"ₛ }) ↔
    (∀ t ∈ s.tables, SheetTable t) ∧ (s.tables ≠ [] → accepts "Common"ₛ = true) ∧ accepts "Meta"ₛ = true := by
  have h := C45_exact accepts useNull ord ho { s with tables := s.tables.map commoned }
  rw [← export_commoned accepts useNull s hg] at h
  have hsame : ∀ ts : List Table, (∀ g, ts.filter (fun t => t.group == g) = (s.tables.map commoned).filter (fun t => t.group == g)) ↔
      ts = s.tables.map commoned := by
    intro ts
    constructor
    · intro hx
      have all : ∀ t ∈ ts, t.group = "Common"ₛ := by
        intro t ht
        have : t ∈ (s.tables.map commoned).filter (fun u => u.group == t.group) := by
          rw [← hx t.group]
          exact List.mem_filter.2 ⟨ht, by simp⟩
        obtain ⟨u, _, rfl⟩ := List.mem_map.1 (List.mem_filter.1 this).1
        rfl
      have e := hx "Common"ₛ
      rw [List.filter_eq_self.2 (fun t ht => by rw [all t ht]; exact beq_self_eq_true _),
        List.filter_eq_self.2 (fun t ht => by obtain ⟨u, _, rfl⟩ := List.mem_map.1 ht; exact beq_self_eq_true _)] at e
      exact e
    · rintro rfl g
      rfl
  simp only [hsame] at h
  refine h.trans (and_congr ?_ (and_congr ?_ Iff.rfl))
  · constructor
    · intro hx t ht
      have := hx _ (List.mem_map.2 ⟨t, ht, rfl⟩)
      exact ⟨this.named, this.className, this.description, this.columns, this.indexNames, this.indices⟩
    · intro hx t ht
      obtain ⟨u, hu, rfl⟩ := List.mem_map.1 ht
      have := hx u hu
      exact ⟨this.named, this.className, this.description, this.columns, this.indexNames, this.indices⟩
  · constructor
    · intro hx hne
      obtain ⟨t, ht⟩ := List.exists_mem_of_ne_nil _ hne
      exact (hx _ (List.mem_map.2 ⟨t, ht, rfl⟩)).2.2
    · intro hx t ht
      obtain ⟨u, hu, rfl⟩ := List.mem_map.1 ht
      have d : "Common"ₛ ≠ [] ∧ "Common"ₛ ≠ "Meta"ₛ := by decide +kernel
      exact ⟨d.1, d.2, hx (List.ne_nil_of_mem hu)⟩

/-- The group of a table does not show in the MySQL script. -/
theorem mysql_commoned (suffix : Str) (ts : List Table) (s s' : Schema) (h : s.tables = ts) (h' : s'.tables = ts.map commoned) :
    Mysql.exportSchema none suffix s' = Mysql.exportSchema none suffix s := by
  unfold Mysql.exportSchema
  have all : ∀ l : List Table, l.filter (passes none) = l := fun l => List.filter_eq_self.2 fun _ _ => rfl
  rw [h, h', all, all, List.flatMap_map]
  rfl

/-- Nor in the changelog. -/
theorem changelog_commoned (pf : Str → Option Str) (opt : Lq.GenOption) (hf : opt.tableFilter = none) (s s' : Schema)
    (h : s'.tables = s.tables.map commoned) (ha : s'.author = s.author) : Lq.generateAll pf opt s' = Lq.generateAll pf opt s := by
  unfold Lq.generateAll
  rw [h, ha, List.foldlM_map]
  congr 2
  funext st t
  unfold Lq.genStep
  rw [hf]
  rfl

/-- C157: a MySQL script that is imported, exported to a spreadsheet and imported again gives the same MySQL script and the same changelog
as if it had not been in the spreadsheet. -/
theorem C157_script_partial (accepts : Str → Bool) (hacc : accepts "Common"ₛ = true ∧ accepts "Meta"ₛ = true) (useNull : Bool)
    (ord : List (Str × List Row) → List (Str × List Row)) (ho : ∀ l, (ord l).Perm l) (ex : List Str) (author version : Str)
    (stmts : List MysqlImport.Stmt) (s : Schema) (h : MysqlImport.importSql ex author version stmts = some s) (hs : ∀ t ∈ s.tables, SheetTable t) :
    ∃ wb s', exportSchema accepts useNull s = some wb ∧ importWorkbook ord wb = some s' ∧
      (∀ suffix, Mysql.exportSchema none suffix s' = Mysql.exportSchema none suffix s) ∧
      ∀ pf (opt : Lq.GenOption), opt.tableFilter = none → Lq.generateAll pf opt s' = Lq.generateAll pf opt s := by
  have hg : ∀ t ∈ s.tables, t.group = [] := fun t ht => by
    obtain ⟨_, _, e⟩ := forall₂_mem_right (C22_tables ex author version stmts s h).1 t ht
    exact e.2.2.1
  obtain ⟨wb, s', h1, h2, h3, h4, h5, h6⟩ := (C157_exact accepts useNull ord ho s hg).2 ⟨hs, fun _ => hacc.1, hacc.2⟩
  exact ⟨wb, s', h1, h2, fun suffix => mysql_commoned suffix _ s s' rfl h6, fun pf opt hf => changelog_commoned pf opt hf s s' h6 h3⟩

/-- C157: a script with lengths that a spreadsheet can represent. -/
def sheetScript : List MysqlImport.Stmt :=
  [.createTable "user"ₛ
    [{ name := "id"ₛ, tp := { tp := .longlong }, options := [.notNull, .autoIncrement] },
     { name := "name"ₛ, tp := { tp := .varchar, flen := 20 }, options := [.defaultValue (.value (some "x"ₛ)), .comment "full name"ₛ] },
     { name := "price"ₛ, tp := { tp := .newDecimal, flen := 10, decimal := 2 } }]
    [{ tp := .primaryKey, keys := [some "id"ₛ] }, { tp := .uniq, name := "u"ₛ, keys := [some "name"ₛ] },
     { tp := .index, name := "i"ₛ, keys := [some "name"ₛ, some "id"ₛ] }],
   .createTable "log"ₛ [{ name := "at"ₛ, tp := { tp := .datetime }
                          options := [.defaultValue (.func "now"ₛ), .onUpdate (.func "now"ₛ)] }] []]

def sheetScriptSchema : Schema :=
  { tables :=
    [{ name := "user"ₛ
       columns := [{ name := "id"ₛ, type := "int64"ₛ, primaryKey := true, notNull := true, autoIncremental := true },
         { name := "name"ₛ, type := "varchar"ₛ, size := 20, uniqueKey := true, defaultValue := "x"ₛ, description := "full name"ₛ },
         { name := "price"ₛ, type := "decimal"ₛ, size := 10, scale := 2 }]
       indices := [⟨"i"ₛ, ["name"ₛ, "id"ₛ]⟩] },
     { name := "log"ₛ, columns := [{ name := "at"ₛ, type := "datetime"ₛ, defaultValue := "fn::now"ₛ, onUpdate := "fn::now"ₛ }] }] }

/-- The hypotheses of `C157_exact` and `C157_script_partial` are met by a script with two tables. -/
example : ∃ wb s', MysqlImport.importSql [] [] [] sheetScript = some sheetScriptSchema ∧ exportSchema (fun _ => true) true sheetScriptSchema = some wb ∧
    importWorkbook id wb = some s' ∧ Mysql.exportSchema none "_u"ₛ s' = Mysql.exportSchema none "_u"ₛ sheetScriptSchema := by
  have hi : MysqlImport.importSql [] [] [] sheetScript = some sheetScriptSchema := by decide +kernel
  have hsheet : ∀ t ∈ sheetScriptSchema.tables, SheetTable t := by
    intro t ht
    simp only [sheetScriptSchema, List.mem_cons, List.not_mem_nil, or_false] at ht
    rcases ht with rfl | rfl
    · refine ⟨by decide, by decide, by decide, ?_, by decide, by decide⟩
      intro c hc
      simp only [List.mem_cons, List.not_mem_nil, or_false] at hc
      rcases hc with rfl | rfl | rfl <;>
        exact ⟨by decide, by decide, by decide, by decide, by decide, by decide, by decide, by decide, by simp⟩
    · refine ⟨by decide, by decide, by decide, ?_, by decide, by decide⟩
      intro c hc
      obtain rfl := List.mem_singleton.1 hc
      exact ⟨by decide, by decide, by decide, by decide, by decide, by decide, by decide, by decide, by simp⟩
  obtain ⟨wb, s', h1, h2, h3, _⟩ := C157_script_partial (fun _ => true) ⟨rfl, rfl⟩ true id (fun _ => .refl _) [] [] [] sheetScript _ hi hsheet
  exact ⟨wb, s', hi, h1, h2, h3 _⟩

/-- C157: as `mysqldump` writes it. -/
def dumpScript : List MysqlImport.Stmt :=
  [.createTable "user"ₛ [{ name := "id"ₛ, tp := { tp := .longlong, flen := 20 }, options := [.notNull, .autoIncrement] }]
    [{ tp := .primaryKey, keys := [some "id"ₛ] }]]

/-- C157 does not hold for every script: with `bigint(20)`, as older servers write it, the table does not come back. -/
theorem C157_violated : ∃ (stmts : List MysqlImport.Stmt) (s : Schema), MysqlImport.importSql [] [] [] stmts = some s ∧
    ∀ (accepts : Str → Bool) (useNull : Bool) (ord : List (Str × List Row) → List (Str × List Row)), (∀ l, (ord l).Perm l) →
      ¬∃ wb s', exportSchema accepts useNull s = some wb ∧ importWorkbook ord wb = some s' ∧
        s'.author = s.author ∧ s'.name = s.name ∧ s'.version = s.version ∧ s'.tables = s.tables.map fun t => { t with group := "Common"ₛ } := by
  have hi : MysqlImport.importSql [] [] [] dumpScript = some { tables := [{ name := "user"ₛ, columns :=
      [{ name := "id"ₛ, type := "int64"ₛ, size := 20, notNull := true, autoIncremental := true, primaryKey := true }] }] } := by decide +kernel
  refine ⟨dumpScript, _, hi, fun accepts useNull ord ho hx => ?_⟩
  have := ((C157_exact accepts useNull ord ho _ (by decide +kernel)).1 hx).1 _ (List.mem_singleton.2 rfl)
  exact absurd ((this.columns _ (List.mem_singleton.2 rfl)).sized (by decide)).2 (by decide +kernel)

/-- C157: and the script that is exported then is another one: it has the type `int64(20)`, which is not one of MySQL. -/
theorem C157_violated_script : ∃ (stmts : List MysqlImport.Stmt) (s : Schema) (wb : List Sheet) (s' : Schema),
    MysqlImport.importSql [] [] [] stmts = some s ∧ exportSchema (fun _ => true) true s = some wb ∧ importWorkbook id wb = some s' ∧
    containsSub (Mysql.exportSchema none "_u"ₛ s) "bigint(20)"ₛ = true ∧ containsSub (Mysql.exportSchema none "_u"ₛ s') "int64(20)"ₛ = true := by
  have h : (MysqlImport.importSql [] [] [] dumpScript).any (fun s => (exportSchema (fun _ => true) true s).any fun wb =>
      (importWorkbook id wb).any fun s' => containsSub (Mysql.exportSchema none "_u"ₛ s) "bigint(20)"ₛ &&
        containsSub (Mysql.exportSchema none "_u"ₛ s') "int64(20)"ₛ) = true := by decide +kernel
  obtain ⟨s, h1, h⟩ := (Option.any_eq_true _ _).1 h
  obtain ⟨wb, h2, h⟩ := (Option.any_eq_true _ _).1 h
  obtain ⟨s', h3, h⟩ := (Option.any_eq_true _ _).1 h
  obtain ⟨h4, h5⟩ := Bool.and_eq_true_iff.1 h
  exact ⟨dumpScript, s, wb, s', h1, h2, h3, h4, h5⟩

end Octo
