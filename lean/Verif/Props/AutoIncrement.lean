import Verif.Spec.AutoIncrement
import Verif.Props.MysqlDb
import Verif.Props.MysqlImport
import Verif.Props.Flyway
import Verif.Props.CliConvert
import Verif.Lemmas.ProtobufMessages

/-! Property C163: columns that are counted up, in MySQL scripts. -/

namespace Octo
open Spec MysqlImport

/-! ### The exported script -/

/-- The first name of the elements with a property. -/
theorem leadsBy_filter {α : Type} {name : α → Str} {p : α → Bool} {l : List α} {n : Str} :
    LeadsBy name (p · = true) l n ↔ ((l.filter p).map name).head? = some n := by
  induction l with
  | nil => exact ⟨fun h => h.elim, fun h => by cases h⟩
  | cons a l ih =>
    rw [LeadsBy, ih]
    cases h : p a with
    | true =>
      rw [List.filter_cons_of_pos h, List.map_cons, List.head?_cons, Option.some.injEq]
      exact ⟨fun h => h.elim (·.2) (fun h => absurd rfl h.1), fun h => .inl ⟨rfl, h⟩⟩
    | false =>
      rw [List.filter_cons_of_neg (by rw [h]; exact Bool.false_ne_true)]
      exact ⟨fun h => h.elim (fun h => absurd h.1 Bool.false_ne_true) (·.2), fun h => .inr ⟨Bool.false_ne_true, h⟩⟩

theorem autoAccepted_iff (f : Column → Str) (suffix : Str) (t : Table) : AutoAccepted (ddlTable f suffix t) ↔ AutoTable t := by
  have h1 : ((ddlTable f suffix t).columns.filter (·.autoIncrement)).length = (t.columns.filter (·.autoIncremental)).length := by
    rw [ddlTable_columns, List.filter_map, List.length_map]
    rfl
  have h2 : (∀ c ∈ (ddlTable f suffix t).columns, c.autoIncrement = true → c.default = none) ↔
      ∀ c ∈ t.columns, c.autoIncremental = true → c.defaultValue = [] := by
    rw [ddlTable_columns, List.forall_mem_map]
    refine forall₂_congr fun c _ => imp_congr Iff.rfl ?_
    show (if c.defaultValue = [] then none else some (valueMeaning c.type c.defaultValue)) = none ↔ _
    split
    · rename_i h; exact ⟨fun _ => h, fun _ => rfl⟩
    · rename_i h; exact ⟨fun e => (by cases e), fun e => absurd e h⟩
  have hkeys : ∀ n : Str, (∃ k ∈ (ddlTable f suffix t).keys ++ ((ddlTable f suffix t).uniqueKeys ++ (ddlTable f suffix t).indexKeys).map (·.2),
      k.head? = some n) ↔ LeadsBy (·.name) (·.primaryKey = true) t.columns n ∨ LeadsBy (·.name) (·.uniqueKey = true) t.columns n ∨
      ∃ i ∈ t.indices, i.columns.head? = some n := by
    intro n
    rw [leadsBy_filter, leadsBy_filter, ddlTable_keys, ddlTable_uniqueKeys, ddlTable_indexKeys]
    simp only [List.map_append, List.mem_append, or_and_right, exists_or, List.map_map]
    refine or_congr ?_ (or_congr ?_ ?_)
    · split
      · rename_i h; rw [h]; exact ⟨fun ⟨_, h, _⟩ => (by cases h), fun h => (by cases h)⟩
      · constructor
        · rintro ⟨k, hk, h⟩; rw [List.mem_singleton] at hk; rw [← hk]; exact h
        · exact fun h => ⟨_, List.mem_singleton.2 rfl, h⟩
    · split
      · rename_i h; rw [h]; exact ⟨fun ⟨_, h, _⟩ => (by cases h), fun h => (by cases h)⟩
      · constructor
        · rintro ⟨k, hk, h⟩; obtain rfl := List.mem_singleton.1 hk; exact h
        · exact fun h => ⟨_, by rw [List.map_singleton]; exact List.mem_singleton.2 rfl, h⟩
    · constructor
      · rintro ⟨k, hk, h⟩
        obtain ⟨i, hi, rfl⟩ := List.mem_map.1 hk
        exact ⟨i, hi, h⟩
      · rintro ⟨i, hi, h⟩
        exact ⟨_, List.mem_map.2 ⟨i, hi, rfl⟩, h⟩
  have h3 : (∀ c ∈ (ddlTable f suffix t).columns, c.autoIncrement = true →
      ∃ k ∈ (ddlTable f suffix t).keys ++ ((ddlTable f suffix t).uniqueKeys ++ (ddlTable f suffix t).indexKeys).map (·.2),
        k.head? = some c.name) ↔ ∀ c ∈ t.columns, c.autoIncremental = true →
      LeadsBy (·.name) (·.primaryKey = true) t.columns c.name ∨ LeadsBy (·.name) (·.uniqueKey = true) t.columns c.name ∨
      ∃ i ∈ t.indices, i.columns.head? = some c.name := by
    rw [ddlTable_columns, List.forall_mem_map]
    exact forall₂_congr fun c _ => imp_congr Iff.rfl (hkeys c.name)
  constructor
  · rintro ⟨a, b, c⟩
    exact ⟨by rw [← h1]; exact a, h2.1 b, h3.1 c⟩
  · rintro ⟨a, b, c⟩
    exact ⟨by rw [h1]; exact a, h2.2 b, h3.2 c⟩

/-- **C163**, exactly: MySQL accepts the columns of the exported script that are counted up if and only if each selected table has at most one
of them, without a default value, as first column of the primary key, first unique column or first column of an index. -/
theorem C163_exact (filter : Option (Table → Bool)) (suffix : Str) (hsuf : UnescapedName suffix) (s : Schema)
    (h : ∀ t ∈ s.tables, passes filter t = true → PlainTable t) :
    ∃ script, readDdl (Mysql.exportSchema filter suffix s) = some script ∧
      ((∀ t ∈ script, AutoAccepted t) ↔ ∀ t ∈ s.tables, passes filter t = true → AutoTable t) := by
  refine ⟨_, C17_read_back filter suffix hsuf s h, ?_⟩
  rw [List.forall_mem_map]
  simp only [autoAccepted_iff, List.mem_filter, and_imp]

/-! ### Scripts from elsewhere -/

theorem leadsBy_congr {α β : Type} {R : α → β → Prop} {na : α → Str} {nb : β → Str} {p : α → Prop} {q : β → Prop} {l : List α} {r : List β}
    (h : List.Forall₂ R l r) (hn : ∀ a b, R a b → na a = nb b) (hp : ∀ a b, R a b → (p a ↔ q b)) (n : Str) :
    LeadsBy na p l n ↔ LeadsBy nb q r n := by
  induction h with
  | nil => exact Iff.rfl
  | cons h _ ih => rw [LeadsBy, LeadsBy, hn _ _ h, hp _ _ h, ih]

theorem forall₂_and_map {α β : Type} {R : α → β → Prop} {f : α → Str} {g : β → Str} {l : List α} {r : List β} (h : List.Forall₂ R l r)
    (e : r.map g = l.map f) : List.Forall₂ (fun a b => R a b ∧ f a = g b) l r := by
  induction h with
  | nil => exact .nil
  | cons h _ ih =>
    rw [List.map_cons, List.map_cons, List.cons.injEq] at e
    exact .cons ⟨h, e.1.symm⟩ (ih e.2)

/-- C163, for imported scripts, exactly: when MySQL accepts the columns of a script that are counted up, it accepts those of the script that
is exported after an import, if and only if each of them is the first column of its table that belongs to the primary key, or the first one
that belongs to a unique constraint of the table, or the first one of an index. -/
theorem C163_import_exact (ex : List Str) (author version suffix : Str) (hsuf : UnescapedName suffix) (stmts : List Stmt) (s : Schema)
    (h : importSql ex author version stmts = some s) (hp : ∀ t ∈ s.tables, PlainTable t)
    (ha : ∀ x ∈ statedTables ex stmts, AutoStated x) :
    ∃ script, readDdl (Mysql.exportSchema none suffix s) = some script ∧
      ((∀ t ∈ script, AutoAccepted t) ↔
        ∀ x ∈ statedTables ex stmts, ∀ d ∈ x.2.1, ColOption.autoIncrement ∈ d.options → AutoLeads x d.name) := by
  obtain ⟨script, hr, hi⟩ := C163_exact none suffix hsuf s fun t ht _ => hp t ht
  refine ⟨script, hr, hi.trans ?_⟩
  have h1 := (C22_tables ex author version stmts s h).1
  have h2 := C23_columns_partial ex author version stmts s h
  have h3 := C23_indices ex author version stmts s h
  have key : ∀ (x : Created) (t : Table), AutoStated x → t.columns.map (·.name) = x.2.1.map (·.name) →
      List.Forall₂ (fun (d : ColumnDef) (c : Column) =>
        (c.primaryKey = true ↔ .primaryKey ∈ d.options ∨ KeyedBy .primaryKey x.2.2 d.name) ∧
        (c.uniqueKey = true ↔ KeyedBy .uniq x.2.2 d.name) ∧
        c.notNull = lastSaid false (d.options.map nullability) ∧
        (c.autoIncremental = true ↔ .autoIncrement ∈ d.options) ∧
        c.defaultValue = lastSaid [] (d.options.map defaultSaid) ∧
        c.onUpdate = lastSaid [] (d.options.map onUpdateSaid) ∧
        c.description = lastSaid [] (d.options.map commentSaid) ∧
        c.ref = none) x.2.1 t.columns →
      t.indices.map (fun i => (i.name, i.columns.map some)) = (x.2.2.filter (fun c => decide (c.tp = .index))).map (fun c => (c.name, c.keys)) →
      (AutoTable t ↔ ∀ d ∈ x.2.1, ColOption.autoIncrement ∈ d.options → AutoLeads x d.name) := by
    intro x t hx hn hc hidx
    have hb := forall₂_and_map hc hn
    have hind : ∀ n : Str, (∃ i ∈ t.indices, i.columns.head? = some n) ↔ ∃ k ∈ x.2.2, k.tp = .index ∧ k.keys.head? = some (some n) := by
      intro n
      constructor
      · rintro ⟨i, hi, e⟩
        have : (i.name, i.columns.map some) ∈ t.indices.map (fun i => (i.name, i.columns.map some)) := List.mem_map.2 ⟨i, hi, rfl⟩
        rw [hidx] at this
        obtain ⟨k, hk, e'⟩ := List.mem_map.1 this
        obtain ⟨hk, ht⟩ := List.mem_filter.1 hk
        refine ⟨k, hk, of_decide_eq_true ht, ?_⟩
        rw [(Prod.mk.inj e').2, List.head?_map, e]
        rfl
      · rintro ⟨k, hk, ht, e⟩
        have : (k.name, k.keys) ∈ (x.2.2.filter (fun c => decide (c.tp = .index))).map (fun c => (c.name, c.keys)) :=
          List.mem_map.2 ⟨k, List.mem_filter.2 ⟨hk, decide_eq_true ht⟩, rfl⟩
        rw [← hidx] at this
        obtain ⟨i, hi, e'⟩ := List.mem_map.1 this
        refine ⟨i, hi, ?_⟩
        rw [← (Prod.mk.inj e').2, List.head?_map] at e
        cases hh : i.columns.head? with
        | none => rw [hh] at e; cases e
        | some m => rw [hh] at e; rw [Option.some.inj (Option.some.inj e)]
    have hleads : ∀ n : Str, (LeadsBy (·.name) (·.primaryKey = true) t.columns n ∨ LeadsBy (·.name) (·.uniqueKey = true) t.columns n ∨
        ∃ i ∈ t.indices, i.columns.head? = some n) ↔ AutoLeads x n := by
      intro n
      unfold AutoLeads
      rw [hind, ← leadsBy_congr (nb := fun c : Column => c.name) (q := fun c : Column => c.primaryKey = true) hb (fun _ _ h => h.2)
        (fun _ _ h => h.1.1.symm), ← leadsBy_congr (nb := fun c : Column => c.name) (q := fun c : Column => c.uniqueKey = true) hb
        (fun _ _ h => h.2) (fun _ _ h => h.1.2.1.symm)]
    constructor
    · intro ht d hd hauto
      obtain ⟨c, hc, hR⟩ := forall₂_mem_left hb d hd
      rw [hR.2]
      exact (hleads _).1 (ht.keyed c hc (hR.1.2.2.2.1.2 hauto))
    · intro hall
      refine ⟨?_, fun c hc hauto => ?_, fun c hc hauto => ?_⟩
      · have : (t.columns.filter (·.autoIncremental)).map (·.name) =
            (x.2.1.filter fun d => decide (ColOption.autoIncrement ∈ d.options)).map (·.name) := by
          clear hall hleads hind hidx hn hc hx
          generalize t.columns = cs at hb
          generalize x.2.1 = ds at hb
          induction hb with
          | nil => rfl
          | @cons d c l r hR _ ih =>
            by_cases ho : ColOption.autoIncrement ∈ d.options
            · rw [List.filter_cons_of_pos (hR.1.2.2.2.1.2 ho), List.filter_cons_of_pos (p := fun d : ColumnDef => decide (ColOption.autoIncrement ∈ d.options)) (decide_eq_true ho), List.map_cons, List.map_cons, ih,
                hR.2]
            · rw [List.filter_cons_of_neg fun h => ho (hR.1.2.2.2.1.1 h), 
                List.filter_cons_of_neg (p := fun d : ColumnDef => decide (ColOption.autoIncrement ∈ d.options)) fun h => ho (of_decide_eq_true h), ih]
        have hl := congrArg List.length this
        rw [List.length_map, List.length_map] at hl
        rw [hl]
        exact hx.one
      · obtain ⟨d, hd, hR⟩ := forall₂_mem_right hb c hc
        rw [hR.1.2.2.2.2.1]
        have : List.filterMap id (List.map defaultSaid d.options) = [] := by
          rw [List.filterMap_eq_nil_iff]
          intro o ho
          obtain ⟨p, hp, rfl⟩ := List.mem_map.1 ho
          cases p with
          | defaultValue e => cases hx.noDefault d hd (hR.1.2.2.2.1.1 hauto) _ hp
          | _ => rfl
        unfold lastSaid
        rw [this]
        rfl
      · obtain ⟨d, hd, hR⟩ := forall₂_mem_right hb c hc
        rw [hleads, ← hR.2]
        exact hall d hd (hR.1.2.2.2.1.1 hauto)
  have all : List.Forall₂ (fun x t => AutoStated x → (AutoTable t ↔ ∀ d ∈ x.2.1, ColOption.autoIncrement ∈ d.options → AutoLeads x d.name))
      (statedTables ex stmts) s.tables := by
    generalize statedTables ex stmts = xs at h1 h2 h3
    generalize s.tables = ts at h1 h2 h3
    clear hi hr ha hp h
    induction h1 with
    | nil => exact .nil
    | cons a _ ih =>
      cases h2 with
      | cons b b' =>
        cases h3 with
        | cons c c' => exact .cons (fun hx => key _ _ hx a.2.1 b c) (ih b' c')
  constructor
  · intro ht x hx
    obtain ⟨t, hts, hR⟩ := forall₂_mem_left all x hx
    exact (hR (ha x hx)).1 (ht t hts rfl)
  · intro hx t ht _
    obtain ⟨x, hxs, hR⟩ := forall₂_mem_right all t ht
    exact (hR (ha x hxs)).2 (hx x hxs)

/-- C163: a table as `mysqldump` writes it. -/
def countedScript : List Stmt :=
  [.createTable "user"ₛ [{ name := "id"ₛ, tp := { tp := .longlong }, options := [.notNull, .autoIncrement] },
      { name := "name"ₛ, tp := { tp := .varchar, flen := 20 }, options := [.notNull] }]
    [{ tp := .primaryKey, keys := [some "id"ₛ] }]]

/-- C163: a table whose primary key has its columns in another order than the table. -/
def keyOrderScript : List Stmt :=
  [.createTable "item"ₛ [{ name := "shop"ₛ, tp := { tp := .long }, options := [.notNull] },
      { name := "id"ₛ, tp := { tp := .long }, options := [.notNull, .autoIncrement] }]
    [{ tp := .primaryKey, keys := [some "id"ₛ, some "shop"ₛ] }]]

/-- C163: a table with a column that is declared unique. -/
def uniqueScript : List Stmt :=
  [.createTable "item"ₛ [{ name := "id"ₛ, tp := { tp := .long }, options := [.notNull, .autoIncrement, .uniqKey] }] []]

theorem stated_ok : ∀ stmts ∈ [countedScript, keyOrderScript, uniqueScript], ∀ x ∈ statedTables [] stmts, AutoStated x := by
  have h : ∀ stmts ∈ [countedScript, keyOrderScript, uniqueScript], ∀ x ∈ statedTables [] stmts,
      (x.2.1.filter fun d => decide (ColOption.autoIncrement ∈ d.options)).length ≤ 1 ∧
      (∀ d ∈ x.2.1, ColOption.autoIncrement ∈ d.options → ∀ o ∈ d.options, declaresDefault o = false) ∧
      (∀ d ∈ x.2.1, ColOption.autoIncrement ∈ d.options → ColOption.primaryKey ∈ d.options ∨ ColOption.uniqKey ∈ d.options ∨
        ∃ k ∈ x.2.2, k.tp ∈ [ConstraintType.primaryKey, .key, .index, .uniq, .uniqKey, .uniqIndex] ∧ k.keys.head? = some (some d.name)) := by
    decide +kernel
  intro stmts hs x hx
  exact ⟨(h stmts hs x hx).1, (h stmts hs x hx).2.1, (h stmts hs x hx).2.2⟩

theorem stated_export {stmts : List Stmt} (hm : stmts ∈ [countedScript, keyOrderScript, uniqueScript])
    (hc : (importSql [] [] [] stmts).any scriptCheck = true) : ∃ s script, importSql [] [] [] stmts = some s ∧
    readDdl (Mysql.exportSchema none "_u"ₛ s) = some script ∧ ((∀ t ∈ script, AutoAccepted t) ↔
      ∀ x ∈ statedTables [] stmts, ∀ d ∈ x.2.1, ColOption.autoIncrement ∈ d.options → AutoLeads x d.name) := by
  obtain ⟨s, hs, hc⟩ := (Option.any_eq_true _ _).1 hc
  obtain ⟨script, h1, h2⟩ := C163_import_exact [] [] [] "_u"ₛ (by unfold UnescapedName; decide) stmts s hs
    (fun t ht => ((scriptable_of_check "_u"ₛ hc).plain t ht).1) (stated_ok stmts hm)
  exact ⟨s, script, hs, h1, h2⟩

/-- C163: the exported script is accepted again. -/
example : ∃ s script, (∀ x ∈ statedTables [] countedScript, AutoStated x) ∧ importSql [] [] [] countedScript = some s ∧
    readDdl (Mysql.exportSchema none "_u"ₛ s) = some script ∧ ∀ t ∈ script, AutoAccepted t := by
  obtain ⟨s, script, h1, h2, h3⟩ := stated_export (.head _) (by decide +kernel)
  exact ⟨s, script, stated_ok _ (.head _), h1, h2, h3.2 (by decide +kernel)⟩

/-- **C163** is violated: MySQL accepts the script, but not the one that is exported after an import, as the primary key then has its columns
in the order of the table. -/
theorem C163_violated : ∃ stmts s script, (∀ x ∈ statedTables [] stmts, AutoStated x) ∧ importSql [] [] [] stmts = some s ∧
    readDdl (Mysql.exportSchema none "_u"ₛ s) = some script ∧ ¬∀ t ∈ script, AutoAccepted t := by
  have hm : keyOrderScript ∈ [countedScript, keyOrderScript, uniqueScript] := .tail _ (.head _)
  obtain ⟨s, script, h1, h2, h3⟩ := stated_export hm (by decide +kernel)
  refine ⟨keyOrderScript, s, script, stated_ok _ hm, h1, h2, fun h => absurd (h3.1 h) (by decide +kernel)⟩

/-- C163 is violated: the same for a column that is declared unique, which the import does not see. -/
theorem C163_violated_unique : ∃ stmts s script, (∀ x ∈ statedTables [] stmts, AutoStated x) ∧ importSql [] [] [] stmts = some s ∧
    readDdl (Mysql.exportSchema none "_u"ₛ s) = some script ∧ ¬∀ t ∈ script, AutoAccepted t := by
  have hm : uniqueScript ∈ [countedScript, keyOrderScript, uniqueScript] := .tail _ (.tail _ (.head _))
  obtain ⟨s, script, h1, h2, h3⟩ := stated_export hm (by decide +kernel)
  refine ⟨uniqueScript, s, script, stated_ok _ hm, h1, h2, fun h => absurd (h3.1 h) (by decide +kernel)⟩

end Octo

namespace Octo.Cli
open Spec

/-- C163 on the command line: the file that `export mysql` writes can be read, and MySQL accepts its columns that are counted up exactly
under this condition on the stored tables of the groups. -/
theorem C163_commands (w : World) (hw : Faithful w) (v : Values) (fs : Files) (s : Schema) (hst : Stored w fs (v "input"ₛ) s)
    (hsuf : UnescapedName (v "uniqueNameSuffix"ₛ)) (hwr : w.writable (pathOf (v "output"ₛ)) = true)
    (hp : ∀ t ∈ s.tables, passes (getTableFilterFn (v "groups"ₛ)) t = true → PlainTable t) :
    (action w .exportMysql v fs).status = .ok ∧ ∃ text script, (action w .exportMysql v fs).files.at (v "output"ₛ) = some (.text text) ∧
      readDdl text = some script ∧
      ((∀ t ∈ script, AutoAccepted t) ↔ ∀ t ∈ s.tables, passes (getTableFilterFn (v "groups"ₛ)) t = true → AutoTable t) := by
  have e : action w .exportMysql v fs = ⟨fs.set (pathOf (v "output"ₛ))
      (.text (Mysql.exportSchema (getTableFilterFn (v "groups"ₛ)) (v "uniqueNameSuffix"ₛ) s)), .ok⟩ := by
    show exportMysqlAction w v fs = _
    unfold exportMysqlAction
    rw [withSchema_some (load_stored hw hst)]
    unfold write
    rw [if_pos hwr]
  rw [e]
  obtain ⟨script, h1, h2⟩ := C163_exact (getTableFilterFn (v "groups"ₛ)) _ hsuf s hp
  exact ⟨rfl, _, script, files_set_at _ _ _, h1, h2⟩

/-- C163: two columns that are counted up, and none of them a key: the tool reads, checks and stores the schema, and MySQL does not accept
the script. -/
def uncountedSchema : Schema := { tables := [{ name := "t"ₛ, columns := [
  { name := "a"ₛ, type := "int32"ₛ, notNull := true, autoIncremental := true },
  { name := "b"ₛ, type := "int32"ₛ, notNull := true, autoIncremental := true }] }] }

theorem C163_violated_stored : ∃ (v : Values) (fs : Files) (s : Schema), Stored demoWorld fs (v "input"ₛ) s ∧
    (action demoWorld .exportMysql v fs).status = .ok ∧ ∃ text script,
      (action demoWorld .exportMysql v fs).files.at (v "output"ₛ) = some (.text text) ∧
      readDdl text = some script ∧ ¬∀ t ∈ script, AutoAccepted t := by
  obtain ⟨fs, s, h1, h2⟩ := stored_demo demo_faithful (s := uncountedSchema) (by unfold DistinctTables; decide +kernel) (fun t ht =>
    ⟨(C04_accepts_iff tableSort tableSort_spec uncountedSchema).mp (by decide +kernel) t ht, by revert t; decide +kernel⟩)
  obtain ⟨h3, text, script, h4, h5, h6⟩ := C163_commands demoWorld demo_faithful
    (given [("input"ₛ, "a.json"ₛ), ("output"ₛ, "a.sql"ₛ), ("uniqueNameSuffix"ₛ, "_u"ₛ)]) fs s h1
    (by unfold UnescapedName; decide +kernel) (by decide +kernel)
    (fun t ht _ => ((scriptable_of_check "_u"ₛ (s := uncountedSchema) (by decide +kernel)).plain t (h2.mem_iff.1 ht)).1)
  refine ⟨_, fs, s, h1, h3, text, script, h4, h5, fun h => ?_⟩
  have ht : uncountedSchema.tables.head (by decide) ∈ s.tables := h2.mem_iff.2 (List.head_mem _)
  have := (h6.1 h _ ht (by decide +kernel)).one
  exact absurd this (by decide +kernel)

end Octo.Cli
