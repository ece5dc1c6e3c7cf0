import Verif.Lemmas.FlywayRead
import Verif.Lemmas.MysqlDb
import Verif.Lemmas.MigrateDb

/-! The statements of a flyway script for one table. -/

namespace Octo.Flyway
open Spec

/-- Executing `ALTER TABLE` statements on a table. -/
def TActs : List SqlAction → DbTable DdlColumn → DbTable DdlColumn → Prop
  | [], T, T' => T' = T
  | a :: as, T, T'' => ∃ T', alterTable a T = some T' ∧ AutoRule T' ∧ TActs as T' T''

theorem tacts_append {as bs : List SqlAction} {T T' : DbTable DdlColumn} :
    TActs (as ++ bs) T T' ↔ ∃ S, TActs as T S ∧ TActs bs S T' := by
  induction as generalizing T with
  | nil => exact ⟨fun h => ⟨T, rfl, h⟩, by rintro ⟨S, rfl, h⟩; exact h⟩
  | cons a as ih =>
    constructor
    · rintro ⟨S, h1, h2, h3⟩
      obtain ⟨R, h4, h5⟩ := ih.1 h3
      exact ⟨R, ⟨S, h1, h2, h4⟩, h5⟩
    · rintro ⟨R, ⟨S, h1, h2, h4⟩, h5⟩
      exact ⟨S, h1, h2, ih.2 ⟨R, h4, h5⟩⟩

/-- A column without its nullability. -/
def strip (a : DdlColumn) : DdlColumn := { a with notNull := false }

/-- The definitions that statements give to a column. -/
def modsOf (n : Str) (as : List SqlAction) : List DdlColumn :=
  as.filterMap fun
    | .modifyColumn _ c _ => if c.name = n then some c else none
    | _ => none

/-- The statements that occur: modifications and those for the primary key. -/
def Simple : SqlAction → Bool
  | .modifyColumn .. => true
  | .dropPrimaryKey _ => true
  | .addPrimaryKey .. => true
  | _ => false

theorem simple_step {a : SqlAction} {T T' : DbTable DdlColumn} (ha : Simple a = true) (h : alterTable a T = some T') (n : Str) :
    T'.uniques = T.uniques ∧ (T'.cols n).map strip = match modsOf n [a] with
      | [] => (T.cols n).map strip
      | c :: _ => some (strip c) := by
  classical
  cases a with
  | dropPrimaryKey t =>
    simp only [alterTable] at h
    split at h
    · cases h; exact ⟨rfl, rfl⟩
    · cases h
  | addPrimaryKey t cs =>
    simp only [alterTable] at h
    split at h
    · cases h
      refine ⟨rfl, ?_⟩
      change ((T.cols n).map _).map strip = (T.cols n).map strip
      rw [Option.map_map]
      rfl
    · cases h
  | modifyColumn t c k =>
    simp only [alterTable] at h
    split at h
    · cases h
      refine ⟨rfl, ?_⟩
      by_cases e : c.name = n
      · have : modsOf n [.modifyColumn t c k] = [c] := by simp only [modsOf, List.filterMap_cons, if_pos e, List.filterMap_nil]
        rw [this]
        simp only [upd, if_pos e.symm]
        rfl
      · have : modsOf n [.modifyColumn t c k] = [] := by simp only [modsOf, List.filterMap_cons, if_neg e, List.filterMap_nil]
        rw [this]
        simp only [upd, if_neg (Ne.symm e)]
    · cases h
  | _ => cases ha

theorem simple_some {a : SqlAction} {T T' : DbTable DdlColumn} (ha : Simple a = true) (h : alterTable a T = some T') (n : Str) :
    (T'.cols n).isSome = (T.cols n).isSome := by
  classical
  cases a with
  | dropPrimaryKey t =>
    simp only [alterTable] at h
    split at h
    · cases h; rfl
    · cases h
  | addPrimaryKey t cs =>
    simp only [alterTable] at h
    split at h
    · cases h; exact Option.isSome_map ..
    · cases h
  | modifyColumn t c k =>
    simp only [alterTable] at h
    split at h
    · rename_i hc
      cases h
      simp only [upd]
      split
      · rename_i e; rw [e, hc.1]; rfl
      · rfl
    · cases h
  | _ => cases ha

theorem tacts_frame {as : List SqlAction} {T T' : DbTable DdlColumn} (hs : ∀ a ∈ as, Simple a = true) (h : TActs as T T') (n : Str) :
    T'.uniques = T.uniques ∧ (T'.cols n).isSome = (T.cols n).isSome ∧ (T'.cols n).map strip = match (modsOf n as).getLast? with
      | none => (T.cols n).map strip
      | some c => some (strip c) := by
  induction as generalizing T with
  | nil => cases h; exact ⟨rfl, rfl, rfl⟩
  | cons a as ih =>
    obtain ⟨S, h1, _, h2⟩ := h
    obtain ⟨i1, i2, i3⟩ := ih (fun x hx => hs x (List.mem_cons_of_mem _ hx)) h2
    obtain ⟨s1, s2⟩ := simple_step (hs a List.mem_cons_self) h1 n
    refine ⟨i1.trans s1, i2.trans (simple_some (hs a List.mem_cons_self) h1 n), ?_⟩
    have e : modsOf n (a :: as) = modsOf n [a] ++ modsOf n as := List.filterMap_append (l := [a]) (l' := as) ..
    rw [i3, e, s2, List.getLast?_append]
    cases (modsOf n as).getLast? with
    | some c => rfl
    | none =>
      have hl : (modsOf n [a]).length ≤ 1 := List.length_filterMap_le ..
      match hm : modsOf n [a] with
      | [] => rfl
      | [c] => rfl
      | _ :: _ :: _ => rw [hm] at hl; simp at hl

/-! ## The columns -/

/-- The statements for a column that is in both versions, given as new and old. -/
def colActs (table : Str) (p : Column × Column) : List SqlAction :=
  (if p.1.notNull != p.2.notNull then
    [.modifyColumn table (ddlColumn Mysql.toMysqlColumnType (bareColumn p.1)) false] else []) ++
  (if p.1.autoIncremental != p.2.autoIncremental then
    [if p.1.autoIncremental then .modifyColumn table (ddlColumn Mysql.toMysqlColumnType p.1) false
      else .modifyColumn table { name := p.1.name, type := Mysql.toMysqlColumnType p.1, autoIncrement := true } true]
    else [])

/-- The statements for the primary key. -/
def keyActs (o t : Table) : List SqlAction :=
  if !t.primaryKeyNameSet.equals o.primaryKeyNameSet then
    .dropPrimaryKey t.name :: (if t.columns.any (·.primaryKey) then [.addPrimaryKey t.name (keyList t)] else [])
  else []

theorem tableChanges_said (sched : List (Column × Column) → List (Column × Column)) (t o : Table) (uc : Bool) (suffix suf : Str) :
    (tableChanges sched t o uc suffix).flatMap (said suf) =
      (keptColumns t o).flatMap (colActs t.name) ++ keyActs o t := by
  have hcol : ∀ p ∈ keptColumns t o, (columnChanges t p.1 p.2 uc).flatMap (said suf) = colActs t.name p := by
    intro p hp
    rw [columnChanges_eq _ _ _ _ (keptColumns_name hp)]
    unfold colActs
    simp only [List.flatMap_append]
    have e1 : ∀ (b : Bool) (c : Change), (if b = true then [c] else []).flatMap (said suf) = if b = true then said suf c else [] := by
      intro b c; cases b <;> simp
    simp only [e1]
    have e2 : ∀ b : Bool, (if b = true then ([] : List SqlAction) else []) = [] := by intro b; cases b <;> rfl
    have n1 : said suf (.changeColumnType t p.2 p.1) = [] := rfl
    have n2 : said suf (.setColumnComment t p.1) = [] := rfl
    have n3 : said suf (.setDefaultValue t p.1) = [] := rfl
    have n4 : said suf (.setNotNull t p.1) = [.modifyColumn t.name (ddlColumn Mysql.toMysqlColumnType (bareColumn p.1)) false] := rfl
    have n5 : said suf (.setAutoIncrement t p.1) = [if p.1.autoIncremental then .modifyColumn t.name (ddlColumn Mysql.toMysqlColumnType p.1) false
      else .modifyColumn t.name { name := p.1.name, type := Mysql.toMysqlColumnType p.1, autoIncrement := true } true] := by
      rw [said]; cases p.1.autoIncremental <;> rfl
    rw [n1, n2, n3, n4, n5]
    simp only [e2, List.nil_append, List.append_nil]
  have hnil : ∀ (l : List Change), (∀ c ∈ l, said suf c = []) → l.flatMap (said suf) = [] := by
    intro l hl; rw [List.flatMap_eq_nil_iff]; exact hl
  have hite : ∀ (b : Bool) (c : Change), said suf c = [] → (if b = true then [c] else []).flatMap (said suf) = [] := by
    intro b c hc; cases b <;> simp [hc]
  rw [tableChanges_eq]
  simp only [List.flatMap_append]
  rw [hite _ _ rfl, hite _ _ rfl, List.nil_append, List.nil_append]
  rw [List.flatMap_assoc, List.flatMap_congr hcol]
  rw [hnil ((columnRenames t o uc).2.slice.map _) (by
      intro c hc; obtain ⟨n, _, rfl⟩ := List.mem_map.1 hc; rfl),
    hnil ((sched (renamedPairs (columnRenames t o uc).1)).map _) (by
      intro c hc; obtain ⟨n, _, rfl⟩ := List.mem_map.1 hc; rfl),
    hite _ (.createUnique (t.name ++ suffix) t) rfl, List.nil_append, List.nil_append, List.append_nil]
  unfold keyActs
  cases t.primaryKeyNameSet.equals o.primaryKeyNameSet
  · simp only [Bool.not_false, if_true, List.flatMap_cons, List.flatMap_nil, List.append_nil, said]
  · rfl

theorem colActs_simple {table : Str} {p : Column × Column} : ∀ a ∈ colActs table p, Simple a = true := by
  intro a ha
  unfold colActs at ha
  rcases List.mem_append.1 ha with h | h
  · split at h
    · rw [List.mem_singleton.1 h]; rfl
    · cases h
  · split at h
    · rw [List.mem_singleton.1 h]; split <;> rfl
    · cases h

theorem keyActs_simple {o t : Table} : ∀ a ∈ keyActs o t, Simple a = true := by
  intro a ha
  unfold keyActs at ha
  split at ha
  · rcases List.mem_cons.1 ha with rfl | h
    · rfl
    · split at h
      · rw [List.mem_singleton.1 h]; rfl
      · cases h
  · cases ha

theorem modsOf_keyActs {o t : Table} (n : Str) : modsOf n (keyActs o t) = [] := by
  unfold keyActs
  split
  · split <;> rfl
  · rfl

theorem modsOf_append (n : Str) (as bs : List SqlAction) : modsOf n (as ++ bs) = modsOf n as ++ modsOf n bs :=
  List.filterMap_append ..

theorem modsOf_colActs_ne {table n : Str} {p : Column × Column} (h : p.1.name ≠ n) : modsOf n (colActs table p) = [] := by
  unfold colActs
  rw [modsOf_append]
  have h1 : ∀ k, modsOf n [.modifyColumn table (ddlColumn Mysql.toMysqlColumnType (bareColumn p.1)) k] = [] := by
    intro k
    have : (ddlColumn Mysql.toMysqlColumnType (bareColumn p.1)).name ≠ n := h
    simp only [modsOf, List.filterMap_cons, if_neg this, List.filterMap_nil]
  have h2 : ∀ k, modsOf n [.modifyColumn table (ddlColumn Mysql.toMysqlColumnType p.1) k] = [] := by
    intro k
    have : (ddlColumn Mysql.toMysqlColumnType p.1).name ≠ n := h
    simp only [modsOf, List.filterMap_cons, if_neg this, List.filterMap_nil]
  have h3 : ∀ k, modsOf n [.modifyColumn table { name := p.1.name, type := Mysql.toMysqlColumnType p.1, autoIncrement := true } k] = [] := by
    intro k
    simp only [modsOf, List.filterMap_cons, if_neg h, List.filterMap_nil]
  have h4 : modsOf n [] = [] := rfl
  split <;> split <;> (try split) <;> simp only [h1, h2, h3, h4, List.append_nil]

theorem modsOf_flatMap {table : Str} {P : List (Column × Column)} (hnd : (P.map (·.1.name)).Nodup) {p : Column × Column} (hp : p ∈ P) :
    modsOf p.1.name (P.flatMap (colActs table)) = modsOf p.1.name (colActs table p) := by
  have hnone : ∀ Q : List (Column × Column), p.1.name ∉ Q.map (·.1.name) → modsOf p.1.name (Q.flatMap (colActs table)) = [] := by
    intro Q hQ
    induction Q with
    | nil => rfl
    | cons q Q ih =>
      rw [List.map_cons, List.mem_cons, not_or] at hQ
      rw [List.flatMap_cons, modsOf_append, ih hQ.2, modsOf_colActs_ne (Ne.symm hQ.1)]
      rfl
  induction P with
  | nil => cases hp
  | cons q P ih =>
    rw [List.map_cons, List.nodup_cons] at hnd
    rw [List.flatMap_cons, modsOf_append]
    rcases List.mem_cons.1 hp with rfl | hp
    · rw [hnone P hnd.1, List.append_nil]
    · rw [ih hnd.2 hp, modsOf_colActs_ne, List.nil_append]
      intro e
      exact hnd.1 (e ▸ List.mem_map_of_mem (f := fun q : Column × Column => q.1.name) hp)

/-- The last definition a column is given. -/
theorem modsOf_colActs_last (table : Str) (p : Column × Column) : (modsOf p.1.name (colActs table p)).getLast? =
    if p.1.autoIncremental != p.2.autoIncremental then
      some (if p.1.autoIncremental then ddlColumn Mysql.toMysqlColumnType p.1
        else { name := p.1.name, type := Mysql.toMysqlColumnType p.1, autoIncrement := true })
    else if p.1.notNull != p.2.notNull then some (ddlColumn Mysql.toMysqlColumnType (bareColumn p.1)) else none := by
  have h1 : ∀ k, modsOf p.1.name [.modifyColumn table (ddlColumn Mysql.toMysqlColumnType (bareColumn p.1)) k] =
      [ddlColumn Mysql.toMysqlColumnType (bareColumn p.1)] := by
    intro k
    have : (ddlColumn Mysql.toMysqlColumnType (bareColumn p.1)).name = p.1.name := rfl
    simp only [modsOf, List.filterMap_cons, if_pos this, List.filterMap_nil]
  have h2 : ∀ k, modsOf p.1.name [.modifyColumn table (ddlColumn Mysql.toMysqlColumnType p.1) k] =
      [ddlColumn Mysql.toMysqlColumnType p.1] := by
    intro k
    have : (ddlColumn Mysql.toMysqlColumnType p.1).name = p.1.name := rfl
    simp only [modsOf, List.filterMap_cons, if_pos this, List.filterMap_nil]
  have h3 : ∀ k, modsOf p.1.name [.modifyColumn table { name := p.1.name, type := Mysql.toMysqlColumnType p.1, autoIncrement := true } k] =
      [{ name := p.1.name, type := Mysql.toMysqlColumnType p.1, autoIncrement := true }] := by
    intro k
    simp only [modsOf, List.filterMap_cons, if_true, List.filterMap_nil]
  have h4 : modsOf p.1.name [] = [] := rfl
  unfold colActs
  rw [modsOf_append]
  cases p.1.autoIncremental <;> cases p.2.autoIncremental <;> cases p.1.notNull <;> cases p.2.notNull <;>
    simp only [bne_self_eq_false, Bool.false_eq_true, if_false, if_true, h1, h2, h3, h4, List.nil_append, List.append_nil,
      List.getLast?_append, List.getLast?_singleton, List.getLast?_nil, Option.some_or,
      show (false != true) = true from rfl, show (true != false) = true from rfl]

/-! ## Tables as they are created -/

/-- A column as it is created. -/
def made (c : Column) : DdlColumn :=
  { ddlColumn Mysql.toMysqlColumnType c with notNull := c.notNull || c.primaryKey }

/-- A table as it is created. -/
noncomputable def C (suffix : Str) (t : Table) : DbTable DdlColumn := (ddlTable Mysql.toMysqlColumnType suffix t).create

section
variable {suffix : Str} {t : Table} (hnd : (t.columns.map (·.name)).Nodup)
include hnd

theorem pkNames_iff {c : Column} (hc : c ∈ t.columns) : pkNames t c.name ↔ c.primaryKey = true := by
  constructor
  · rintro ⟨c', hc', hk, e⟩
    rw [← List.inj_on_of_nodup_map hnd hc' hc e]; exact hk
  · intro h; exact ⟨c, hc, h, rfl⟩

theorem C_cols (n : Str) : (C suffix t).cols n = (columnNamed t n).map made := by
  classical
  obtain ⟨f, h1, h2⟩ := create_cols Mysql.toMysqlColumnType suffix (t := t) n
  unfold C
  rw [h1]
  cases hc : columnNamed t n with
  | none => rfl
  | some c =>
    obtain ⟨h3, h4⟩ := h2 c hc
    obtain ⟨hm, rfl⟩ := (columnNamed_eq_some hnd).1 hc
    rw [Option.map_some, Option.map_some, h4, h3]
    have : decide (pkNames t c.name) = c.primaryKey := by
      cases hk : c.primaryKey with
      | true => exact decide_eq_true ((pkNames_iff hnd hm).2 hk)
      | false =>
        refine decide_eq_false fun h => ?_
        rw [(pkNames_iff hnd hm).1 h] at hk; cases hk
    rw [this]
    rfl

theorem C_col {c : Column} (hc : c ∈ t.columns) : (C suffix t).cols c.name = some (made c) := by
  rw [C_cols hnd, (columnNamed_eq_some hnd).2 ⟨hc, rfl⟩]; rfl

theorem C_isSome (n : Str) : ((C suffix t).cols n).isSome = true ↔ n ∈ t.columns.map (·.name) := by
  rw [C_cols hnd, Option.isSome_map]
  constructor
  · intro h
    obtain ⟨c, hc⟩ := Option.isSome_iff_exists.1 h
    obtain ⟨hm, rfl⟩ := (columnNamed_eq_some hnd).1 hc
    exact List.mem_map_of_mem hm
  · intro h
    obtain ⟨c, hc, rfl⟩ := List.mem_map.1 h
    rw [(columnNamed_eq_some hnd).2 ⟨hc, rfl⟩]; rfl

omit hnd in
theorem C_pk (n : Str) : (C suffix t).pk n ↔ pkNames t n := ddlTable_inKey ..

omit hnd in
theorem C_unique (n : Str) : (∃ k u, (C suffix t).uniques k = some u ∧ u n) ↔ uqNames t n := by
  constructor
  · rintro ⟨k, u, h1, h2⟩
    unfold C at h1
    rw [create_uniques] at h1
    split at h1
    · cases h1
    · split at h1
      · cases h1; exact h2
      · cases h1
  · intro h
    refine ⟨t.name ++ suffix, uqNames t, ?_, h⟩
    obtain ⟨c, hc, hu, _⟩ := h
    unfold C
    rw [create_uniques, if_neg (hasUnique_iff_filter.1 ⟨c, hc, hu⟩), if_pos rfl]

end

theorem C_uniques {suffix : Str} {t o : Table} (hn : o.name = t.name) :
    (C suffix t).uniques = (C suffix o).uniques ↔ ∀ n, uqNames o n ↔ uqNames t n := by
  constructor
  · intro h n
    rw [← C_unique (suffix := suffix), ← C_unique (suffix := suffix) (t := t), h]
  · intro h
    have hu : uqNames o = uqNames t := funext fun n => propext (h n)
    have hh : ∀ t : Table, t.columns.filter (·.uniqueKey) = [] ↔ ∀ n, ¬uqNames t n := by
      intro t
      rw [List.filter_eq_nil_iff]
      constructor
      · rintro h n ⟨c, hc, hu, _⟩; exact h c hc hu
      · intro h c hc hu; exact h c.name ⟨c, hc, hu, rfl⟩
    have hiff : t.columns.filter (·.uniqueKey) = [] ↔ o.columns.filter (·.uniqueKey) = [] := by
      rw [hh, hh, hu]
    funext k
    unfold C
    rw [create_uniques, create_uniques, hn, hu]
    by_cases e : t.columns.filter (·.uniqueKey) = []
    · rw [if_pos e, if_pos (hiff.1 e)]
    · rw [if_neg e, if_neg fun h => e (hiff.2 h)]

theorem strip_made (c : Column) : strip (made c) = strip (ddlColumn Mysql.toMysqlColumnType c) := rfl

theorem strip_bare {c : Column} :
    strip (ddlColumn Mysql.toMysqlColumnType (bareColumn c)) = strip (ddlColumn Mysql.toMysqlColumnType c) ↔ OnlyNullability c := by
  have ht := bareColumn_type c
  constructor
  · intro h
    have h1 : false = c.autoIncremental := congrArg DdlColumn.autoIncrement h
    have h2 := congrArg DdlColumn.default h
    have h3 := congrArg DdlColumn.onUpdate h
    have h4 := congrArg DdlColumn.comment h
    refine ⟨h1.symm, ?_, ?_, ?_⟩
    · by_contra e
      change none = (if c.defaultValue = [] then none else _) at h2
      rw [if_neg e] at h2; cases h2
    · by_contra e
      change none = (if c.onUpdate = [] then none else _) at h3
      rw [if_neg e] at h3; cases h3
    · by_contra e
      change none = (if c.description = [] then none else _) at h4
      rw [if_neg e] at h4; cases h4
  · rintro ⟨h1, h2, h3, h4⟩
    have : bareColumn c = c := by
      unfold bareColumn
      cases c
      dsimp only at h1 h2 h3 h4
      subst h1 h2 h3 h4
      rfl
    rw [this]


/-! ## The state after the columns -/

theorem autoRule_mono {S S' : DbTable DdlColumn} (h : AutoRule S') (hpk : ∀ n, S'.pk n → S.pk n) (hu : S.uniques = S'.uniques)
    (hc : ∀ n a, S.cols n = some a → a.autoIncrement = true → ∃ a', S'.cols n = some a' ∧ a'.autoIncrement = true) : AutoRule S where
  one := by
    intro n m a b ha hb ha' hb'
    obtain ⟨x, h1, h2⟩ := hc n a ha ha'
    obtain ⟨y, h3, h4⟩ := hc m b hb hb'
    exact h.one n m x y h1 h3 h2 h4
  keyed := by
    intro n a ha ha'
    obtain ⟨x, h1, h2⟩ := hc n a ha ha'
    rcases h.keyed n x h1 h2 with h | h
    · exact Or.inl (hpk n h)
    · rw [hu]; exact Or.inr h

/-- A table with another definition of a column. -/
def setCol (T : DbTable DdlColumn) (n : Str) (a : DdlColumn) : DbTable DdlColumn := { T with cols := upd T.cols n (some a) }

open Classical in
theorem alter_modify {T : DbTable DdlColumn} {c : DdlColumn} (tb : Str) (h : (T.cols c.name).isSome = true) :
    alterTable (.modifyColumn tb c false) T = some (setCol T c.name { c with notNull := c.notNull || decide (T.pk c.name) }) := by
  simp only [alterTable]
  rw [if_pos ⟨h, fun e => by cases e⟩]
  have : (fun n => T.pk n ∨ (false = true ∧ n = c.name)) = T.pk := by
    funext n; apply propext; constructor
    · rintro (h | ⟨h, _⟩)
      · exact h
      · cases h
    · exact Or.inl
  rw [this, Bool.or_false]
  rfl

/-- The column after the statements for it. -/
def after (p : Column × Column) : DdlColumn :=
  { ddlColumn Mysql.toMysqlColumnType p.1 with notNull := p.1.notNull || p.2.primaryKey }

theorem setCol_same {T : DbTable DdlColumn} {n : Str} {a : DdlColumn} (h : T.cols n = some a) : setCol T n a = T := by
  have : upd T.cols n (some a) = T.cols := by
    funext m; unfold upd; split
    · rename_i e; rw [e, h]
    · rfl
  unfold setCol; rw [this]

theorem setCol_setCol {T : DbTable DdlColumn} {n : Str} {a b : DdlColumn} : setCol (setCol T n a) n b = setCol T n b := by
  have : upd (upd T.cols n (some a)) n (some b) = upd T.cols n (some b) := by
    funext m; unfold upd; split <;> rfl
  unfold setCol; rw [this]

theorem setCol_self {T : DbTable DdlColumn} {n : Str} {a : DdlColumn} : (setCol T n a).cols n = some a := if_pos rfl

theorem setCol_ne {T : DbTable DdlColumn} {n m : Str} {a : DdlColumn} (h : m ≠ n) : (setCol T n a).cols m = T.cols m := if_neg h

theorem tacts_one {a : SqlAction} {T S R : DbTable DdlColumn} (h : alterTable a T = some R) :
    TActs [a] T S ↔ S = R ∧ AutoRule R := by
  constructor
  · rintro ⟨T', h1, h2, h3⟩
    rw [h] at h1; cases h1
    exact ⟨h3, h2⟩
  · rintro ⟨rfl, h2⟩
    exact ⟨S, h, h2, rfl⟩

theorem colActs_run (tb : Str) {p : Column × Column} {T S : DbTable DdlColumn} (hm : ColumnMoves Mysql.toMysqlColumnType p.2 p.1)
    (hT : T.cols p.1.name = some (made p.2)) (hk : T.pk p.1.name ↔ p.2.primaryKey = true) :
    TActs (colActs tb p) T S ↔ S = setCol T p.1.name (after p) ∧ (colActs tb p ≠ [] → AutoRule (setCol T p.1.name (after p))) := by
  classical
  have hsome : ∀ {U : DbTable DdlColumn} {a : DdlColumn}, U.cols p.1.name = some a → (U.cols p.1.name).isSome = true :=
    fun h => by rw [h]; rfl
  have hdec : decide (T.pk p.1.name) = p.2.primaryKey := by
    cases h : p.2.primaryKey with
    | true => exact decide_eq_true (hk.2 h)
    | false => refine decide_eq_false fun h' => ?_; rw [hk.1 h'] at h; cases h
  have hD : alterTable (.modifyColumn tb (ddlColumn Mysql.toMysqlColumnType p.1) false) T = some (setCol T p.1.name (after p)) := by
    rw [alter_modify (c := ddlColumn Mysql.toMysqlColumnType p.1) tb (hsome hT)]
    change some (setCol T p.1.name { ddlColumn Mysql.toMysqlColumnType p.1 with
      notNull := p.1.notNull || decide (T.pk p.1.name) }) = _
    rw [hdec]
    rfl
  rcases hm with h | ⟨h1, h2⟩ | ⟨h1, h2, h3⟩
  · have hn : p.2.notNull = p.1.notNull := congrArg DdlColumn.notNull h
    have ha : p.2.autoIncremental = p.1.autoIncremental := congrArg DdlColumn.autoIncrement h
    have hnil : colActs tb p = [] := by
      unfold colActs
      rw [hn, ha, bne_self_eq_false, bne_self_eq_false]
      rfl
    have hsame : made p.2 = after p := by
      unfold made after
      rw [h, hn]
    rw [hnil, setCol_same (hT.trans (congrArg some hsame))]
    exact ⟨fun h => ⟨h, fun e => absurd rfl e⟩, fun h => h.1⟩
  · have hb : (p.1.autoIncremental != p.2.autoIncremental) = true := by rw [h1, h2]; rfl
    have hacts : colActs tb p = (if p.1.notNull != p.2.notNull then
        [.modifyColumn tb (ddlColumn Mysql.toMysqlColumnType (bareColumn p.1)) false] else []) ++
        [.modifyColumn tb (ddlColumn Mysql.toMysqlColumnType p.1) false] := by
      unfold colActs
      rw [if_pos hb, if_pos h2]
    have hne : colActs tb p ≠ [] := by rw [hacts]; simp
    by_cases hn : (p.1.notNull != p.2.notNull) = true
    · rw [if_pos hn] at hacts
      have hB := alter_modify (T := T) (c := ddlColumn Mysql.toMysqlColumnType (bareColumn p.1)) tb (hsome hT)
      have hR : alterTable (.modifyColumn tb (ddlColumn Mysql.toMysqlColumnType p.1) false)
          (setCol T p.1.name { ddlColumn Mysql.toMysqlColumnType (bareColumn p.1) with
            notNull := p.1.notNull || decide (T.pk p.1.name) }) = some (setCol T p.1.name (after p)) := by
        rw [alter_modify (c := ddlColumn Mysql.toMysqlColumnType p.1) tb (hsome setCol_self)]
        change some (setCol (setCol T p.1.name _) p.1.name { ddlColumn Mysql.toMysqlColumnType p.1 with
          notNull := p.1.notNull || decide (T.pk p.1.name) }) = _
        rw [setCol_setCol, hdec]
        rfl
      constructor
      · intro h
        rw [hacts] at h
        obtain ⟨T', h4, _, h5⟩ := h
        rw [hB] at h4
        cases h4
        obtain ⟨h6, h7⟩ := (tacts_one hR).1 h5
        exact ⟨h6, fun _ => h7⟩
      · rintro ⟨h4, h5⟩
        rw [hacts]
        refine ⟨_, hB, ?_, (tacts_one hR).2 ⟨h4, h5 hne⟩⟩
        refine autoRule_mono (h5 hne) (fun _ h => h) rfl ?_
        intro n a ha ha'
        by_cases e : n = p.1.name
        · subst e
          have ha := setCol_self.symm.trans ha
          cases ha
          cases ha'
        · exact ⟨a, (setCol_ne e).trans ((setCol_ne (n := p.1.name) e).symm.trans ha), ha'⟩
    · rw [if_neg hn] at hacts
      rw [hacts, List.nil_append, tacts_one hD]
      simp
  · have hb : (p.1.autoIncremental != p.2.autoIncremental) = false := by rw [h2]; exact bne_self_eq_false _
    have hn : (p.1.notNull != p.2.notNull) = true := by rw [bne_iff_ne]; exact Ne.symm h1
    have hbare : bareColumn p.1 = p.1 := by
      obtain ⟨g1, g2, g3, g4⟩ := h3
      unfold bareColumn
      generalize p.1 = c at *
      cases c
      dsimp only at g1 g2 g3 g4
      subst g1 g2 g3 g4
      rfl
    have hacts : colActs tb p = [.modifyColumn tb (ddlColumn Mysql.toMysqlColumnType p.1) false] := by
      unfold colActs
      rw [if_pos hn, if_neg (by rw [hb]; decide), hbare]
      rfl
    rw [hacts, tacts_one hD]
    simp

/-- The table after the statements for all columns. -/
def stepAll : List (Column × Column) → DbTable DdlColumn → DbTable DdlColumn
  | [], T => T
  | p :: P, T => stepAll P (setCol T p.1.name (after p))

theorem stepAll_pk (P : List (Column × Column)) (T : DbTable DdlColumn) : (stepAll P T).pk = T.pk ∧ (stepAll P T).uniques = T.uniques := by
  induction P generalizing T with
  | nil => exact ⟨rfl, rfl⟩
  | cons p P ih => exact ih _

theorem stepAll_other {P : List (Column × Column)} {n : Str} (h : n ∉ P.map (·.1.name)) (T : DbTable DdlColumn) :
    (stepAll P T).cols n = T.cols n := by
  induction P generalizing T with
  | nil => rfl
  | cons p P ih =>
    rw [List.map_cons, List.mem_cons, not_or] at h
    exact (ih h.2 _).trans (setCol_ne h.1)

theorem stepAll_col {P : List (Column × Column)} (hnd : (P.map (·.1.name)).Nodup) {p : Column × Column} (hp : p ∈ P) (T : DbTable DdlColumn) :
    (stepAll P T).cols p.1.name = some (after p) := by
  induction P generalizing T with
  | nil => cases hp
  | cons q P ih =>
    rw [List.map_cons, List.nodup_cons] at hnd
    rcases List.mem_cons.1 hp with rfl | hp
    · exact (stepAll_other hnd.1 _).trans setCol_self
    · exact ih hnd.2 hp _

theorem moves_auto {p : Column × Column} (hm : ColumnMoves Mysql.toMysqlColumnType p.2 p.1) (h : p.2.autoIncremental = true) :
    p.1.autoIncremental = true := by
  rcases hm with h' | ⟨h', _⟩ | ⟨_, h', _⟩
  · have ha : p.2.autoIncremental = p.1.autoIncremental := congrArg DdlColumn.autoIncrement h'
    rw [← ha, h]
  · rw [h] at h'; cases h'
  · rw [← h', h]

theorem cols_run (tb : Str) {P : List (Column × Column)} (hnd : (P.map (·.1.name)).Nodup) {T S : DbTable DdlColumn}
    (hm : ∀ p ∈ P, ColumnMoves Mysql.toMysqlColumnType p.2 p.1)
    (hT : ∀ p ∈ P, T.cols p.1.name = some (made p.2)) (hk : ∀ p ∈ P, T.pk p.1.name ↔ p.2.primaryKey = true) :
    TActs (P.flatMap (colActs tb)) T S ↔ S = stepAll P T ∧ (P.flatMap (colActs tb) ≠ [] → AutoRule (stepAll P T)) := by
  induction P generalizing T with
  | nil => exact ⟨fun h => ⟨h, fun e => absurd rfl e⟩, fun h => h.1⟩
  | cons p P ih =>
    rw [List.map_cons, List.nodup_cons] at hnd
    have hne : ∀ q ∈ P, q.1.name ≠ p.1.name := fun q hq e =>
      hnd.1 (e ▸ List.mem_map_of_mem (f := fun q : Column × Column => q.1.name) hq)
    have ih' := ih (T := setCol T p.1.name (after p)) hnd.2 (fun q hq => hm q (List.mem_cons_of_mem _ hq))
      (fun q hq => (setCol_ne (hne q hq)).trans (hT q (List.mem_cons_of_mem _ hq)))
      (fun q hq => hk q (List.mem_cons_of_mem _ hq))
    rw [List.flatMap_cons, tacts_append]
    change (∃ R, _ ∧ _) ↔ S = stepAll P (setCol T p.1.name (after p)) ∧
      (_ → AutoRule (stepAll P (setCol T p.1.name (after p))))
    constructor
    · rintro ⟨R, h1, h2⟩
      obtain ⟨rfl, h3⟩ := (colActs_run tb (hm p List.mem_cons_self) (hT p List.mem_cons_self) (hk p List.mem_cons_self)).1 h1
      obtain ⟨h4, h5⟩ := ih'.1 h2
      refine ⟨h4, fun he => ?_⟩
      by_cases hr : P.flatMap (colActs tb) = []
      · rw [hr, List.append_nil] at he
        rw [hr] at h2
        have e : S = setCol T p.1.name (after p) := h2
        rw [← h4, e]
        exact h3 he
      · exact h5 hr
    · rintro ⟨h1, h2⟩
      refine ⟨setCol T p.1.name (after p), (colActs_run tb (hm p List.mem_cons_self) (hT p List.mem_cons_self)
        (hk p List.mem_cons_self)).2 ⟨rfl, fun he => ?_⟩, ih'.2 ⟨h1, fun he => h2 fun e => he (List.append_eq_nil_iff.1 e).2⟩⟩
      refine autoRule_mono (h2 fun e => he (List.append_eq_nil_iff.1 e).1) (fun n h => ?_) ?_ ?_
      · rw [(stepAll_pk _ _).1] at h; exact h
      · rw [(stepAll_pk _ _).2]
      · intro n a ha ha'
        by_cases hn : n ∈ P.map (·.1.name)
        · obtain ⟨q, hq, rfl⟩ := List.mem_map.1 hn
          refine ⟨after q, stepAll_col hnd.2 hq _, ?_⟩
          rw [setCol_ne (hne q hq), hT q (List.mem_cons_of_mem _ hq)] at ha
          cases ha
          exact moves_auto (hm q (List.mem_cons_of_mem _ hq)) ha'
        · exact ⟨a, (stepAll_other hn _).trans ha, ha'⟩

/-! ## One table -/

section
variable {suffix : Str} {o t : Table}

theorem mem_kept (ho : (o.columns.map (·.name)).Nodup) {p : Column × Column} :
    p ∈ keptColumns t o ↔ p.1 ∈ t.columns ∧ p.2 ∈ o.columns ∧ p.2.name = p.1.name := by
  rw [mem_keptColumns]
  constructor
  · rintro ⟨h1, h2⟩; exact ⟨h1, (lastBy_some h2).1, (lastBy_some h2).2⟩
  · rintro ⟨h1, h2, h3⟩
    refine ⟨h1, ?_⟩
    rw [← h3]; exact lastBy_nodup ho h2

theorem kept_nodup (ht : (t.columns.map (·.name)).Nodup) : ((keptColumns t o).map (·.1.name)).Nodup := by
  refine List.Sublist.nodup ?_ ht
  unfold keptColumns
  generalize t.columns = l
  induction l with
  | nil => exact List.Sublist.refl _
  | cons c l ih =>
    rw [List.filterMap_cons]
    cases o.columnNameMap c.name with
    | none => exact ih.cons _
    | some x => exact ih.cons_cons _

theorem forward (ht : (t.columns.map (·.name)).Nodup) (ho : (o.columns.map (·.name)).Nodup) (hn : o.name = t.name)
    (h : TActs ((keptColumns t o).flatMap (colActs t.name) ++ keyActs o t) (C suffix o) (C suffix t)) :
    (∀ n, n ∈ o.columns.map (·.name) ↔ n ∈ t.columns.map (·.name)) ∧
    (∀ x ∈ o.columns, ∀ c ∈ t.columns, x.name = c.name → ColumnMoves Mysql.toMysqlColumnType x c) ∧
    ∀ n, uqNames o n ↔ uqNames t n := by
  have hs : ∀ a ∈ (keptColumns t o).flatMap (colActs t.name) ++ keyActs o t, Simple a = true := by
    intro a ha
    rcases List.mem_append.1 ha with h | h
    · obtain ⟨p, _, hp⟩ := List.mem_flatMap.1 h
      exact colActs_simple a hp
    · exact keyActs_simple a h
  have hf := tacts_frame hs h
  refine ⟨fun n => ?_, ?_, (C_uniques hn).1 (hf []).1⟩
  · rw [← C_isSome (suffix := suffix) ho, ← C_isSome (suffix := suffix) ht, (hf n).2.1]
  · intro x hx c hc e
    have hp : (c, x) ∈ keptColumns t o := (mem_kept ho).2 ⟨hc, hx, e⟩
    have h3 := (hf c.name).2.2
    rw [modsOf_append, modsOf_keyActs, List.append_nil, modsOf_flatMap (p := (c, x)) (kept_nodup ht) hp,
      modsOf_colActs_last t.name (c, x), C_col ht hc, ← e, C_col ho hx, Option.map_some, Option.map_some, strip_made, strip_made] at h3
    dsimp only at h3
    by_cases ha : (c.autoIncremental != x.autoIncremental) = true
    · rw [if_pos ha] at h3
      by_cases hc' : c.autoIncremental = true
      · refine Or.inr (Or.inl ⟨?_, hc'⟩)
        cases hx' : x.autoIncremental with
        | false => rfl
        | true => rw [hc', hx'] at ha; cases ha
      · rw [if_neg hc'] at h3
        have : c.autoIncremental = true := congrArg DdlColumn.autoIncrement (Option.some.inj h3)
        exact absurd this hc'
    · rw [if_neg ha] at h3
      have hauto : x.autoIncremental = c.autoIncremental := by
        rw [bne_iff_ne, not_not] at ha; exact ha.symm
      by_cases hnn : (c.notNull != x.notNull) = true
      · rw [if_pos hnn] at h3
        exact Or.inr (Or.inr ⟨Ne.symm (bne_iff_ne.1 hnn), hauto, strip_bare.1 (Option.some.inj h3).symm⟩)
      · rw [if_neg hnn] at h3
        rw [bne_iff_ne, not_not] at hnn
        have h4 := Option.some.inj h3
        refine Or.inl ?_
        have : ∀ a b : DdlColumn, strip a = strip b → a.notNull = b.notNull → a = b := by
          rintro ⟨⟩ ⟨⟩ h1 h2
          cases h1; cases h2; rfl
        exact this _ _ h4.symm hnn.symm

theorem autoRule_iff {S : DbTable DdlColumn} {keys : Str → Prop}
    (h1 : ∀ n a, S.cols n = some a → ∃ c ∈ t.columns, c.name = n ∧ c.autoIncremental = a.autoIncrement)
    (h2 : ∀ c ∈ t.columns, ∃ a, S.cols c.name = some a ∧ a.autoIncrement = c.autoIncremental)
    (h3 : ∀ n, (S.pk n ∨ ∃ k u, S.uniques k = some u ∧ u n) ↔ keys n) : AutoRule S ↔ AutoWithin t keys := by
  constructor
  · intro h
    refine ⟨?_, ?_⟩
    · intro a ha b hb ha' hb'
      obtain ⟨x, e1, e2⟩ := h2 a ha
      obtain ⟨y, e3, e4⟩ := h2 b hb
      exact h.one _ _ x y e1 e3 (e2.trans ha') (e4.trans hb')
    · intro a ha ha'
      obtain ⟨x, e1, e2⟩ := h2 a ha
      exact (h3 _).1 (h.keyed _ x e1 (e2.trans ha'))
  · rintro ⟨g1, g2⟩
    refine ⟨?_, ?_⟩
    · intro n m a b ha hb ha' hb'
      obtain ⟨c, hc, rfl, e1⟩ := h1 n a ha
      obtain ⟨d, hd, rfl, e2⟩ := h1 m b hb
      exact g1 c hc d hd (e1.trans ha') (e2.trans hb')
    · intro n a ha ha'
      obtain ⟨c, hc, rfl, e1⟩ := h1 n a ha
      exact (h3 _).2 (g2 c hc (e1.trans ha'))

theorem mem_keyList (n : Str) : n ∈ keyList t ↔ pkNames t n := by
  unfold keyList
  rw [mem_sortStrings, List.mem_dedup]
  exact mem_names_filter _ n

theorem colActs_ne_nil {tb : Str} {p : Column × Column} : colActs tb p ≠ [] ↔ ColumnTouched p.2 p.1 := by
  unfold colActs ColumnTouched
  cases p.1.notNull <;> cases p.2.notNull <;> cases p.1.autoIncremental <;> cases p.2.autoIncremental <;> simp

theorem table_iff (ht : (t.columns.map (·.name)).Nodup) (ho : (o.columns.map (·.name)).Nodup) (hn : o.name = t.name) :
    TActs ((keptColumns t o).flatMap (colActs t.name) ++ keyActs o t) (C suffix o) (C suffix t) ↔
      TableMoves Mysql.toMysqlColumnType o t := by
  classical
  by_cases pre : (∀ n, n ∈ o.columns.map (·.name) ↔ n ∈ t.columns.map (·.name)) ∧
    (∀ x ∈ o.columns, ∀ c ∈ t.columns, x.name = c.name → ColumnMoves Mysql.toMysqlColumnType x c) ∧
    ∀ n, uqNames o n ↔ uqNames t n
  swap
  · exact ⟨fun h => absurd (forward ht ho hn h) pre, fun h => absurd ⟨h.names, h.columns, h.unique⟩ pre⟩
  obtain ⟨names, columns, unique⟩ := pre
  have hP := kept_nodup (o := o) ht
  have hmem : ∀ p ∈ keptColumns t o, p.1 ∈ t.columns ∧ p.2 ∈ o.columns ∧ p.2.name = p.1.name := fun p hp => (mem_kept ho).1 hp
  have hpair : ∀ c ∈ t.columns, ∃ x ∈ o.columns, x.name = c.name ∧ (c, x) ∈ keptColumns t o := by
    intro c hc
    obtain ⟨x, hx, e⟩ := List.mem_map.1 ((names c.name).2 (List.mem_map_of_mem hc))
    exact ⟨x, hx, e, (mem_kept ho).2 ⟨hc, hx, e⟩⟩
  have hkn : ∀ n, n ∈ (keptColumns t o).map (·.1.name) ↔ n ∈ t.columns.map (·.name) := by
    intro n
    constructor
    · intro h
      obtain ⟨p, hp, rfl⟩ := List.mem_map.1 h
      exact List.mem_map_of_mem (hmem p hp).1
    · intro h
      obtain ⟨c, hc, rfl⟩ := List.mem_map.1 h
      obtain ⟨x, _, _, hx⟩ := hpair c hc
      exact List.mem_map_of_mem (f := fun p : Column × Column => p.1.name) hx
  generalize hT1 : stepAll (keptColumns t o) (C suffix o) = T1
  have hpk1 : T1.pk = (C suffix o).pk := hT1 ▸ (stepAll_pk _ _).1
  have hu1 : T1.uniques = (C suffix t).uniques := by
    rw [← hT1, (stepAll_pk _ _).2, (C_uniques hn).2 unique]
  have hcol1 : ∀ p ∈ keptColumns t o, T1.cols p.1.name = some (after p) := fun p hp => hT1 ▸ stepAll_col hP hp _
  have hno1 : ∀ n, n ∉ t.columns.map (·.name) → T1.cols n = none := by
    intro n hn'
    rw [← hT1, stepAll_other (fun h => hn' ((hkn n).1 h))]
    have : ¬((C suffix o).cols n).isSome = true := fun h => hn' ((names n).1 ((C_isSome ho n).1 h))
    rwa [Bool.not_eq_true, Option.isSome_eq_false_iff, Option.isNone_iff_eq_none] at this
  have hrun : ∀ S, TActs ((keptColumns t o).flatMap (colActs t.name)) (C suffix o) S ↔
      S = T1 ∧ ((keptColumns t o).flatMap (colActs t.name) ≠ [] → AutoRule T1) := by
    intro S
    rw [← hT1]
    refine cols_run t.name hP (fun p hp => ?_) (fun p hp => ?_) (fun p hp => ?_)
    · obtain ⟨h1, h2, h3⟩ := hmem p hp
      exact columns p.2 h2 p.1 h1 h3
    · obtain ⟨h1, h2, h3⟩ := hmem p hp
      rw [← h3]; exact C_col ho h2
    · obtain ⟨h1, h2, h3⟩ := hmem p hp
      rw [C_pk, ← h3]; exact pkNames_iff ho h2
  have hA1 : ∀ n a, T1.cols n = some a → ∃ c ∈ t.columns, c.name = n ∧ c.autoIncremental = a.autoIncrement := by
    intro n a ha
    by_cases hn' : n ∈ t.columns.map (·.name)
    · obtain ⟨c, hc, rfl⟩ := List.mem_map.1 hn'
      obtain ⟨x, _, _, hx⟩ := hpair c hc
      have := (hcol1 _ hx).symm.trans ha
      cases this
      exact ⟨c, hc, rfl, rfl⟩
    · rw [hno1 n hn'] at ha; cases ha
  have hA2 : ∀ c ∈ t.columns, ∃ a, T1.cols c.name = some a ∧ a.autoIncrement = c.autoIncremental := by
    intro c hc
    obtain ⟨x, _, _, hx⟩ := hpair c hc
    exact ⟨_, hcol1 _ hx, rfl⟩
  have hauto1 : AutoRule T1 ↔ AutoWithin t fun n => pkNames o n ∨ uqNames t n := by
    refine autoRule_iff hA1 hA2 fun n => ?_
    rw [hpk1, hu1, C_pk, C_unique]
  have hM : (keptColumns t o).flatMap (colActs t.name) ≠ [] ↔ ∃ x ∈ o.columns, ∃ c ∈ t.columns, x.name = c.name ∧ ColumnTouched x c := by
    rw [ne_eq, List.flatMap_eq_nil_iff]
    push Not
    constructor
    · rintro ⟨p, hp, h⟩
      obtain ⟨h1, h2, h3⟩ := hmem p hp
      exact ⟨p.2, h2, p.1, h1, h3, colActs_ne_nil.1 h⟩
    · rintro ⟨x, hx, c, hc, e, h⟩
      exact ⟨(c, x), (mem_kept ho).2 ⟨hc, hx, e⟩, colActs_ne_nil.2 h⟩
  -- the primary key
  have hkey : TActs (keyActs o t) T1 (C suffix t) ↔ ((∀ n, pkNames o n ↔ pkNames t n) ∨
      ((∃ n, pkNames o n) ∧ (∀ c ∈ t.columns, pkNames o c.name → c.primaryKey = false → c.notNull = true) ∧
        AutoWithin t (uqNames t))) := by
    by_cases hsame : ∀ n, pkNames o n ↔ pkNames t n
    · have : keyActs o t = [] := by
        unfold keyActs
        rw [(primaryChanged_iff t o).2 fun n => (hsame n).symm]
        rfl
      rw [this]
      refine iff_of_true ?_ (Or.inl hsame)
      change C suffix t = T1
      have hc : (C suffix t).cols = T1.cols := by
        funext n
        by_cases hn' : n ∈ t.columns.map (·.name)
        · obtain ⟨c, hc, rfl⟩ := List.mem_map.1 hn'
          obtain ⟨x, hx, e, hx'⟩ := hpair c hc
          rw [hcol1 _ hx', C_col ht hc]
          have hkk : x.primaryKey = c.primaryKey := by
            rw [Bool.eq_iff_iff, ← pkNames_iff ho hx, ← pkNames_iff ht hc, e]; exact hsame _
          unfold made after
          dsimp only
          rw [hkk]
        · rw [hno1 n hn']
          have : ¬((C suffix t).cols n).isSome = true := fun h => hn' ((C_isSome ht n).1 h)
          rwa [Bool.not_eq_true, Option.isSome_eq_false_iff, Option.isNone_iff_eq_none] at this
      have hp : (C suffix t).pk = T1.pk := by
        rw [hpk1]; funext n; apply propext; rw [C_pk, C_pk]; exact (hsame n).symm
      generalize C suffix t = A at hc hp hu1
      cases A; cases T1
      dsimp only at hc hp hu1
      rw [hc, hp, hu1]
    · rw [or_iff_right hsame]
      have hne : t.primaryKeyNameSet.equals o.primaryKeyNameSet = false := by
        rw [Bool.eq_false_iff]
        intro h
        exact hsame fun n => ((primaryChanged_iff t o).1 h n).symm
      let T2 : DbTable DdlColumn := { T1 with pk := fun _ => False }
      let T3 : DbTable DdlColumn := { T1 with
        pk := fun n => n ∈ keyList t
        cols := fun n => (T1.cols n).map fun a => { a with notNull := a.notNull || decide (n ∈ keyList t) } }
      have hdrop : alterTable (.dropPrimaryKey t.name) T1 = if ∃ n, pkNames o n then some T2 else none := by
        simp only [alterTable]
        rw [hpk1]
        simp only [C_pk]
        rfl
      have hauto2 : AutoRule T2 ↔ AutoWithin t (uqNames t) := by
        refine autoRule_iff hA1 hA2 fun n => ?_
        change (False ∨ ∃ k u, T1.uniques k = some u ∧ u n) ↔ _
        rw [hu1, C_unique, false_or]
      have hauto3 : AutoRule T2 → AutoRule T3 := by
        intro h
        refine autoRule_mono h (fun n h => h.elim) rfl ?_
        intro n a ha ha'
        obtain ⟨b, hb, rfl⟩ := Option.map_eq_some_iff.1 ha
        exact ⟨b, hb, ha'⟩
      have hfin : C suffix t = T3 ↔ ∀ c ∈ t.columns, pkNames o c.name → c.primaryKey = false → c.notNull = true := by
        have hcol3 : ∀ c ∈ t.columns, ∀ x ∈ o.columns, x.name = c.name → T3.cols c.name = some
            { ddlColumn Mysql.toMysqlColumnType c with notNull := c.notNull || x.primaryKey || c.primaryKey } := by
          intro c hc x hx e
          change (T1.cols c.name).map _ = _
          rw [hcol1 (c, x) ((mem_kept ho).2 ⟨hc, hx, e⟩), Option.map_some]
          have : decide (c.name ∈ keyList t) = c.primaryKey := by
            cases hk : c.primaryKey with
            | true => exact decide_eq_true ((mem_keyList _).2 ((pkNames_iff ht hc).2 hk))
            | false =>
              refine decide_eq_false fun h => ?_
              rw [(pkNames_iff ht hc).1 ((mem_keyList _).1 h)] at hk; cases hk
          rw [this]
          rfl
        constructor
        · intro h c hc hk hp
          obtain ⟨x, hx, e, _⟩ := hpair c hc
          have h1 := hcol3 c hc x hx e
          rw [← h, C_col ht hc] at h1
          have h2 : (c.notNull || c.primaryKey) = (c.notNull || x.primaryKey || c.primaryKey) :=
            congrArg DdlColumn.notNull (Option.some.inj h1)
          rw [← e] at hk
          rw [hp, (pkNames_iff ho hx).1 hk] at h2
          simpa using h2
        · intro h
          have hc : (C suffix t).cols = T3.cols := by
            funext n
            by_cases hn' : n ∈ t.columns.map (·.name)
            · obtain ⟨c, hc, rfl⟩ := List.mem_map.1 hn'
              obtain ⟨x, hx, e, _⟩ := hpair c hc
              rw [hcol3 c hc x hx e, C_col ht hc]
              have : (c.notNull || c.primaryKey) = (c.notNull || x.primaryKey || c.primaryKey) := by
                cases hxp : x.primaryKey with
                | false => rw [Bool.or_false]
                | true =>
                  cases hcp : c.primaryKey with
                  | true => simp
                  | false =>
                    rw [h c hc (by rw [← e]; exact (pkNames_iff ho hx).2 hxp) hcp]
                    rfl
              unfold made
              rw [this]
            · change _ = (T1.cols n).map _
              rw [hno1 n hn']
              have : ¬((C suffix t).cols n).isSome = true := fun h => hn' ((C_isSome ht n).1 h)
              rw [Bool.not_eq_true, Option.isSome_eq_false_iff, Option.isNone_iff_eq_none] at this
              rw [this]; rfl
          have hp : (C suffix t).pk = T3.pk := by
            funext n; apply propext; rw [C_pk]; exact (mem_keyList n).symm
          have hu : (C suffix t).uniques = T3.uniques := hu1.symm
          generalize C suffix t = A at hc hp hu
          generalize T3 = B at hc hp hu
          cases A; cases B
          dsimp only at hc hp hu
          rw [hc, hp, hu]
      have hrest : TActs (if t.columns.any (·.primaryKey) then [.addPrimaryKey t.name (keyList t)] else []) T2 (C suffix t) ∧ AutoRule T2 ↔
          C suffix t = T3 ∧ AutoRule T2 := by
        by_cases hk : t.columns.any (·.primaryKey) = true
        · rw [if_pos hk]
          have hadd : alterTable (.addPrimaryKey t.name (keyList t)) T2 = some T3 := by
            simp only [alterTable]
            rw [if_pos]
            refine ⟨fun n h => h, fun n h => ?_⟩
            obtain ⟨c, hc, _, rfl⟩ := (mem_keyList n).1 h
            obtain ⟨a, ha, _⟩ := hA2 c hc
            change (T1.cols c.name).isSome = true
            rw [ha]; rfl
          rw [tacts_one hadd]
          exact ⟨fun h => ⟨h.1.1, h.2⟩, fun h => ⟨⟨h.1, hauto3 h.2⟩, h.2⟩⟩
        · rw [if_neg hk]
          have hkl : ∀ n, n ∉ keyList t := by
            intro n h
            obtain ⟨c, hc, hcp, _⟩ := (mem_keyList n).1 h
            exact hk (List.any_eq_true.2 ⟨c, hc, hcp⟩)
          have : T3 = T2 := by
            have h1 : T3.cols = T2.cols := by
              funext n
              change (T1.cols n).map _ = T1.cols n
              cases T1.cols n with
              | none => rfl
              | some a =>
                rw [Option.map_some, decide_eq_false (hkl n), Bool.or_false]
            have h2 : T3.pk = T2.pk := by
              funext n; exact propext ⟨fun h => hkl n h, fun h => h.elim⟩
            have h3 : T3.uniques = T2.uniques := rfl
            generalize T3 = A at h1 h2 h3
            generalize T2 = B at h1 h2 h3
            cases A; cases B
            dsimp only at h1 h2 h3
            rw [h1, h2, h3]
          rw [this]
          exact Iff.rfl
      have hacts : keyActs o t = .dropPrimaryKey t.name ::
          (if t.columns.any (·.primaryKey) then [.addPrimaryKey t.name (keyList t)] else []) := by
        unfold keyActs; rw [hne]; rfl
      rw [hacts, ← hfin, ← hauto2, ← hrest]
      constructor
      · rintro ⟨S, h1, h2, h3⟩
        rw [hdrop] at h1
        split at h1
        · rename_i he
          cases h1
          exact ⟨he, h3, h2⟩
        · cases h1
      · rintro ⟨he, h3, h2⟩
        exact ⟨T2, by rw [hdrop, if_pos he], h2, h3⟩
  rw [tacts_append]
  constructor
  · rintro ⟨S, h1, h2⟩
    obtain ⟨rfl, h3⟩ := (hrun S).1 h1
    exact ⟨names, columns, fun h => hauto1.1 (h3 (hM.2 h)), unique, hkey.1 h2⟩
  · intro h
    exact ⟨T1, (hrun T1).2 ⟨rfl, fun e => hauto1.2 (h.auto (hM.1 e))⟩, hkey.2 h.key⟩

end

end Octo.Flyway
