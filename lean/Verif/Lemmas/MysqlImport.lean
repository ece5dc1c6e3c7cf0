import Verif.Spec.MysqlAst
import Verif.Lemmas.Util
import Verif.Lemmas.Mysql

namespace Octo
open Spec MysqlImport

/-! ## Options -/

theorem lastSaid_cons {α : Type} (d : α) (x : Option α) (l : List (Option α)) :
    lastSaid d (x :: l) = lastSaid (x.getD d) l := by
  cases x with
  | none => simp [lastSaid]
  | some v =>
    simp only [lastSaid, id, Option.getD_some]
    cases h : List.filterMap id l <;> simp [List.getLast?_cons]

/-- The effect of the options on a column. -/
theorem foldl_optionStep (opts : List ColOption) (c : Column) :
    opts.foldl optionStep c =
      { c with primaryKey := c.primaryKey || decide (.primaryKey ∈ opts)
               autoIncremental := c.autoIncremental || decide (.autoIncrement ∈ opts)
               notNull := lastSaid c.notNull (opts.map nullability)
               defaultValue := lastSaid c.defaultValue (opts.map defaultSaid)
               onUpdate := lastSaid c.onUpdate (opts.map onUpdateSaid)
               description := lastSaid c.description (opts.map commentSaid) } := by
  induction opts generalizing c with
  | nil => simp [lastSaid]
  | cons o l ih =>
    rw [List.foldl_cons, ih]
    simp only [List.map_cons, lastSaid_cons]
    cases o with
    | defaultValue e => cases e <;> simp [optionStep, nullability, defaultSaid, onUpdateSaid, commentSaid, exprText,
        Column.setDefaultValue, Column.setDefaultValueFn, fnPrefix]
    | onUpdate e => cases e <;> simp [optionStep, nullability, defaultSaid, onUpdateSaid, commentSaid, exprText,
        Column.setOnUpdate, Column.setOnUpdateFn, fnPrefix]
    | _ => simp [optionStep, nullability, defaultSaid, onUpdateSaid, commentSaid]

/-! ## Constraints -/

theorem mapM_id_some {α : Type} {l : List (Option α)} {r : List α} : l.mapM id = some r ↔ l = r.map some := by
  induction l generalizing r with
  | nil => cases r <;> simp
  | cons x l ih =>
    rw [List.mapM_cons]
    cases x with
    | none => cases r <;> simp
    | some v =>
      cases h : l.mapM id with
      | none =>
        simp only [id, bind, Option.bind_some, Option.bind_none, reduceCtorEq, false_iff]
        intro he
        cases r with
        | nil => simp at he
        | cons a r =>
          simp only [List.map_cons, List.cons.injEq] at he
          rw [ih.2 he.2] at h
          cases h
      | some q =>
        have hq := ih.1 h
        simp only [id, bind, Option.bind_some, pure, Option.some.injEq]
        subst hq
        cases r with
        | nil => simp
        | cons a r =>
          simp only [List.cons.injEq, List.map_cons, Option.some.injEq]
          refine and_congr_right fun _ => ⟨fun h => by rw [h], fun h => ?_⟩
          exact List.map_injective_iff.2 (Option.some_injective _) h

theorem mapM_id_none {α : Type} {l : List (Option α)} : l.mapM id = none ↔ none ∈ l := by
  induction l with
  | nil => simp
  | cons x l ih =>
    rw [List.mapM_cons]
    cases x with
    | none => simp
    | some v =>
      simp only [id, bind, Option.bind_some, List.mem_cons, reduceCtorEq, false_or, ← ih]
      cases l.mapM id <;> simp

theorem mem_addAll {s : StringSet} {vs : List Str} {x : Str} : x ∈ (s.addAll vs).keys ↔ x ∈ s.keys ∨ x ∈ vs := by
  unfold StringSet.addAll
  induction vs generalizing s with
  | nil => simp
  | cons v vs ih =>
    rw [List.foldl_cons, ih]
    unfold StringSet.add StringSet.contains
    by_cases h : v ∈ s.keys
    · rw [if_pos (by simpa using h), List.mem_cons]
      constructor
      · rintro (h' | h')
        · exact Or.inl h'
        · exact Or.inr (Or.inr h')
      · rintro (h' | rfl | h')
        · exact Or.inl h'
        · exact Or.inl h
        · exact Or.inr h'
    · rw [if_neg (by simpa using h)]
      simp [or_assoc]

theorem constraints_spec (csts : List Constraint) (k k' : Keys) (h : csts.foldlM constraintStep k = some k') :
    (∀ x, x ∈ k'.pk.keys ↔ x ∈ k.pk.keys ∨ KeyedBy .primaryKey csts x) ∧
    (∀ x, x ∈ k'.uniq.keys ↔ x ∈ k.uniq.keys ∨ KeyedBy .uniq csts x) ∧
    k'.indices.map (fun i => (i.name, i.columns.map some)) =
      k.indices.map (fun i => (i.name, i.columns.map some)) ++
        (csts.filter (fun c => decide (c.tp = .index))).map (fun c => (c.name, c.keys)) := by
  induction csts generalizing k with
  | nil =>
    cases h
    simp [KeyedBy]
  | cons c csts ih =>
    rw [List.foldlM_cons] at h
    have keyed_cons : ∀ tp x, KeyedBy tp (c :: csts) x ↔ (c.tp = tp ∧ some x ∈ c.keys) ∨ KeyedBy tp csts x := by
      intro tp x
      unfold KeyedBy
      simp
    cases hs : constraintStep k c with
    | none => rw [hs] at h; cases h
    | some k1 =>
      rw [hs] at h
      obtain ⟨h1, h2, h3⟩ := ih k1 h
      simp only [keyed_cons]
      have other : c.tp ≠ .primaryKey → c.tp ≠ .uniq → c.tp ≠ .index → k1 = k →
          (∀ x, x ∈ k'.pk.keys ↔ x ∈ k.pk.keys ∨ (c.tp = .primaryKey ∧ some x ∈ c.keys) ∨ KeyedBy .primaryKey csts x) ∧
          (∀ x, x ∈ k'.uniq.keys ↔ x ∈ k.uniq.keys ∨ (c.tp = .uniq ∧ some x ∈ c.keys) ∨ KeyedBy .uniq csts x) ∧
          k'.indices.map (fun i => (i.name, i.columns.map some)) =
            k.indices.map (fun i => (i.name, i.columns.map some)) ++
              ((c :: csts).filter (fun c => decide (c.tp = .index))).map (fun c => (c.name, c.keys)) := by
        rintro ha hb hc rfl
        refine ⟨fun x => by rw [h1]; simp [ha], fun x => by rw [h2]; simp [hb], ?_⟩
        rw [h3, List.filter_cons_of_neg (by simpa using hc)]
      unfold constraintStep at hs
      cases htp : c.tp with
      | primaryKey =>
        rw [htp] at hs
        simp only [Option.map_eq_some_iff] at hs
        obtain ⟨names, hn, rfl⟩ := hs
        rw [mapM_id_some] at hn
        refine ⟨fun x => ?_, fun x => ?_, ?_⟩
        · rw [h1]; simp only [mem_addAll, hn]; simp [or_assoc]
        · rw [h2]; simp
        · rw [h3, List.filter_cons_of_neg (by simp [htp])]
      | uniq =>
        rw [htp] at hs
        simp only [Option.map_eq_some_iff] at hs
        obtain ⟨names, hn, rfl⟩ := hs
        rw [mapM_id_some] at hn
        refine ⟨fun x => ?_, fun x => ?_, ?_⟩
        · rw [h1]; simp
        · rw [h2]; simp only [mem_addAll, hn]; simp [or_assoc]
        · rw [h3, List.filter_cons_of_neg (by simp [htp])]
      | index =>
        rw [htp] at hs
        simp only [Option.map_eq_some_iff] at hs
        obtain ⟨names, hn, rfl⟩ := hs
        rw [mapM_id_some] at hn
        refine ⟨fun x => ?_, fun x => ?_, ?_⟩
        · rw [h1]; simp
        · rw [h2]; simp
        · rw [h3, List.filter_cons_of_pos (by simp [htp])]
          simp [hn]
      | _ =>
        simp only [htp, reduceCtorEq, false_and, false_or] at other hs ⊢
        first
        | exact (by simpa using other (by simp) (by simp) (by simp) (Option.some.inj hs).symm)

theorem constraints_none (csts : List Constraint) (k : Keys) :
    csts.foldlM constraintStep k = none ↔ ∃ c ∈ csts, Examined c ∧ none ∈ c.keys := by
  induction csts generalizing k with
  | nil => simp
  | cons c csts ih =>
    rw [List.foldlM_cons]
    have hstep : constraintStep k c = none ↔ Examined c ∧ none ∈ c.keys := by
      unfold constraintStep Examined
      cases htp : c.tp <;> simp [mapM_id_none]
    cases hs : constraintStep k c with
    | none =>
      have := hstep.1 hs
      simp only [bind, Option.bind_none, true_iff]
      exact ⟨c, List.mem_cons_self, this⟩
    | some k1 =>
      have : ¬(Examined c ∧ none ∈ c.keys) := fun h => by rw [hstep.2 h] at hs; cases hs
      simp only [bind, Option.bind_some]
      rw [show List.foldlM constraintStep k1 csts = none ↔ _ from ih k1]
      simp [this]

/-! ## Statements -/

/-- The table made from a created table. -/
def importTable (x : Created) : Option Table :=
  (x.2.2.foldlM constraintStep {}).map fun k => { name := x.1, columns := x.2.1.map (column k), indices := k.indices }

theorem contains_ofList (l : List Str) (x : Str) : (StringSet.ofList l).contains x = decide (x ∈ l) := by
  unfold StringSet.contains StringSet.ofList
  simp [mem_addAll, StringSet.empty]

theorem foldlM_enter (ex : List Str) (stmts : List Stmt) (acc : List Table) :
    stmts.foldlM (enter (StringSet.ofList ex)) acc =
      ((statedTables ex stmts).mapM importTable).map (acc ++ ·) := by
  induction stmts generalizing acc with
  | nil => simp [statedTables]
  | cons st l ih =>
    rw [List.foldlM_cons]
    cases st with
    | other =>
      simp only [enter, bind, Option.bind_some]
      exact ih acc
    | createTable name cols csts =>
      simp only [enter, contains_ofList, decide_eq_true_eq]
      by_cases h : name ∈ ex
      · rw [if_pos h]
        have : statedTables ex (.createTable name cols csts :: l) = statedTables ex l := by
          simp [statedTables, h]
        rw [this]
        exact ih acc
      · rw [if_neg h]
        have : statedTables ex (.createTable name cols csts :: l) = (name, cols, csts) :: statedTables ex l := by
          simp [statedTables, h]
        rw [this, List.mapM_cons]
        simp only [importTable]
        cases hk : csts.foldlM constraintStep {} with
        | none => simp
        | some k =>
          simp only [Option.map_some, bind, Option.bind_some]
          refine (ih _).trans ?_
          cases (statedTables ex l).mapM importTable <;> simp

theorem importSql_eq (ex : List Str) (author version : Str) (stmts : List Stmt) :
    importSql ex author version stmts =
      ((statedTables ex stmts).mapM importTable).map fun ts => { author := author, tables := ts, version := version } := by
  unfold importSql
  rw [foldlM_enter]
  cases (statedTables ex stmts).mapM importTable <;> simp

theorem mapM_forall₂ {α β : Type} {f : α → Option β} {l : List α} {r : List β} (h : l.mapM f = some r) :
    List.Forall₂ (fun a b => f a = some b) l r := by
  induction l generalizing r with
  | nil => cases h; exact .nil
  | cons x l ih =>
    rw [List.mapM_cons] at h
    cases hx : f x with
    | none => rw [hx] at h; cases h
    | some y =>
      cases hl : l.mapM f with
      | none => rw [hx, hl] at h; cases h
      | some q =>
        rw [hx, hl] at h
        cases h
        exact .cons hx (ih hl)

theorem mapM_eq_none {α β : Type} {f : α → Option β} {l : List α} : l.mapM f = none ↔ ∃ a ∈ l, f a = none := by
  induction l with
  | nil => simp
  | cons x l ih =>
    rw [List.mapM_cons]
    cases hx : f x with
    | none => simp [hx]
    | some y =>
      simp only [bind, Option.bind_some, List.exists_mem_cons_iff, hx, reduceCtorEq, false_or, ← ih]
      cases l.mapM f <;> simp

/-! ## Types through export and import -/

theorem readNat_itoa (n : Nat) : readNat (itoa n) = some n := by
  unfold readNat
  rw [if_pos ⟨itoa_ne_nil n, List.all_eq_true.2 (itoa_digits n)⟩, digitsVal_itoa]

/-- The importer's type, size, scale and members for a MySQL type. -/
def imported (base : Str) (args : List Str) (type : Str) : Option ((Str × UInt16 × UInt16) × List Str) :=
  (fieldOf base args).map fun f => (columnType f, columnValues type f)

def fixedPortable : List Str :=
  ["blob8"ₛ, "blob16"ₛ, "blob24"ₛ, "blob32"ₛ, "text8"ₛ, "text16"ₛ, "text24"ₛ, "text32"ₛ, "date"ₛ,
      "datetime"ₛ, "time"ₛ, "year"ₛ, "json"ₛ, "boolean"ₛ, "binary"ₛ]

theorem imported_fixed : ∀ t ∈ fixedPortable, ∃ e ∈ mysqlTypes, e.1 = t ∧
    (e.2.2 = .fixed ∨ e.2.2 = .oneBit) ∧ imported e.2.1 (typeArgs e.2.2 {}) t = some ((t, 0, 0), []) := by
  decide +kernel

theorem imported_noSize : ∀ t ∈ ["char"ₛ, "int16"ₛ, "int24"ₛ, "int32"ₛ, "int64"ₛ, "int8"ₛ, "decimal"ₛ, "double"ₛ, "float"ₛ],
    ∃ e ∈ mysqlTypes, e.1 = t ∧ e.2.2 = .sized ∧ imported e.2.1 [] t = some ((t, 0, 0), []) := by
  decide +kernel

theorem toNat_intCast_pos {s : UInt16} (h : s ≠ 0) : ((s.toNat : Int) > 0) := by
  have : s.toNat ≠ 0 := fun h0 => h (by rw [← UInt16.toNat_inj, h0]; rfl)
  omega

theorem int_ne_one {s : UInt16} (h : s ≠ 1) : ¬((s.toNat : Int) = 1) := by
  intro h1
  exact h (by rw [← UInt16.toNat_inj]; have : s.toNat = 1 := by omega
              rw [this]; rfl)

theorem size_back {s : UInt16} (h : s ≠ 0) :
    (if (s.toNat : Int) > 0 then UInt16.ofNat (s.toNat : Int).toNat else 0) = s := by
  rw [if_pos (toNat_intCast_pos h)]
  simp

theorem fieldOf_double (args : List Str) : fieldOf "double"ₛ args = scaledField .double args := by
  have : fieldKinds.lookup "double"ₛ = some (.scaled .double) := by decide +kernel
  unfold fieldOf
  rw [this]
  rfl

theorem imported_sized {s : UInt16} (h : s ≠ 0) (e : Str × Str × Tp)
    (he : e ∈ [("char"ₛ, "char"ₛ, Tp.string), ("int16"ₛ, "smallint"ₛ, Tp.short), ("int24"ₛ, "mediumint"ₛ, Tp.int24),
      ("int32"ₛ, "int"ₛ, Tp.long), ("int64"ₛ, "bigint"ₛ, Tp.longlong), ("int8"ₛ, "tinyint"ₛ, Tp.tiny),
      ("bit"ₛ, "bit"ₛ, Tp.bit), ("varchar"ₛ, "varchar"ₛ, Tp.varchar), ("decimal"ₛ, "decimal"ₛ, Tp.newDecimal),
      ("double"ₛ, "double"ₛ, Tp.double)])
    (h1 : e.1 = "int8"ₛ ∨ e.1 = "bit"ₛ → s ≠ 1) :
    imported e.2.1 [itoa s.toNat] e.1 = some ((e.1, s, 0), []) := by
  have hf : fieldOf e.2.1 [itoa s.toNat] = some { tp := e.2.2, flen := s.toNat } := by
    have hl : ∀ e ∈ [("char"ₛ, "char"ₛ, Tp.string), ("int16"ₛ, "smallint"ₛ, Tp.short), ("int24"ₛ, "mediumint"ₛ, Tp.int24),
      ("int32"ₛ, "int"ₛ, Tp.long), ("int64"ₛ, "bigint"ₛ, Tp.longlong), ("int8"ₛ, "tinyint"ₛ, Tp.tiny),
      ("bit"ₛ, "bit"ₛ, Tp.bit), ("varchar"ₛ, "varchar"ₛ, Tp.varchar), ("decimal"ₛ, "decimal"ₛ, Tp.newDecimal),
      ("double"ₛ, "double"ₛ, Tp.double)], ∀ x, fieldOf e.2.1 [x] = (readNat x).map fun (n : Nat) => { tp := e.2.2, flen := n } := by
      simp only [List.forall_mem_cons]
      exact ⟨fun _ => rfl, fun _ => rfl, fun _ => rfl, fun _ => rfl, fun _ => rfl, fun _ => rfl, fun _ => rfl,
        fun _ => rfl, fun _ => rfl, fun x => by rw [fieldOf_double]; rfl, by simp⟩
    rw [hl e he, readNat_itoa]
    rfl
  unfold imported
  rw [hf]
  have hb := size_back h
  simp only [List.mem_cons, List.not_mem_nil, or_false] at he
  have hd : ¬((-1 : Int) > 0) := by decide
  rcases he with rfl | rfl | rfl | rfl | rfl | rfl | rfl | rfl | rfl | rfl
  · simp only [columnType, hb, Option.map_some]; rfl
  · simp only [columnType, hb, Option.map_some]; rfl
  · simp only [columnType, hb, Option.map_some]; rfl
  · simp only [columnType, hb, Option.map_some]; rfl
  · simp only [columnType, hb, Option.map_some]; rfl
  · simp only [columnType, hb, Option.map_some, if_neg (int_ne_one (h1 (Or.inl rfl)))]; rfl
  · simp only [columnType, hb, Option.map_some, if_neg (int_ne_one (h1 (Or.inr rfl)))]; rfl
  · simp only [columnType, hb, Option.map_some]; rfl
  · simp only [columnType, hb, Option.map_some, if_neg hd]; rfl
  · simp only [columnType, hb, Option.map_some, if_neg hd]; rfl

theorem imported_scaled {s d : UInt16} (h : s ≠ 0) (h2 : d ≠ 0) (e : Str × Str × Tp)
    (he : e ∈ [("decimal"ₛ, "decimal"ₛ, Tp.newDecimal), ("double"ₛ, "double"ₛ, Tp.double)]) :
    imported e.2.1 [itoa s.toNat, itoa d.toNat] e.1 = some ((e.1, s, d), []) := by
  have hf : fieldOf e.2.1 [itoa s.toNat, itoa d.toNat] = some { tp := e.2.2, flen := s.toNat, decimal := d.toNat } := by
    have hl : ∀ e ∈ [("decimal"ₛ, "decimal"ₛ, Tp.newDecimal), ("double"ₛ, "double"ₛ, Tp.double)],
        ∀ x y, fieldOf e.2.1 [x, y] =
          (readNat x).bind fun (n : Nat) => (readNat y).map fun (m : Nat) => { tp := e.2.2, flen := n, decimal := m } := by
      simp only [List.forall_mem_cons]
      exact ⟨fun _ _ => rfl, fun _ _ => by rw [fieldOf_double]; rfl, by simp⟩
    rw [hl e he, readNat_itoa, readNat_itoa]
    rfl
  unfold imported
  rw [hf]
  have hb := size_back h
  have hb2 := size_back h2
  simp only [List.mem_cons, List.not_mem_nil, or_false] at he
  rcases he with rfl | rfl
  · simp only [columnType, hb, hb2, Option.map_some]; rfl
  · simp only [columnType, hb, hb2, Option.map_some]; rfl

theorem imported_float {s d : UInt16} (h : s ≠ 0) (h24 : s ≤ 24) :
    imported "float"ₛ (if d = 0 then [itoa s.toNat] else [itoa s.toNat, itoa d.toNat]) "float"ₛ =
      some (("float"ₛ, s, d), []) := by
  have hn : ¬((s.toNat : Int) > 24) := by
    have : s.toNat ≤ 24 := UInt16.le_iff_toNat_le.1 h24
    omega
  have hb := size_back h
  have hd : ¬((-1 : Int) > 0) := by decide
  unfold imported
  by_cases h0 : d = 0
  · rw [if_pos h0]
    have hf : fieldOf "float"ₛ [itoa s.toNat] = some { tp := .float, flen := s.toNat } := by
      have : ∀ x, fieldOf "float"ₛ [x] = ((readNat x).map fun (n : Nat) => ({ tp := .float, flen := n } : FieldType)).map
          fun f => if f.flen > 24 then { f with tp := .double } else f := fun _ => rfl
      rw [this, readNat_itoa]
      rw [Option.map_some, Option.map_some, if_neg hn]
    rw [hf]
    simp only [columnType, hb, Option.map_some, if_neg hd, h0]
    rfl
  · rw [if_neg h0]
    have hf : fieldOf "float"ₛ [itoa s.toNat, itoa d.toNat] = some { tp := .float, flen := s.toNat, decimal := d.toNat } := by
      have : ∀ x y, fieldOf "float"ₛ [x, y] = ((readNat x).bind fun (n : Nat) => (readNat y).map fun (m : Nat) =>
          ({ tp := .float, flen := n, decimal := m } : FieldType)).map
          fun f => if f.flen > 24 then { f with tp := .double } else f := fun _ _ => rfl
      rw [this, readNat_itoa, readNat_itoa]
      rw [Option.bind_some, Option.map_some, Option.map_some, if_neg hn]
    rw [hf]
    have hb2 := size_back h0
    simp only [columnType, hb, hb2, Option.map_some]
    rfl

theorem mapM_unwrapQuotes (l : List Str) : (l.map fun v => ['\''] ++ v ++ ['\'']).mapM (unwrap '\'' '\'') = some l := by
  induction l with
  | nil => rfl
  | cons v l ih =>
    rw [List.map_cons, List.mapM_cons, ih, unwrap_wrap]
    rfl

theorem imported_members {vs : List Str} (h : vs ≠ []) (t : Str) (ht : t ∈ ["enum"ₛ, "set"ₛ]) :
    imported t (vs.map fun v => ['\''] ++ v ++ ['\'']) t = some ((t, 0, 0), vs) := by
  have hne : (vs.map fun v => ['\''] ++ v ++ ['\'']) ≠ [] := by simpa using h
  unfold imported
  simp only [List.mem_cons, List.not_mem_nil, or_false] at ht
  rcases ht with rfl | rfl
  · have : ∀ args, fieldOf "enum"ₛ args = if args = [] then none else
        (args.mapM (unwrap '\'' '\'')).map fun es => ({ tp := .enum, elems := es } : FieldType) := fun _ => rfl
    rw [this, if_neg hne, mapM_unwrapQuotes]
    rfl
  · have : ∀ args, fieldOf "set"ₛ args = if args = [] then none else
        (args.mapM (unwrap '\'' '\'')).map fun es => ({ tp := .set, elems := es } : FieldType) := fun _ => rfl
    rw [this, if_neg hne, mapM_unwrapQuotes]
    rfl

/-- Type, size, scale and members survive. -/
theorem portable_type {c : Column} (hp : PortableType c) (hv : ∀ v ∈ c.values, Unescaped v) :
    ∃ base args, readType (Mysql.toMysqlColumnType c) = some (base, args) ∧
      imported base args c.type = some ((c.type, c.size, c.scale), c.values) := by
  have sized : ∀ e : Str × Str × TypeShape, e ∈ mysqlTypes → e.2.2 = .sized → c.type = e.1 →
      imported e.2.1 (typeArgs .sized c) c.type = some ((c.type, c.size, c.scale), c.values) →
      ∃ base args, readType (Mysql.toMysqlColumnType c) = some (base, args) ∧
        imported base args c.type = some ((c.type, c.size, c.scale), c.values) := by
    intro e he hs ht h
    refine ⟨_, _, readType_eq hv he ht, ?_⟩
    rw [hs]; exact h
  have nosize : c.type ∈ ["char"ₛ, "int16"ₛ, "int24"ₛ, "int32"ₛ, "int64"ₛ, "int8"ₛ, "decimal"ₛ, "double"ₛ, "float"ₛ] →
      c.size = 0 → c.scale = 0 → c.values = [] → ∃ base args, readType (Mysql.toMysqlColumnType c) = some (base, args) ∧
        imported base args c.type = some ((c.type, c.size, c.scale), c.values) := by
    intro ht h0 h1 h2
    obtain ⟨e, he, h3, h4, h5⟩ := imported_noSize _ ht
    refine sized e he h4 h3.symm ?_
    rw [h0, h1, h2]
    simp only [typeArgs, if_pos h0]
    exact h5
  have one : ∀ e ∈ [("char"ₛ, "char"ₛ, Tp.string), ("int16"ₛ, "smallint"ₛ, Tp.short), ("int24"ₛ, "mediumint"ₛ, Tp.int24),
      ("int32"ₛ, "int"ₛ, Tp.long), ("int64"ₛ, "bigint"ₛ, Tp.longlong), ("int8"ₛ, "tinyint"ₛ, Tp.tiny),
      ("bit"ₛ, "bit"ₛ, Tp.bit), ("varchar"ₛ, "varchar"ₛ, Tp.varchar), ("decimal"ₛ, "decimal"ₛ, Tp.newDecimal),
      ("double"ₛ, "double"ₛ, Tp.double)], c.type = e.1 → c.size ≠ 0 → (e.1 = "int8"ₛ ∨ e.1 = "bit"ₛ → c.size ≠ 1) →
      c.scale = 0 → c.values = [] → ∃ base args, readType (Mysql.toMysqlColumnType c) = some (base, args) ∧
        imported base args c.type = some ((c.type, c.size, c.scale), c.values) := by
    intro e he ht h0 h1 h2 h3
    have hm : (e.1, e.2.1, TypeShape.sized) ∈ mysqlTypes := by
      revert e
      simp only [List.forall_mem_cons]
      refine ⟨?_, ?_, ?_, ?_, ?_, ?_, ?_, ?_, ?_, ?_, by simp⟩ <;> intros <;> decide +kernel
    refine sized _ hm rfl ht ?_
    simp only [typeArgs, if_neg h0, if_pos h2]
    rw [ht, h2, h3]
    exact imported_sized h0 e he h1
  rcases hp with ⟨ht, h0, h1, h2⟩ | ⟨ht, h0, h1, h2⟩ | ⟨ht, h1, h2⟩ | ⟨ht, h0, h1, h2⟩ | ⟨ht, h0, h00, h1, h2⟩ |
    ⟨ht, h0, h1, h2⟩ | ⟨ht, h0, h2⟩ | ⟨ht, h0, h00, h2⟩
  · obtain ⟨e, he, h3, h4, h5⟩ := imported_fixed _ ht
    refine ⟨_, _, readType_eq hv he h3.symm, ?_⟩
    rw [h0, h1, h2, ← h5]
    rcases h4 with h4 | h4 <;> rw [h4] <;> rfl
  · have hm : (c.type, c.type, TypeShape.members) ∈ mysqlTypes := by
      simp only [List.mem_cons, List.not_mem_nil, or_false] at ht
      rcases ht with ht | ht <;> rw [ht] <;> decide +kernel
    refine ⟨_, _, readType_eq hv hm rfl, ?_⟩
    rw [h0, h1]
    exact imported_members h2 _ ht
  · by_cases h0 : c.size = 0
    · refine nosize ?_ h0 h1 h2
      simp only [List.mem_cons, List.not_mem_nil, or_false] at ht ⊢
      rcases ht with h | h | h | h | h <;> simp only [h, true_or, or_true]
    · have : ∃ e ∈ [("char"ₛ, "char"ₛ, Tp.string), ("int16"ₛ, "smallint"ₛ, Tp.short), ("int24"ₛ, "mediumint"ₛ, Tp.int24),
          ("int32"ₛ, "int"ₛ, Tp.long), ("int64"ₛ, "bigint"ₛ, Tp.longlong)], c.type = e.1 := by
        simp only [List.mem_cons, List.not_mem_nil, or_false] at ht
        simp only [List.exists_mem_cons_iff]
        rcases ht with h | h | h | h | h <;> simp only [h, true_or, or_true]
      obtain ⟨e, he, hte⟩ := this
      have hn : ∀ e ∈ [("char"ₛ, "char"ₛ, Tp.string), ("int16"ₛ, "smallint"ₛ, Tp.short), ("int24"ₛ, "mediumint"ₛ, Tp.int24),
          ("int32"ₛ, "int"ₛ, Tp.long), ("int64"ₛ, "bigint"ₛ, Tp.longlong)], e.1 ≠ "int8"ₛ ∧ e.1 ≠ "bit"ₛ := by decide
      refine one e ?_ hte h0 (fun h => ?_) h1 h2
      · exact List.mem_append_left (bs := [("int8"ₛ, "tinyint"ₛ, Tp.tiny),
          ("bit"ₛ, "bit"ₛ, Tp.bit), ("varchar"ₛ, "varchar"ₛ, Tp.varchar), ("decimal"ₛ, "decimal"ₛ, Tp.newDecimal),
          ("double"ₛ, "double"ₛ, Tp.double)]) he
      · rcases h with h | h
        · exact absurd h (hn e he).1
        · exact absurd h (hn e he).2
  · by_cases h00 : c.size = 0
    · refine nosize ?_ h00 h1 h2
      rw [ht]; decide
    · exact one ("int8"ₛ, "tinyint"ₛ, Tp.tiny) (by decide) ht h00 (fun _ => h0) h1 h2
  · exact one ("bit"ₛ, "bit"ₛ, Tp.bit) (by decide) ht h0 (fun _ => h00) h1 h2
  · exact one ("varchar"ₛ, "varchar"ₛ, Tp.varchar) (by decide) ht h0 (fun h => absurd h (by decide)) h1 h2
  · have : ∃ e ∈ [("decimal"ₛ, "decimal"ₛ, Tp.newDecimal), ("double"ₛ, "double"ₛ, Tp.double)], c.type = e.1 := by
      simp only [List.mem_cons, List.not_mem_nil, or_false] at ht
      simp only [List.exists_mem_cons_iff]
      rcases ht with h | h <;> simp only [h, true_or, or_true]
    obtain ⟨e, he, hte⟩ := this
    have hm : ∀ e ∈ [("decimal"ₛ, "decimal"ₛ, Tp.newDecimal), ("double"ₛ, "double"ₛ, Tp.double)],
        (e.1, e.2.1, TypeShape.sized) ∈ mysqlTypes ∧ e.1 ≠ "int8"ₛ ∧ e.1 ≠ "bit"ₛ := by decide +kernel
    by_cases hs : c.size = 0
    · refine nosize ?_ hs (h0 hs) h2
      simp only [List.mem_cons, List.not_mem_nil, or_false] at ht ⊢
      rcases ht with h | h <;> simp only [h, true_or, or_true]
    · by_cases hd : c.scale = 0
      · refine one e ?_ hte hs (fun h => ?_) hd h2
        · exact List.mem_append_right (as := [("char"ₛ, "char"ₛ, Tp.string), ("int16"ₛ, "smallint"ₛ, Tp.short), ("int24"ₛ, "mediumint"ₛ, Tp.int24),
            ("int32"ₛ, "int"ₛ, Tp.long), ("int64"ₛ, "bigint"ₛ, Tp.longlong), ("int8"ₛ, "tinyint"ₛ, Tp.tiny),
            ("bit"ₛ, "bit"ₛ, Tp.bit), ("varchar"ₛ, "varchar"ₛ, Tp.varchar)]) he
        · rcases h with h | h
          · exact absurd h (hm e he).2.1
          · exact absurd h (hm e he).2.2
      · refine sized _ (hm e he).1 rfl hte ?_
        simp only [typeArgs, if_neg hs, if_neg hd]
        rw [hte, h2]
        exact imported_scaled hs hd e he
  · by_cases hs : c.size = 0
    · refine nosize ?_ hs (h0 hs) h2
      rw [ht]; decide
    · refine sized ("float"ₛ, "float"ₛ, .sized) (by decide +kernel) rfl ht ?_
      simp only [typeArgs, if_neg hs]
      rw [ht, h2]
      exact imported_float hs h00
/-! ## Whole tables through export and import -/

theorem exprOf_default {type v : Str} (hne : v ≠ []) (h : PortableDefault type v) :
    ∃ e, exprOf (valueMeaning type v) = some e ∧ exprText e = some v := by
  rcases h with h | rfl | ⟨ht, hf⟩ | ⟨n, rfl⟩
  · exact absurd h hne
  · have : valueMeaning type "fn::CURRENT_TIMESTAMP"ₛ = .call "CURRENT_TIMESTAMP"ₛ := by
      unfold valueMeaning; rw [if_pos (by decide)]; decide +kernel
    rw [this]
    exact ⟨.func "CURRENT_TIMESTAMP"ₛ, by decide +kernel, by decide +kernel⟩
  · unfold valueMeaning
    rw [if_neg hf, if_pos ht]
    exact ⟨_, rfl, rfl⟩
  · have hdig := itoa_digits n
    have hhead : ∀ {c : Char} {l : Str}, isDigit c = false → itoa n ≠ c :: l := by
      intro c l hc he
      have := hdig c (by rw [he]; exact List.mem_cons_self)
      rw [hc] at this; cases this
    have hf : ¬hasPrefix (itoa n) "fn::"ₛ := by
      intro hp
      obtain ⟨r, hr⟩ := (hasPrefix_iff _ _).1 hp
      exact hhead (c := 'f') (l := "n::"ₛ ++ r) (by decide) hr
    have hlow : lower (itoa n) = itoa n := by
      unfold lower
      conv_rhs => rw [← List.map_id (itoa n)]
      refine List.map_congr_left fun c hc => ?_
      have := hdig c hc
      unfold isDigit at this
      simp only [Bool.and_eq_true, decide_eq_true_eq] at this
      unfold Char.toLower
      rw [dif_neg]
      · rfl
      · intro h'
        have h1 : c.toNat ≤ 57 := this.2
        have h2 : (65 : UInt32) ≤ c.val := h'.1
        have h3 : 65 ≤ c.toNat := UInt32.le_iff_toNat_le.1 h2
        omega
    unfold valueMeaning
    rw [if_neg hf]
    by_cases ht : type = "char"ₛ ∨ type = "varchar"ₛ
    · rw [if_pos ht]; exact ⟨_, rfl, rfl⟩
    · rw [if_neg ht]
      refine ⟨.value (some (itoa n)), ?_, rfl⟩
      unfold exprOf
      simp only [hlow]
      have h1 : itoa n ≠ "null"ₛ := hhead (c := 'n') (l := "ull"ₛ) (by decide)
      have h2 : itoa n ≠ "true"ₛ := hhead (c := 't') (l := "rue"ₛ) (by decide)
      have h3 : itoa n ≠ "false"ₛ := hhead (c := 'f') (l := "alse"ₛ) (by decide)
      rw [if_neg h1, if_neg h2, if_neg h3, if_neg]
      rintro (h | h)
      all_goals
        rw [List.head?_eq_some_iff] at h
        obtain ⟨l, hl⟩ := h
        exact hhead (by decide) hl

theorem updateExprOf_current (type : Str) : ∃ e, updateExprOf (valueMeaning type "fn::CURRENT_TIMESTAMP"ₛ) = some e ∧
    exprText e = some "fn::CURRENT_TIMESTAMP"ₛ :=
  ⟨.func "CURRENT_TIMESTAMP"ₛ, by
    have : valueMeaning type "fn::CURRENT_TIMESTAMP"ₛ = .call "CURRENT_TIMESTAMP"ₛ := by
      unfold valueMeaning; rw [if_pos (by decide)]; decide +kernel
    rw [this]; decide +kernel, by decide +kernel⟩

theorem lastSaid_nil {α : Type} (d : α) : lastSaid d [] = d := rfl

theorem column_back {c : Column} (h : PortableColumn c) :
    ∃ d, columnDefOf (ddlColumn Mysql.toMysqlColumnType c) = some d ∧ d.name = c.name ∧
      ∀ k : Keys, k.pk.contains c.name = c.primaryKey → k.uniq.contains c.name = c.uniqueKey → column k d = c := by
  obtain ⟨base, args, hr, hi⟩ := portable_type h.portable h.values
  unfold imported at hi
  rw [Option.map_eq_some_iff] at hi
  obtain ⟨f, hf, hfe⟩ := hi
  rw [Prod.mk.injEq] at hfe
  obtain ⟨hct, hcv⟩ := hfe
  have hd : ∃ l, optionOf exprOf (if c.defaultValue = [] then none else some (valueMeaning c.type c.defaultValue)) = some l ∧
      (l = [] ∧ c.defaultValue = [] ∨ ∃ e, l = [e] ∧ exprText e = some c.defaultValue) := by
    by_cases h0 : c.defaultValue = []
    · rw [if_pos h0]; exact ⟨[], rfl, Or.inl ⟨rfl, h0⟩⟩
    · rw [if_neg h0]
      obtain ⟨e, he, ht⟩ := exprOf_default h0 h.defaultOk
      refine ⟨[e], ?_, Or.inr ⟨e, rfl, ht⟩⟩
      simp [optionOf, he]
  have hu : ∃ l, optionOf updateExprOf (if c.onUpdate = [] then none else some (valueMeaning c.type c.onUpdate)) = some l ∧
      (l = [] ∧ c.onUpdate = [] ∨ ∃ e, l = [e] ∧ exprText e = some c.onUpdate) := by
    rcases h.onUpdateOk with h0 | h0
    · rw [if_pos h0]; exact ⟨[], rfl, Or.inl ⟨rfl, h0⟩⟩
    · rw [if_neg (by rw [h0]; decide), h0]
      obtain ⟨e, he, ht⟩ := updateExprOf_current c.type
      refine ⟨[e], ?_, Or.inr ⟨e, rfl, ht⟩⟩
      simp only [optionOf, he, Option.map_some]
  obtain ⟨dl, hdl, hdv⟩ := hd
  obtain ⟨ul, hul, huv⟩ := hu
  refine ⟨{ name := c.name
            tp := f
            options := (if c.notNull then [.notNull] else []) ++ (if c.autoIncremental then [.autoIncrement] else []) ++
              dl.map .defaultValue ++ ul.map .onUpdate ++
              (if c.description = [] then none else some c.description).toList.map .comment }, ?_, rfl, ?_⟩
  · unfold columnDefOf ddlColumn
    simp only [hr, hf, hdl, hul, Option.bind_some]
  · intro k hk1 hk2
    unfold column
    simp only [hct, foldl_optionStep, hcv, hk1, hk2, List.map_append]
    have hau := h.autoNotNull
    have hre := h.noRef
    obtain ⟨name, type, description, size, scale, notNull, primaryKey, uniqueKey, autoIncremental, defaultValue, onUpdate,
      values, ref⟩ := c
    simp only at hdv huv hau hre ⊢
    subst hre
    have hdes : description = [] ∨ description ≠ [] := em _
    rcases hdv with ⟨rfl, rfl⟩ | ⟨e1, rfl, he1⟩ <;> rcases huv with ⟨rfl, rfl⟩ | ⟨e2, rfl, he2⟩ <;>
      rcases hdes with rfl | hdes <;> cases notNull <;> cases autoIncremental <;>
      simp_all [lastSaid_cons, lastSaid_nil, nullability, defaultSaid, onUpdateSaid, commentSaid]

theorem mapM_some_of {α β γ : Type} {f : α → Option β} {P : γ → β → Prop} {g : γ → α} {l : List γ}
    (h : ∀ c ∈ l, ∃ d, f (g c) = some d ∧ P c d) :
    ∃ r, (l.map g).mapM f = some r ∧ List.Forall₂ P l r := by
  induction l with
  | nil => exact ⟨[], rfl, .nil⟩
  | cons c l ih =>
    obtain ⟨d, hd, hp⟩ := h c List.mem_cons_self
    obtain ⟨r, hr, hf⟩ := ih fun c hc => h c (List.mem_cons_of_mem _ hc)
    refine ⟨d :: r, ?_, .cons hp hf⟩
    rw [List.map_cons, List.mapM_cons, hd, hr]
    rfl

/-- The constraints of the DDL of a table. -/
def ddlConstraints (suffix : Str) (t : Table) : List Constraint :=
  (match t.columns.filter (·.primaryKey) with
    | [] => []
    | cs => [{ tp := .primaryKey, keys := cs.map fun c => some c.name }]) ++
  (match t.columns.filter (·.uniqueKey) with
    | [] => []
    | cs => [{ tp := .uniq, name := t.name ++ suffix, keys := cs.map fun c => some c.name }]) ++
  t.indices.map fun i => { tp := .index, name := i.name, keys := i.columns.map some }

theorem filterMap_defColumn (suffix : Str) (t : Table) :
    (ddlTable Mysql.toMysqlColumnType suffix t).defs.filterMap defColumn =
      t.columns.map (ddlColumn Mysql.toMysqlColumnType) := by
  unfold ddlTable
  simp only [List.filterMap_append, List.filterMap_map]
  have h1 : List.filterMap (defColumn ∘ fun c => DdlDef.column (ddlColumn Mysql.toMysqlColumnType c)) t.columns =
      t.columns.map (ddlColumn Mysql.toMysqlColumnType) := by
    rw [← List.filterMap_eq_map]
    rfl
  have h2 : List.filterMap (defColumn ∘ fun i : Index => DdlDef.index i.name i.columns) t.indices = [] := by
    rw [List.filterMap_eq_nil_iff]
    intros; rfl
  rw [h1, h2]
  cases t.columns.filter (·.primaryKey) <;> cases t.columns.filter (·.uniqueKey) <;> simp [defColumn]

theorem filterMap_defConstraint (suffix : Str) (t : Table) :
    (ddlTable Mysql.toMysqlColumnType suffix t).defs.filterMap defConstraint = ddlConstraints suffix t := by
  unfold ddlTable ddlConstraints
  simp only [List.filterMap_append, List.filterMap_map]
  have h1 : List.filterMap (defConstraint ∘ fun c => DdlDef.column (ddlColumn Mysql.toMysqlColumnType c)) t.columns = [] := by
    rw [List.filterMap_eq_nil_iff]
    intros; rfl
  have h2 : List.filterMap (defConstraint ∘ fun i : Index => DdlDef.index i.name i.columns) t.indices =
      t.indices.map fun i => { tp := .index, name := i.name, keys := i.columns.map some } := by
    rw [← List.filterMap_eq_map]
    rfl
  rw [h1, h2]
  cases t.columns.filter (·.primaryKey) <;> cases t.columns.filter (·.uniqueKey) <;> simp [defConstraint]

theorem mem_ddlConstraints {suffix : Str} {t : Table} {cst : Constraint} :
    cst ∈ ddlConstraints suffix t ↔
      (t.columns.filter (·.primaryKey) ≠ [] ∧
        cst = { tp := .primaryKey, keys := (t.columns.filter (·.primaryKey)).map fun c => some c.name }) ∨
      (t.columns.filter (·.uniqueKey) ≠ [] ∧
        cst = { tp := .uniq, name := t.name ++ suffix, keys := (t.columns.filter (·.uniqueKey)).map fun c => some c.name }) ∨
      ∃ i ∈ t.indices, cst = { tp := .index, name := i.name, keys := i.columns.map some } := by
  unfold ddlConstraints
  cases t.columns.filter (·.primaryKey) <;> cases t.columns.filter (·.uniqueKey) <;>
    simp only [List.mem_append, List.mem_map, List.mem_singleton, List.not_mem_nil, ne_eq, reduceCtorEq,
      not_true_eq_false, not_false_eq_true, false_and, true_and, false_or, or_assoc, eq_comm]

theorem mem_names_iff {cs : List Column} (hn : (cs.map (·.name)).Nodup) {p : Column → Bool} {c : Column} (hc : c ∈ cs) :
    c.name ∈ (cs.filter p).map (·.name) ↔ p c = true := by
  constructor
  · intro h
    obtain ⟨d, hd, he⟩ := List.mem_map.1 h
    obtain ⟨hd1, hd2⟩ := List.mem_filter.1 hd
    rwa [List.inj_on_of_nodup_map hn hc hd1 he.symm]
  · intro h
    exact List.mem_map.2 ⟨c, List.mem_filter.2 ⟨hc, h⟩, rfl⟩

theorem forall₂_map_back {α β : Type} {f : β → α} {Q : α → Prop} {l : List α} {r : List β}
    (h : List.Forall₂ (fun a b => Q a → f b = a) l r) (hq : ∀ a ∈ l, Q a) : r.map f = l := by
  induction h with
  | nil => rfl
  | cons hab _ ih =>
    rw [List.map_cons, hab (hq _ List.mem_cons_self), ih fun a ha => hq a (List.mem_cons_of_mem _ ha)]

theorem table_back {suffix : Str} {t : Table} (h : PortableTable t) :
    ∃ cols csts, stmtOf (ddlTable Mysql.toMysqlColumnType suffix t) = some (.createTable t.name cols csts) ∧
      importTable (t.name, cols, csts) = some t := by
  obtain ⟨cols, hcols, hf⟩ := mapM_some_of (P := fun c d => ∀ k : Keys,
      k.pk.contains c.name = c.primaryKey → k.uniq.contains c.name = c.uniqueKey → column k d = c)
    (f := columnDefOf) (g := ddlColumn Mysql.toMysqlColumnType) (l := t.columns) (by
      intro c hc
      obtain ⟨d, h1, h2, h3⟩ := column_back (h.portable c hc)
      exact ⟨d, h1, h3⟩)
  refine ⟨cols, ddlConstraints suffix t, ?_, ?_⟩
  · unfold stmtOf
    rw [filterMap_defColumn, hcols, Option.bind_some, filterMap_defConstraint]
    rw [if_neg]
    · rfl
    · rintro (h0 | h0)
      · subst h0
        exact h.hasColumns (List.length_eq_zero_iff.1 hf.length_eq)
      · obtain ⟨cst, hm, hk⟩ := List.any_eq_true.1 h0
        rcases mem_ddlConstraints.1 hm with ⟨hne, rfl⟩ | ⟨hne, rfl⟩ | ⟨i, hi, rfl⟩
        · exact hne (by simpa using hk)
        · exact hne (by simpa using hk)
        · exact h.indexed i hi (by simpa using hk)
  · unfold importTable
    cases hk : (ddlConstraints suffix t).foldlM constraintStep {} with
    | none =>
      obtain ⟨cst, hm, -, hn⟩ := (constraints_none _ _).1 hk
      rcases mem_ddlConstraints.1 hm with ⟨-, rfl⟩ | ⟨-, rfl⟩ | ⟨i, -, rfl⟩ <;> simp at hn
    | some k =>
      obtain ⟨h1, h2, h3⟩ := constraints_spec _ _ _ hk
      have kpk : ∀ c ∈ t.columns, k.pk.contains c.name = c.primaryKey := by
        intro c hc
        rw [Bool.eq_iff_iff, ← mem_names_iff (p := (·.primaryKey)) h.distinct hc]
        simp only [StringSet.contains, decide_eq_true_eq, h1, StringSet.empty, List.not_mem_nil, false_or, KeyedBy]
        constructor
        · rintro ⟨cst, hm, htp, hx⟩
          rcases mem_ddlConstraints.1 hm with ⟨-, rfl⟩ | ⟨-, rfl⟩ | ⟨i, -, rfl⟩
          · simpa using hx
          · cases htp
          · cases htp
        · intro hx
          refine ⟨_, mem_ddlConstraints.2 (Or.inl ⟨?_, rfl⟩), rfl, by simpa using hx⟩
          intro h0
          rw [h0] at hx
          cases hx
      have kuq : ∀ c ∈ t.columns, k.uniq.contains c.name = c.uniqueKey := by
        intro c hc
        rw [Bool.eq_iff_iff, ← mem_names_iff (p := (·.uniqueKey)) h.distinct hc]
        simp only [StringSet.contains, decide_eq_true_eq, h2, StringSet.empty, List.not_mem_nil, false_or, KeyedBy]
        constructor
        · rintro ⟨cst, hm, htp, hx⟩
          rcases mem_ddlConstraints.1 hm with ⟨-, rfl⟩ | ⟨-, rfl⟩ | ⟨i, -, rfl⟩
          · cases htp
          · simpa using hx
          · cases htp
        · intro hx
          refine ⟨_, mem_ddlConstraints.2 (Or.inr (Or.inl ⟨?_, rfl⟩)), rfl, by simpa using hx⟩
          intro h0
          rw [h0] at hx
          cases hx
      have hcolumns : cols.map (column k) = t.columns := by
        refine forall₂_map_back (Q := fun c => k.pk.contains c.name = c.primaryKey ∧ k.uniq.contains c.name = c.uniqueKey)
          (hf.imp fun c d hcd hq => hcd k hq.1 hq.2) fun c hc => ⟨kpk c hc, kuq c hc⟩
      have hidx : k.indices = t.indices := by
        have hfil : (ddlConstraints suffix t).filter (fun c => decide (c.tp = .index)) =
            t.indices.map fun i => { tp := .index, name := i.name, keys := i.columns.map some } := by
          have hself : (t.indices.map fun i => ({ tp := .index, name := i.name, keys := i.columns.map some } : Constraint)).filter
              (fun c => decide (c.tp = .index)) =
              t.indices.map fun i => { tp := .index, name := i.name, keys := i.columns.map some } := by
            rw [List.filter_eq_self]
            intro c hc
            obtain ⟨i, -, rfl⟩ := List.mem_map.1 hc
            rfl
          unfold ddlConstraints
          rw [List.filter_append, hself]
          cases t.columns.filter (·.primaryKey) <;> cases t.columns.filter (·.uniqueKey) <;> rfl
        rw [hfil, List.map_map] at h3
        have inj : Function.Injective fun i : Index => (i.name, i.columns.map some) := by
          rintro ⟨n, cs⟩ ⟨n', cs'⟩ he
          simp only [Prod.mk.injEq] at he
          obtain ⟨rfl, he⟩ := he
          rw [List.map_injective_iff.2 (Option.some_injective _) he]
        exact List.map_injective_iff.2 inj h3
      simp only [Option.map_some, hcolumns, hidx]
      have hd := h.noDescription
      have hg := h.noGroup
      have hcn := h.noClassName
      obtain ⟨name, columns, description, group, className, indices⟩ := t
      simp only at hd hg hcn
      subst hd hg hcn
      rfl

theorem tables_back {suffix : Str} (ts : List Table) (h : ∀ t ∈ ts, PortableTable t) :
    ∃ stmts, (ts.map (ddlTable Mysql.toMysqlColumnType suffix)).mapM stmtOf = some stmts ∧
      ∀ author version, importSql [] author version stmts = some { author := author, tables := ts, version := version } := by
  obtain ⟨stmts, hs, hf⟩ := mapM_some_of (P := fun t st => ∃ cols csts, st = Stmt.createTable t.name cols csts ∧
      importTable (t.name, cols, csts) = some t) (f := stmtOf) (g := ddlTable Mysql.toMysqlColumnType suffix) (l := ts) (by
      intro t ht
      obtain ⟨cols, csts, h1, h2⟩ := table_back (suffix := suffix) (h t ht)
      exact ⟨_, h1, cols, csts, rfl, h2⟩)
  refine ⟨stmts, hs, fun author version => ?_⟩
  rw [importSql_eq]
  have : (statedTables [] stmts).mapM importTable = some ts := by
    clear hs
    induction hf with
    | nil => rfl
    | @cons t st ts' l h1 _ ih =>
      obtain ⟨cols, csts, rfl, hi⟩ := h1
      have hc : statedTables [] (.createTable t.name cols csts :: l) = (t.name, cols, csts) :: statedTables [] l := by
        simp [statedTables]
      rw [hc, List.mapM_cons, hi, ih fun t ht => h t (List.mem_cons_of_mem _ ht)]
      rfl
  rw [this]
  rfl
end Octo
