import Verif.Lemmas.Mysql
import Verif.Lemmas.Util

/-! Property theorems C17-C20, C66, C67: the MySQL exporter. -/

namespace Octo
open Spec

/-! ## C17 – the DDL reads back -/

/-- C17: reading the exported script gives, in order, one table per selected table, with all its
columns (name, type, nullability, auto increment, default, on-update, comment), its primary key, its
unique constraint and its indices, each exactly once and in order. -/
theorem C17_read_back (filter : Option (Table → Bool)) (suffix : Str) (hsuf : UnescapedName suffix) (s : Schema)
    (h : ∀ t ∈ s.tables, passes filter t = true → PlainTable t) :
    readDdl (Mysql.exportSchema filter suffix s) =
      some ((s.tables.filter (passes filter)).map (ddlTable Mysql.toMysqlColumnType suffix)) := by
  refine readDdl_export hsuf _ ?_
  intro t ht
  obtain ⟨h1, h2⟩ := List.mem_filter.1 ht
  exact h t h1 h2

/-- C17: two schemas with the same script agree on everything the script states. -/
theorem C17_injective (suffix : Str) (hsuf : UnescapedName suffix) (s s' : Schema)
    (h : ∀ t ∈ s.tables, PlainTable t) (h' : ∀ t ∈ s'.tables, PlainTable t)
    (he : Mysql.exportSchema none suffix s = Mysql.exportSchema none suffix s') :
    s.tables.map (ddlTable Mysql.toMysqlColumnType suffix) = s'.tables.map (ddlTable Mysql.toMysqlColumnType suffix) := by
  have h1 := C17_read_back none suffix hsuf s (fun t ht _ => h t ht)
  have h2 := C17_read_back none suffix hsuf s' (fun t ht _ => h' t ht)
  rw [he, h2] at h1
  have hp : passes none = fun _ => true := rfl
  simpa [hp] using h1.symm

/-- Two tables: keys, a unique constraint, an index, a function default, an enum. -/
def exMysql : Schema :=
  { tables :=
    [{ name := "user"ₛ
       columns := [{ name := "id"ₛ, type := "int64"ₛ, notNull := true, primaryKey := true, autoIncremental := true },
         { name := "name"ₛ, type := "varchar"ₛ, size := 20, uniqueKey := true, defaultValue := "a, b"ₛ,
           description := "the (full) name; unique"ₛ },
         { name := "at"ₛ, type := "datetime"ₛ, defaultValue := "fn::NOW"ₛ, onUpdate := "fn::NOW"ₛ },
         { name := "kind"ₛ, type := "enum"ₛ, values := ["x, y"ₛ, "z"ₛ] }]
       indices := [⟨"idx kind"ₛ, ["kind"ₛ, "at"ₛ]⟩] },
     { name := "empty"ₛ }] }

theorem exMysql_plain : ∀ t ∈ exMysql.tables, PlainTable t := by
  have hw : ∀ s : Str, (s ≠ [] ∧ s.all (fun c => !isBlank c && !isQuote c && c != '(' && c != ')' && c != ',' && c != ';') = true) → Word s := by
    intro s h
    refine ⟨h.1, fun c hc => ?_⟩
    have := List.all_eq_true.1 h.2 c hc
    simpa [and_assoc] using this
  have hv : ∀ t, PlainValue t [] := fun t => Or.inl rfl
  have hu : Unescaped [] := by unfold Unescaped; simp
  intro t ht
  simp only [exMysql, List.mem_cons, List.not_mem_nil, or_false] at ht
  rcases ht with rfl | rfl
  · refine ⟨hw _ (by decide), ?_, ?_⟩
    · intro c hc
      simp only [List.mem_cons, List.not_mem_nil, or_false] at hc
      rcases hc with rfl | rfl | rfl | rfl
      · exact ⟨hw _ (by decide), by decide +kernel, by simp, hu, hv _, hv _⟩
      · exact ⟨hw _ (by decide), by decide +kernel, by simp, by unfold Unescaped; decide +kernel,
          Or.inr (Or.inr ⟨by decide, by rw [if_pos (by decide)]; unfold Unescaped; decide⟩), hv _⟩
      · exact ⟨hw _ (by decide), by decide +kernel, by simp, hu, Or.inr (Or.inl ⟨by decide, hw _ (by decide)⟩),
          Or.inr (Or.inl ⟨by decide, hw _ (by decide)⟩)⟩
      · exact ⟨hw _ (by decide), by decide +kernel, by unfold Unescaped; decide, hu, hv _, hv _⟩
    · intro i hi
      rw [List.mem_singleton] at hi
      subst hi
      unfold UnescapedName; decide
  · exact ⟨hw _ (by decide), by simp, by simp⟩

example : readDdl (Mysql.exportSchema none "_UQ"ₛ exMysql) =
    some (exMysql.tables.map (ddlTable Mysql.toMysqlColumnType "_UQ"ₛ)) :=
  C17_read_back none "_UQ"ₛ (by unfold UnescapedName; decide) exMysql (fun t ht _ => exMysql_plain t ht)

/-! ## C18 – types -/

/-- C18: for every canonical type the exported type is the documented MySQL type with exactly the
arguments its shape calls for. -/
theorem C18_type (c : Column) (hv : ∀ v ∈ c.values, Unescaped v) (e : Str × Str × TypeShape) (he : e ∈ mysqlTypes)
    (hte : c.type = e.1) : readType (Mysql.toMysqlColumnType c) = some (e.2.1, typeArgs e.2.2 c) :=
  readType_eq hv he hte

/-- C18: every canonical type has an entry. -/
theorem C18_complete (c : Column) (h : c.type ∈ colTypes) : ∃ e ∈ mysqlTypes, c.type = e.1 := mysqlTypes_of_mem h

/-- C18: distinct canonical types give distinct texts, except that `boolean` is written as `bit(1)`. -/
theorem C18_distinct (c d : Column) (hc : c.type ∈ colTypes) (hd : d.type ∈ colTypes)
    (hvc : ∀ v ∈ c.values, Unescaped v) (hvd : ∀ v ∈ d.values, Unescaped v)
    (h : Mysql.toMysqlColumnType c = Mysql.toMysqlColumnType d) :
    c.type = d.type ∨ (c.type = "boolean"ₛ ∧ d.type = "bit"ₛ ∧ d.size = 1 ∧ d.scale = 0) ∨
      (c.type = "bit"ₛ ∧ d.type = "boolean"ₛ ∧ c.size = 1 ∧ c.scale = 0) := by
  obtain ⟨e, he, hce⟩ := mysqlTypes_of_mem hc
  obtain ⟨f, hf, hdf⟩ := mysqlTypes_of_mem hd
  have h1 := readType_eq hvc he hce
  have h2 := readType_eq hvd hf hdf
  rw [h, h2, Option.some.injEq, Prod.mk.injEq] at h1
  have hb : ∀ e ∈ mysqlTypes, ∀ f ∈ mysqlTypes, f.2.1 = e.2.1 → e.1 = f.1 ∨
      (e = ("boolean"ₛ, "bit"ₛ, .oneBit) ∧ f = ("bit"ₛ, "bit"ₛ, .sized)) ∨
      (e = ("bit"ₛ, "bit"ₛ, .sized) ∧ f = ("boolean"ₛ, "bit"ₛ, .oneBit)) := by decide +kernel
  have hone : ∀ c : Column, typeArgs .sized c = ["1"ₛ] → c.size = 1 ∧ c.scale = 0 := by
    intro c hc
    simp only [typeArgs] at hc
    split at hc
    · cases hc
    · split at hc
      · rename_i h0
        simp only [List.cons.injEq, and_true] at hc
        have : itoa c.size.toNat = itoa 1 := by rw [hc]; decide
        exact ⟨UInt16.toNat_inj.1 (itoa_inj this), h0⟩
      · simp at hc
  rcases hb e he f hf h1.1 with hb | ⟨rfl, rfl⟩ | ⟨rfl, rfl⟩
  · exact Or.inl (by rw [hce, hdf, hb])
  · exact Or.inr (Or.inl ⟨hce, hdf, hone d h1.2⟩)
  · exact Or.inr (Or.inr ⟨hce, hdf, hone c h1.2.symm⟩)

/-- C18: for sized types the text determines size and scale. -/
theorem C18_sizes (c d : Column) (e : Str × Str × TypeShape) (he : e ∈ mysqlTypes) (hs : e.2.2 = .sized)
    (hc : c.type = e.1) (hd : d.type = e.1) (hvc : ∀ v ∈ c.values, Unescaped v) (hvd : ∀ v ∈ d.values, Unescaped v)
    (h : Mysql.toMysqlColumnType c = Mysql.toMysqlColumnType d) :
    c.size = d.size ∧ (c.size = 0 ∨ c.scale = d.scale) := by
  have h1 := readType_eq hvc he hc
  have h2 := readType_eq hvd he hd
  rw [h, h2, Option.some.injEq, Prod.mk.injEq, hs] at h1
  have h3 := h1.2
  have hi : ∀ a b : UInt16, itoa a.toNat = itoa b.toNat → a = b := fun a b h => UInt16.toNat_inj.1 (itoa_inj h)
  simp only [typeArgs] at h3
  by_cases c0 : c.size = 0 <;> by_cases d0 : d.size = 0 <;> by_cases c1 : c.scale = 0 <;> by_cases d1 : d.scale = 0 <;>
    simp only [c0, d0, c1, d1, if_true, if_false, List.cons.injEq, and_true, and_false, reduceCtorEq] at h3
  · exact ⟨by rw [c0, d0], Or.inl c0⟩
  · exact ⟨by rw [c0, d0], Or.inl c0⟩
  · exact ⟨by rw [c0, d0], Or.inl c0⟩
  · exact ⟨by rw [c0, d0], Or.inl c0⟩
  · exact ⟨(hi _ _ h3).symm, Or.inr (by rw [c1, d1])⟩
  · exact ⟨(hi _ _ h3.1).symm, Or.inr (hi _ _ h3.2).symm⟩

example : Mysql.toMysqlColumnType { type := "decimal"ₛ, size := 10, scale := 2 } = "decimal(10,2)"ₛ := by decide +kernel
example : ("decimal"ₛ, "decimal"ₛ, TypeShape.sized) ∈ mysqlTypes := by decide +kernel

/-! ## C19 – sizes are kept -/

/-- The types for which a size is meaningful. -/
def sizedTypes : List Str :=
  ["binary"ₛ, "varbinary"ₛ, "bit"ₛ, "char"ₛ, "varchar"ₛ, "decimal"ₛ, "double"ₛ, "float"ₛ, "int8"ₛ, "int16"ₛ,
   "int24"ₛ, "int32"ₛ, "int64"ₛ]

/-- C19, restricted: the size is written for all sized types but `binary` and `varbinary`. -/
theorem C19_size_partial (c : Column) (ht : c.type ∈ sizedTypes) (hb : c.type ≠ "binary"ₛ ∧ c.type ≠ "varbinary"ₛ)
    (hs : c.size ≠ 0) (hv : ∀ v ∈ c.values, Unescaped v) :
    ∃ base args, readType (Mysql.toMysqlColumnType c) = some (base, itoa c.size.toNat :: args) := by
  have : ∀ t ∈ sizedTypes, t ≠ "binary"ₛ → t ≠ "varbinary"ₛ → ∃ e ∈ mysqlTypes, t = e.1 ∧ e.2.2 = .sized := by
    decide +kernel
  obtain ⟨e, he, h1, h2⟩ := this _ ht hb.1 hb.2
  rw [readType_eq hv he h1, h2]
  simp only [typeArgs, if_neg hs]
  split
  · exact ⟨_, _, rfl⟩
  · exact ⟨_, _, rfl⟩

/-- C19 is violated: the size of every binary column is dropped. -/
theorem C19_violated (c : Column) (ht : c.type = "binary"ₛ ∨ c.type = "varbinary"ₛ) (hv : ∀ v ∈ c.values, Unescaped v) :
    readType (Mysql.toMysqlColumnType c) = some (c.type, []) := by
  rcases ht with h | h
  · rw [readType_eq hv (e := ("binary"ₛ, "binary"ₛ, .fixed)) (by decide +kernel) h, h]; rfl
  · rw [readType_eq hv (e := ("varbinary"ₛ, "varbinary"ₛ, .fixed)) (by decide +kernel) h, h]; rfl

example : Mysql.toMysqlColumnType { type := "varbinary"ₛ, size := 16 } = "varbinary"ₛ := by decide +kernel

/-! ## C20 – constraints -/

/-- C20: the constraint text consists of the tokens of the column's attributes, in order. -/
theorem C20_tokens (c : Column) (h : PlainColumn c) : tokens (Mysql.columnConstraints c) = constraintTokens c := by
  rw [columnConstraints_eq, tokens_join fun s hs => ⟨Good.blank (good_optTokens h s hs).1, (good_optTokens h s hs).2⟩]
  have hval : ∀ v, Mysql.valueText c.type (getValue v) = valueToken (valueMeaning c.type v) := by
    intro v
    by_cases hp : hasPrefix v "fn::"ₛ = true
    · have e : getValue v = (v.drop 4, true) := if_pos hp
      rw [e, valueMeaning, if_pos hp]; rfl
    · have e : getValue v = (v, false) := if_neg hp
      simp only [e, Mysql.valueText, valueMeaning, if_neg hp, isStringType_iff h.type, Bool.false_eq_true, if_false]
      split <;> rfl
  simp only [optTokens, constraintTokens, List.flatten_append, Column.getDefaultValue, Column.getOnUpdate, hval]
  congr 1
  · congr 1
    · congr 1
      · congr 1
        · split <;> rfl
        · split <;> rfl
      · by_cases hd : c.defaultValue = [] <;> simp [hd]
    · by_cases hd : c.onUpdate = [] <;> simp [hd]
  · by_cases hd : c.description = [] <;> simp [hd, valueToken]

/-- C20: read as SQL, the constraint text states exactly the attributes of the column. -/
theorem C20_reads (c : Column) (h : PlainColumn c) (n ty : Str) :
    readOptions (tokens (Mysql.columnConstraints c)) { name := n, type := ty } =
      some { ddlColumn (fun _ => ty) c with name := n } := by
  rw [columnConstraints_eq, tokens_join fun s hs => ⟨Good.blank (good_optTokens h s hs).1, (good_optTokens h s hs).2⟩,
    readOptions_optTokens h _ rfl]

example : tokens (Mysql.columnConstraints
    { name := "a"ₛ, type := "char"ₛ, notNull := true, defaultValue := "x y"ₛ, description := "z"ₛ }) =
    ["NOT"ₛ, "NULL"ₛ, "DEFAULT"ₛ, "'x y'"ₛ, "COMMENT"ₛ, "'z'"ₛ] := by decide +kernel

/-! ## C66 – free text -/

/-- C66 is violated: a description with a quote ends the literal early; here the script of one table
drops another one. -/
theorem C66_violated : ∃ (s : Schema), s.tables.length = 1 ∧
    "DROP TABLE x"ₛ ∈ statements (Mysql.exportSchema none [] s) := by
  refine ⟨{ tables := [{ name := "t"ₛ, columns := [{ name := "a"ₛ, type := "date"ₛ, description := "');DROP TABLE x;("ₛ }] }] },
    rfl, ?_⟩
  decide +kernel

/-- C66, restricted: the script has exactly one statement per selected table when no text needs
escaping. -/
theorem C66_statements_partial (filter : Option (Table → Bool)) (suffix : Str) (hsuf : UnescapedName suffix) (s : Schema)
    (h : ∀ t ∈ s.tables, passes filter t = true → PlainTable t) :
    (statements (Mysql.exportSchema filter suffix s)).length = (s.tables.filter (passes filter)).length := by
  have h1 := C17_read_back filter suffix hsuf s h
  have hlen : ∀ (l : List Str) (r : List DdlTable), l.mapM readCreateTable = some r → l.length = r.length := by
    intro l
    induction l with
    | nil => intro r h; simp only [List.mapM_nil] at h; cases h; rfl
    | cons a l ih =>
      intro r h
      simp only [List.mapM_cons, Option.bind_eq_bind, Option.bind_eq_some_iff] at h
      obtain ⟨x, _, xs, h2, h3⟩ := h
      cases h3
      simp [ih xs h2]
  rw [hlen _ _ h1, List.length_map]

/-- C66: two tables, a table of which one is selected. -/
example := C66_statements_partial (some fun t => t.name == "user"ₛ) "_UQ"ₛ (by unfold UnescapedName; decide) exMysql
  (fun t ht _ => exMysql_plain t ht)

/-! ## C67 – literals that need quotes -/

/-- C67 is violated for every type whose literals need quotes other than `char` and `varchar`: the
default is written bare. -/
theorem C67_violated (c : Column) (_ht : c.type ∈ quotedLiteralTypes) (hn : c.type ≠ "char"ₛ ∧ c.type ≠ "varchar"ₛ)
    (hv : c.defaultValue ≠ []) (hf : hasPrefix c.defaultValue "fn::"ₛ = false) (h : PlainColumn c) :
    ∃ pre post, tokens (Mysql.columnConstraints c) = pre ++ ["DEFAULT"ₛ, c.defaultValue] ++ post ∧
      readValue c.defaultValue = .bare c.defaultValue := by
  have hm : valueMeaning c.type c.defaultValue = .bare c.defaultValue := by
    rw [valueMeaning, if_neg (by rw [hf]; decide), if_neg (not_or.2 hn)]
  have hr := (valueText_spec h.type hv h.default).2.2
  have ht : Mysql.valueText c.type (getValue c.defaultValue) = c.defaultValue := by
    have e : getValue c.defaultValue = (c.defaultValue, false) := if_neg (by
      intro hp
      have : hasPrefix c.defaultValue "fn::"ₛ = true := hp
      rw [hf] at this; cases this)
    have hs : isStringType c.type = false := by
      cases hs : isStringType c.type
      · rfl
      · rcases (isStringType_iff h.type).1 hs with h | h
        · exact absurd h hn.1
        · exact absurd h hn.2
    simp only [e, Mysql.valueText, hs, Bool.false_eq_true, if_false]
  rw [ht, hm] at hr
  rw [C20_tokens c h, constraintTokens, if_neg hv, hm]
  exact ⟨_, _, List.append_assoc _ _ _, hr⟩

example : Mysql.columnConstraints { name := "a"ₛ, type := "enum"ₛ, values := ["x"ₛ], defaultValue := "x"ₛ } =
    "DEFAULT x"ₛ := by decide +kernel

/-- C67, restricted: literals of `char` and `varchar` columns are quoted, and calls never are. -/
theorem C67_quoted_partial (c : Column) (h : PlainColumn c) (hv : c.defaultValue ≠ []) :
    ((c.type = "char"ₛ ∨ c.type = "varchar"ₛ) → hasPrefix c.defaultValue "fn::"ₛ = false →
      ["DEFAULT"ₛ, ['\''] ++ c.defaultValue ++ ['\'']].Sublist (tokens (Mysql.columnConstraints c))) ∧
    (hasPrefix c.defaultValue "fn::"ₛ = true →
      ["DEFAULT"ₛ, c.defaultValue.drop 4 ++ ['(', ')']].Sublist (tokens (Mysql.columnConstraints c))) := by
  rw [C20_tokens c h, constraintTokens, if_neg hv]
  have key : ∀ (a b d e : List Str), b.Sublist (a ++ b ++ d ++ e) := by
    intro a b d e
    rw [List.append_assoc, List.append_assoc]
    exact (List.sublist_append_left _ _).trans (List.sublist_append_right _ _)
  constructor
  · intro ht hf
    have : valueMeaning c.type c.defaultValue = .string c.defaultValue := by
      rw [valueMeaning, if_neg (by rw [hf]; decide), if_pos ht]
    rw [this]
    exact key _ _ _ _
  · intro hf
    have : valueMeaning c.type c.defaultValue = .call (c.defaultValue.drop 4) := by
      rw [valueMeaning, if_pos hf]
    rw [this]
    exact key _ _ _ _

/-- C67: the default values of the example, a text and a call. -/
example := C67_quoted_partial exMysql.tables[0].columns[1] ((exMysql_plain _ (.head _)).columns _ (.tail _ (.head _))) (by decide)

example := C67_quoted_partial exMysql.tables[0].columns[2] ((exMysql_plain _ (.head _)).columns _ (.tail _ (.tail _ (.head _)))) (by decide)

end Octo
