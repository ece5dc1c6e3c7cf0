import Verif.Spec.LqMysqlTypes
import Verif.Props.MysqlDb

/-! The types of the columns that the script of `export mysql` and the changelog of `generate liquibase` build on MySQL (C144). -/

namespace Octo
open Spec Lq

/-- Size and scale of a column as arguments of its type. -/
def argsText (c : Column) : Str :=
  if c.size = 0 then [] else "("ₛ ++ itoa c.size.toNat ++ (if c.scale = 0 then [] else ","ₛ ++ itoa c.scale.toNat) ++ ")"ₛ

theorem argsText_cases (c : Column) : (c.size = 0 ∧ argsText c = []) ∨ (c.size ≠ 0 ∧ ∃ r, argsText c = '(' :: r ∧ ∃ x u, r = x :: u ∧ isDigit x = true) := by
  unfold argsText
  by_cases h : c.size = 0
  · exact .inl ⟨h, if_pos h⟩
  · refine .inr ⟨h, itoa c.size.toNat ++ (if c.scale = 0 then [] else ","ₛ ++ itoa c.scale.toNat) ++ ")"ₛ, ?_, ?_⟩
    · rw [if_neg h]; rfl
    · obtain ⟨x, u, e⟩ := List.exists_cons_of_ne_nil (itoa_ne_nil c.size.toNat)
      exact ⟨x, _, by rw [e]; rfl, itoa_digits c.size.toNat x (by rw [e]; simp)⟩

theorem formatColumnType_args (b : Str) (c : Column) : Mysql.formatColumnType b c = b ++ argsText c := by
  unfold Mysql.formatColumnType argsText
  simp only [uint16_pos]
  by_cases h1 : c.size = 0
  · rw [if_neg (fun h => h h1), if_pos h1, List.append_nil]
  · rw [if_pos h1, if_neg h1]
    by_cases h2 : c.scale = 0
    · rw [if_neg (fun h => h h2), if_pos h2]; simp only [List.append_assoc, List.append_nil]
    · rw [if_pos h2, if_neg h2]; simp only [List.append_assoc]

theorem lqMysqlType_args {b : Str} (hb : '(' ∉ b) (c : Column) :
    lqMysqlType (b ++ argsText c) = if b = "boolean"ₛ then "bit(1)"ₛ else lqMysqlBase b ++ argsText c := by
  unfold lqMysqlType
  rcases argsText_cases c with ⟨_, e⟩ | ⟨_, r, e, _⟩
  · rw [e, List.append_nil, splitN2_no_sep hb, List.append_nil]
    dsimp only
    rw [List.append_nil]
  · rw [e, splitN2_append_sep hb]

/-- What the two tables of types have in common. -/
theorem types_table : ∀ e ∈ mysqlTypes,
    '(' ∉ (lqTypeTable.lookup (lower e.1)).getD e.1 ∧ e.2.1.all isAlpha = true ∧
    ((e.1 = "boolean"ₛ ∧ (lqTypeTable.lookup (lower e.1)).getD e.1 = "boolean"ₛ ∧ e.2 = ("bit"ₛ, .oneBit)) ∨
     ((lqTypeTable.lookup (lower e.1)).getD e.1 ≠ "boolean"ₛ ∧
      ((e.2.2 = .sized ∧ e.1 ∈ bothSized ∧ lqMysqlBase ((lqTypeTable.lookup (lower e.1)).getD e.1) = e.2.1) ∨
       (e.2.2 = .fixed ∧ e.1 ∉ bothSized ∧ e.1 ∈ oneSized ∧ lqMysqlBase ((lqTypeTable.lookup (lower e.1)).getD e.1) = e.2.1) ∨
       (e.2.2 = .fixed ∧ e.1 ∉ bothSized ∧ e.1 ∉ oneSized ∧ lqMysqlBase ((lqTypeTable.lookup (lower e.1)).getD e.1) ≠ e.2.1) ∨
       (e.2.2 = .members ∧ e.1 ∉ bothSized ∧ e.1 ∉ oneSized ∧ lqMysqlBase ((lqTypeTable.lookup (lower e.1)).getD e.1) = e.2.1)))) := by
  decide +kernel

/-- C144 for one column, exactly: the script of `export mysql` and the changelog of `generate liquibase` give a column of a supported
type the same type on MySQL if and only if its type is one of `bothSized`, or one of `oneSized` and no size is declared. -/
theorem C144_column_exact (c : Column) (h : c.type ∈ supportedTypes) :
    Mysql.toMysqlColumnType c = lqMysqlType (getLiquibaseType c) ↔ AgreedType c := by
  obtain ⟨e, he, hte⟩ := mysqlTypes_of_mem (c := c) (by
    have : ∀ t ∈ supportedTypes, t ∈ colTypes := by decide +kernel
    exact this _ h)
  obtain ⟨h1, h2, h3⟩ := types_table e he
  rw [toMysqlColumnType_eq c e he hte, getLiquibaseType_eq]
  have hl : lqTypeText c = (lqTypeTable.lookup (lower e.1)).getD e.1 ++ argsText c := by rw [← hte]; rfl
  rw [hl, lqMysqlType_args h1]
  have hnp : '(' ∉ e.2.1 := fun hm => by
    have := List.all_eq_true.1 h2 _ hm
    revert this; decide
  unfold AgreedType
  rw [hte]
  rcases h3 with ⟨e1, e2, e3⟩ | ⟨hb, h3⟩
  · rw [if_pos e2, e3, e1]
    exact ⟨fun _ => .inl (by decide +kernel), fun _ => by rfl⟩
  · rw [if_neg hb]
    rcases h3 with ⟨e1, e2, e3⟩ | ⟨e1, e2, e3, e4⟩ | ⟨e1, e2, e3, e4⟩ | ⟨e1, e2, e3, e4⟩
    · rw [e1, e3]
      exact ⟨fun _ => .inl e2, fun _ => formatColumnType_args _ _⟩
    · rw [e1, e4]
      show e.2.1 = _ ↔ _
      refine ⟨fun heq => .inr ⟨e3, ?_⟩, fun ha => ?_⟩
      · rcases argsText_cases c with ⟨hz, _⟩ | ⟨_, r, hr, _⟩
        · exact hz
        · rw [hr] at heq
          have := congrArg List.length heq
          simp only [List.length_append, List.length_cons] at this
          omega
      · rcases ha with ha | ⟨_, hz⟩
        · exact absurd ha e2
        · rw [argsText, if_pos hz, List.append_nil]
    · rw [e1]
      show e.2.1 = _ ↔ _
      refine ⟨fun heq => ?_, fun ha => ?_⟩
      · rcases argsText_cases c with ⟨_, hr⟩ | ⟨_, r, hr, _⟩
        · rw [hr, List.append_nil] at heq; exact absurd heq.symm e4
        · rw [hr] at heq; exact absurd (by rw [heq]; simp) hnp
      · rcases ha with ha | ⟨ha, _⟩
        · exact absurd ha e2
        · exact absurd ha e3
    · rw [e1, e4]
      show e.2.1 ++ "("ₛ ++ quoteAndJoin c.values "'"ₛ ", "ₛ ++ ")"ₛ = _ ↔ _
      refine ⟨fun heq => ?_, fun ha => ?_⟩
      · rw [List.append_assoc, List.append_assoc] at heq
        have heq := List.append_cancel_left heq
        rcases argsText_cases c with ⟨_, hr⟩ | ⟨_, r, hr, x, u, hxu, hx⟩
        · rw [hr] at heq; cases heq
        · rw [hr] at heq
          have heq : '(' :: (quoteAndJoin c.values "'"ₛ ", "ₛ ++ ")"ₛ) = '(' :: r := heq
          have heq := (List.cons.inj heq).2
          rw [hxu] at heq
          unfold quoteAndJoin at heq
          cases hv : c.values with
          | nil =>
            rw [hv] at heq
            have : ')' = x := (List.cons.inj heq).1
            rw [← this] at hx; exact absurd hx (by decide)
          | cons v vs =>
            rw [hv] at heq
            have : '\'' = x := by
              cases vs with
              | nil => exact (List.cons.inj heq).1
              | cons w ws => exact (List.cons.inj heq).1
            rw [← this] at hx; exact absurd hx (by decide)
      · rcases ha with ha | ⟨ha, _⟩
        · exact absurd ha e2
        · exact absurd ha e3

/-- C144, exactly: the databases that script and changelog build have the same types if and only if the two commands agree on every
column of the selected tables. -/
theorem C144_exact (env : LqEnv) (hlist : env.listed = true) (pf : Str → Option Str) (opt : GenOption) (s : Schema)
    (hsuf : UnescapedName opt.uniqueNameSuffix)
    (hplain : ∀ t ∈ s.tables.filter (passes opt.tableFilter), PlainTable t)
    (hnd : ((s.tables.filter (passes opt.tableFilter)).map (·.name)).Nodup)
    (hkeys : ∀ t ∈ s.tables.filter (passes opt.tableFilter), GoodKeys opt.uniqueNameSuffix t)
    (hclean : ∀ t ∈ s.tables.filter (passes opt.tableFilter), CleanTable pf t)
    (hno : ∀ t ∈ s.tables, ¬env.system (t.name ++ opt.uniqueNameSuffix))
    (hty : ∀ t ∈ s.tables, ∀ c ∈ t.columns, c.type ∈ supportedTypes) :
    ∃ script sets d e, readDdl (Mysql.exportSchema opt.tableFilter opt.uniqueNameSuffix s) = some script ∧
      generateAll pf opt s = some sets ∧ DdlRuns script (fun _ => none) d ∧
      Runs (changelogOps env sets) (fun _ => none) e ∧ SameDb env.system opt.useComments d e ∧
      (SameTypes d e ↔ ∀ t ∈ s.tables.filter (passes opt.tableFilter), ∀ c ∈ t.columns, AgreedType c) := by
  obtain ⟨sets, h1, e, h2, h3, h4⟩ := C39_builds_partial env pf opt s hnd hclean hno
  rw [hlist] at h3
  obtain ⟨d, h5, h6, h7⟩ := ddlRuns Mysql.toMysqlColumnType opt.uniqueNameSuffix (s.tables.filter (passes opt.tableFilter))
    (fun _ => none) hnd (fun t ht => ddlTable_creatable _ _ (hclean t ht).1 (hkeys t ht)) (fun _ _ => rfl)
  refine ⟨_, sets, d, e, C17_read_back opt.tableFilter opt.uniqueNameSuffix hsuf s
    (fun t ht hp => hplain t (List.mem_filter.2 ⟨ht, hp⟩)), h1, h5, h2, ?_, ?_⟩
  · intro n
    by_cases hn : n ∈ (s.tables.filter (passes opt.tableFilter)).map (·.name)
    · obtain ⟨t, ht, rfl⟩ := List.mem_map.1 hn
      obtain ⟨U, hU, hh⟩ := h3 t ht
      exact Or.inr ⟨_, U, h6 t ht, hU, sameTable env.system opt.useComments _ _ (hclean t ht).1 hh⟩
    · exact Or.inl ⟨h7 n hn, h4 n hn⟩
  · constructor
    · intro hs t ht c hc
      obtain ⟨U, hU, hh⟩ := h3 t ht
      obtain ⟨f, hf, hf'⟩ := create_cols Mysql.toMysqlColumnType opt.uniqueNameSuffix (t := t) c.name
      have hcn := (columnNamed_eq_some (hclean t ht).1).2 ⟨hc, rfl⟩
      have hk := hs t.name _ U (h6 t ht) hU c.name (f c) (lqAttrOf opt.useComments c) (by rw [hf, hcn]; rfl) (by rw [hh.cols, hcn]; rfl)
      rw [(hf' c hcn).2] at hk
      have hk : Mysql.toMysqlColumnType c = lqMysqlType (lqTypeText c) := hk
      rw [← getLiquibaseType_eq] at hk
      exact (C144_column_exact c (hty t (List.mem_filter.1 ht).1 c hc)).1 hk
    · intro ha n T U hT hU k a b hka hkb
      by_cases hn : n ∈ (s.tables.filter (passes opt.tableFilter)).map (·.name)
      · obtain ⟨t, ht, rfl⟩ := List.mem_map.1 hn
        obtain ⟨U', hU', hh⟩ := h3 t ht
        cases Option.some.inj (hU'.symm.trans hU)
        cases Option.some.inj ((h6 t ht).symm.trans hT)
        obtain ⟨f, hf, hf'⟩ := create_cols Mysql.toMysqlColumnType opt.uniqueNameSuffix (t := t) k
        rw [hf] at hka
        rw [hh.cols] at hkb
        cases hcn : columnNamed t k with
        | none => rw [hcn] at hka; cases hka
        | some c =>
          rw [hcn] at hka hkb
          cases hka; cases hkb
          rw [(hf' c hcn).2]
          show Mysql.toMysqlColumnType c = lqMysqlType (lqTypeText c)
          obtain ⟨hc, _⟩ := (columnNamed_eq_some (hclean t ht).1).1 hcn
          rw [← getLiquibaseType_eq]
          exact (C144_column_exact c (hty t (List.mem_filter.1 ht).1 c hc)).2 (ha t ht c hc)
      · rw [h7 n hn] at hT; cases hT

/-- C144 fails as stated: a text of 16 bit lengths is a `text` after the script and a `longtext` after the changelog, whatever else is
declared; the members of an enumeration and the size of a binary column are only on one side. -/
theorem C144_violated (c : Column) (h : c.type ∈ ["text8"ₛ, "text16"ₛ, "text24"ₛ, "blob8"ₛ, "blob16"ₛ, "blob24"ₛ, "enum"ₛ, "set"ₛ] ∨
      (c.type ∈ ["binary"ₛ, "varbinary"ₛ, "datetime"ₛ, "time"ₛ] ∧ c.size ≠ 0)) :
    Mysql.toMysqlColumnType c ≠ lqMysqlType (getLiquibaseType c) := by
  have hsup : c.type ∈ supportedTypes := by
    have h1 : ∀ t ∈ ["text8"ₛ, "text16"ₛ, "text24"ₛ, "blob8"ₛ, "blob16"ₛ, "blob24"ₛ, "enum"ₛ, "set"ₛ, "binary"ₛ, "varbinary"ₛ,
      "datetime"ₛ, "time"ₛ], t ∈ supportedTypes := by decide +kernel
    refine h1 _ ?_
    rcases h with h | ⟨h, _⟩
    · exact List.mem_append_left (bs := ["binary"ₛ, "varbinary"ₛ, "datetime"ₛ, "time"ₛ]) h
    · exact List.mem_append_right ["text8"ₛ, "text16"ₛ, "text24"ₛ, "blob8"ₛ, "blob16"ₛ, "blob24"ₛ, "enum"ₛ, "set"ₛ] h
  rw [Ne, C144_column_exact c hsup]
  rintro (ha | ⟨ha, hz⟩)
  · have h1 : ∀ t ∈ bothSized, t ∉ ["text8"ₛ, "text16"ₛ, "text24"ₛ, "blob8"ₛ, "blob16"ₛ, "blob24"ₛ, "enum"ₛ, "set"ₛ] ∧
        t ∉ ["binary"ₛ, "varbinary"ₛ, "datetime"ₛ, "time"ₛ] := by decide +kernel
    rcases h with h | ⟨h, _⟩
    · exact (h1 _ ha).1 h
    · exact (h1 _ ha).2 h
  · have h1 : ∀ t ∈ oneSized, t ∉ ["text8"ₛ, "text16"ₛ, "text24"ₛ, "blob8"ₛ, "blob16"ₛ, "blob24"ₛ, "enum"ₛ, "set"ₛ] := by decide +kernel
    rcases h with h | ⟨_, h⟩
    · exact h1 _ ha h
    · exact h hz

example : Mysql.toMysqlColumnType { name := "c"ₛ, type := "decimal"ₛ, size := 20, scale := 5 } =
    lqMysqlType (getLiquibaseType { name := "c"ₛ, type := "decimal"ₛ, size := 20, scale := 5 }) :=
  (C144_column_exact _ (by decide +kernel)).2 (by decide +kernel)

example : lqMysqlType (getLiquibaseType { name := "c"ₛ, type := "text16"ₛ }) = "longtext"ₛ ∧
    Mysql.toMysqlColumnType { name := "c"ₛ, type := "text16"ₛ } = "text"ₛ ∧
    lqMysqlType (getLiquibaseType { name := "c"ₛ, type := "varbinary"ₛ, size := 16 }) = "varbinary(16)"ₛ ∧
    Mysql.toMysqlColumnType { name := "c"ₛ, type := "varbinary"ₛ, size := 16 } = "varbinary"ₛ := by decide +kernel

/-- C144: the demonstration has a column of type `text16`. -/
example (onRename onRetype : LqAttr → LqAttr) : ∃ script sets d e,
    readDdl (Mysql.exportSchema none "_UQ"ₛ exScript) = some script ∧
    generateAll some { uniqueNameSuffix := "_UQ"ₛ } exScript = some sets ∧ DdlRuns script (fun _ => none) d ∧
    Runs (changelogOps ⟨true, fun _ c => '?' :: c, onRename, onRetype⟩ sets) (fun _ => none) e ∧
    SameDb (LqEnv.system ⟨true, fun _ c => '?' :: c, onRename, onRetype⟩) false d e ∧ ¬SameTypes d e := by
  obtain ⟨script, sets, d, e, h1, h2, h3, h4, h5, h6⟩ := C144_exact ⟨true, fun _ c => '?' :: c, onRename, onRetype⟩ rfl some
    { uniqueNameSuffix := "_UQ"ₛ } exScript
    (by unfold UnescapedName; decide) (fun t ht => exScript_plain t (List.mem_filter.1 ht).1) (by decide)
    (fun t ht => (exScript_keys t (List.mem_filter.1 ht).1).2) (fun t ht => exScript_clean t (List.mem_filter.1 ht).1)
    (fun t ht => exScript_names t ht _ _) (by decide +kernel)
  refine ⟨script, sets, d, e, h1, h2, h3, h4, h5, fun hs => ?_⟩
  exact absurd (h6.1 hs _ (List.mem_of_getElem? (i := 1) rfl) _ (List.mem_of_getElem? (i := 0) rfl)) (by decide +kernel)

end Octo
