import Verif.Lemmas.Graphql
import Verif.Lemmas.ProtobufMessages
import Verif.Lemmas.Strcase

/-! Properties C65 and C104-C107: the GraphQL generator. -/

namespace Octo
open Spec Graphql

/-- The schema of the examples. -/
def gqlSchema : Schema :=
  { name := "shop"ₛ, version := "1.0"ₛ, tables := [
      { name := "t_user"ₛ, columns := [
          { name := "id"ₛ, type := "int64"ₛ, primaryKey := true, notNull := true },
          { name := "user_name"ₛ, type := "varchar"ₛ, size := 20, notNull := true },
          { name := "balance"ₛ, type := "decimal"ₛ, size := 10, scale := 2 },
          { name := "active"ₛ, type := "boolean"ₛ, notNull := true }] },
      { name := "user_item"ₛ, className := "Item"ₛ, columns := [
          { name := "user_id"ₛ, type := "int64"ₛ, primaryKey := true, notNull := true },
          { name := "no"ₛ, type := "int32"ₛ, primaryKey := true }] }] }

/-- The options of the examples. -/
def gqlOption : GqlOption := ⟨⟨[], [], false⟩, none, ["t_"ₛ]⟩

/-- A plural for the examples. -/
def withS (s : Str) : Str := s ++ "s"ₛ

theorem withS_clean : CleanPlural withS := by
  rintro s ⟨h1, h2⟩
  refine ⟨fun e => h1 (List.append_eq_nil_iff.1 e).1, ?_⟩
  unfold withS
  rw [List.all_append, h2]
  decide

theorem gqlOption_plain {s : Schema} (ht : ∀ t ∈ s.tables, HasAlnum (["t_"ₛ].foldl trimPrefix t.name) ∧
      (t.className = [] ∨ Ident t.className ∧ HasAlnum t.className))
    (hc : ∀ t ∈ s.tables, ∀ c ∈ t.columns, HasAlnum c.name) : PlainGql gqlOption s where
  tables := ht
  prefixes _ := rfl
  columns := hc

theorem gqlSchema_plain : PlainGql gqlOption gqlSchema := gqlOption_plain (by decide +kernel) (by decide +kernel)

/-- C65: a document that can be read has a type for each selected table, in order, after the schema and the queries; each type has a
field per column, in order, that is marked as non-null exactly when the column is not null or the only one of the key. -/
theorem C65_types {sc : Strcase} {plural : Str → Str} {o : GqlOption} {s : Schema} (hc : CleanCase sc) (hl : CleanPlural plural)
    (hp : PlainGql o s) (out : Str) {ds : List GqlDef} (h : readGql (generate sc plural o s out).2 = some ds) :
    ∃ schema query types, ds = schema :: query :: types ∧ schema.name = none ∧ query.name = some "Query"ₛ ∧
      List.Forall₂ (GqlDescribes sc o) (GqlSelected o s) types := by
  rw [read_generate hc hl hp] at h
  split at h
  · cases h
    refine ⟨_, _, _, rfl, rfl, rfl, ?_⟩
    rw [List.forall₂_map_right_iff, List.forall₂_same]
    exact fun t _ => def_describes sc o t
  · cases h

/-- C65: the file has the name and the version of the schema. -/
theorem C65_file (sc : Strcase) (plural : Str → Str) (o : GqlOption) (s : Schema) {out : Str} (h : out ≠ []) :
    (generate sc plural o s out).1 = [out, s.name ++ "-"ₛ ++ s.version ++ ".graphqls"ₛ] := by
  unfold generate Jpa.pathJoin
  dsimp only
  rw [List.filter_eq_self]
  intro a ha
  rcases List.mem_cons.1 ha with rfl | ha
  · exact decide_eq_true h
  · rw [List.mem_singleton.1 ha]
    exact decide_eq_true fun e => absurd (List.append_eq_nil_iff.1 e).2 (by decide)

/-- The hypotheses of C65 hold of the example; this is its document. -/
example : CleanCase strcase ∧ CleanPlural withS ∧ PlainGql gqlOption gqlSchema ∧
    (generate strcase withS gqlOption gqlSchema "out"ₛ).1 = ["out"ₛ, "shop-1.0.graphqls"ₛ] ∧
    readGql (generate strcase withS gqlOption gqlSchema "out"ₛ).2 = some [
      ⟨none, [("query"ₛ, .named "Query"ₛ)]⟩,
      ⟨some "Query"ₛ, [("users"ₛ, .list (.named "User"ₛ)), ("items"ₛ, .list (.named "Item"ₛ))]⟩,
      ⟨some "User"ₛ, [("id"ₛ, .nonNull (.named "ID"ₛ)), ("userName"ₛ, .nonNull (.named "String"ₛ)), ("balance"ₛ, .named "Float"ₛ),
        ("active"ₛ, .nonNull (.named "Boolean"ₛ))]⟩,
      ⟨some "Item"ₛ, [("userId"ₛ, .nonNull (.named "Int"ₛ)), ("no"ₛ, .named "Int"ₛ)]⟩] :=
  ⟨strcase_clean, withS_clean, gqlSchema_plain, by decide +kernel, by decide +kernel⟩

/-! ### C104: documents that can be read -/

/-- C104: the document can be read exactly when a table is selected, every selected table has columns, and no name starts with a
digit. -/
theorem C104_readable_partial {sc : Strcase} {plural : Str → Str} {o : GqlOption} {s : Schema} (hc : CleanCase sc) (hl : CleanPlural plural)
    (hp : PlainGql o s) (out : Str) : (readGql (generate sc plural o s out).2).isSome = true ↔
      GqlSelected o s ≠ [] ∧ ∀ t ∈ GqlSelected o s, GqlTable sc plural o t := by
  rw [read_generate hc hl hp]
  split
  · rename_i h; exact ⟨fun _ => h, fun _ => rfl⟩
  · rename_i h; exact ⟨fun e => (by cases e), fun e => absurd e h⟩

/-- The hypotheses of C104 hold of the example. -/
example : GqlSelected gqlOption gqlSchema ≠ [] ∧ ∀ t ∈ GqlSelected gqlOption gqlSchema, GqlTable strcase withS gqlOption t := by decide +kernel

/-- C104 is violated: without a selected table, or with a selected table without columns, the document cannot be read. -/
theorem C104_empty_violated {sc : Strcase} {plural : Str → Str} {o : GqlOption} {s : Schema} (hc : CleanCase sc) (hl : CleanPlural plural)
    (hp : PlainGql o s) (out : Str) (h : GqlSelected o s = [] ∨ ∃ t ∈ GqlSelected o s, t.columns = []) :
    readGql (generate sc plural o s out).2 = none := by
  rw [read_generate hc hl hp]
  refine if_neg fun e => ?_
  rcases h with h | ⟨t, ht, h⟩
  · exact e.1 h
  · exact (e.2 t ht).columns h

/-- C104 is violated: a name that starts with a digit makes the document unreadable. -/
theorem C104_digit_violated {sc : Strcase} {plural : Str → Str} {o : GqlOption} {s : Schema} (hc : CleanCase sc) (hl : CleanPlural plural)
    (hp : PlainGql o s) (out : Str) (h : ∃ t ∈ GqlSelected o s, StartsWithDigit (gqlTypeName sc o t) ∨
      ∃ c ∈ t.columns, StartsWithDigit (sc.toLowerCamel c.name)) : readGql (generate sc plural o s out).2 = none := by
  rw [read_generate hc hl hp]
  refine if_neg fun e => ?_
  obtain ⟨t, ht, h | ⟨c, hcm, h⟩⟩ := h
  · exact (e.2 t ht).type h
  · exact (e.2 t ht).fields c hcm h

/-- Schemas without tables, without columns and with a name that starts with a digit. -/
example : let s ts : Schema := { tables := ts }
    let t n cs : Table := { name := n, columns := cs }
    let a := [t "a"ₛ []]
    let b := [t "a"ₛ [{ name := "2nd"ₛ, type := "int32"ₛ }]]
    PlainGql gqlOption (s []) ∧ PlainGql gqlOption (s a) ∧ PlainGql gqlOption (s b) ∧
      [[], a, b].map (fun ts => readGql (generate strcase withS gqlOption (s ts) "out"ₛ).2) = [none, none, none] :=
  ⟨gqlOption_plain (by decide +kernel) (by decide +kernel), gqlOption_plain (by decide +kernel) (by decide +kernel),
    gqlOption_plain (by decide +kernel) (by decide +kernel), by decide +kernel⟩

/-! ### C105: valid documents -/

/-- C105: a document that can be read is valid exactly when the names of the types differ, also from the names of the generator and of
GraphQL, the names of the queries differ, and the fields of each type have different names. -/
theorem C105_valid_partial {sc : Strcase} {plural : Str → Str} {o : GqlOption} {s : Schema} (hc : CleanCase sc) (hl : CleanPlural plural)
    (hp : PlainGql o s) (out : Str) {ds : List GqlDef} (h : readGql (generate sc plural o s out).2 = some ds) : ValidGql ds ↔
      ("Query"ₛ :: (GqlSelected o s).map (gqlTypeName sc o)).Nodup ∧ ((GqlSelected o s).map (gqlQuery sc plural o)).Nodup ∧
      ∀ t ∈ GqlSelected o s, gqlTypeName sc o t ∉ gqlBuiltin ∧ ¬ ['_', '_'] <+: gqlTypeName sc o t ∧
        (t.columns.map fun c => sc.toLowerCamel c.name).Nodup := by
  rw [read_generate hc hl hp] at h
  split at h
  · cases h
    exact valid_doc hc hl hp fun t ht => (List.mem_filter.1 ht).1
  · cases h

/-- The document of the example is valid. -/
example : ∃ ds, readGql (generate strcase withS gqlOption gqlSchema "out"ₛ).2 = some ds ∧ ValidGql ds := by
  have h : (readGql (generate strcase withS gqlOption gqlSchema "out"ₛ).2).isSome = true := by decide +kernel
  obtain ⟨ds, hd⟩ := Option.isSome_iff_exists.1 h
  exact ⟨ds, hd, (C105_valid_partial strcase_clean withS_clean gqlSchema_plain _ hd).2 (by decide +kernel)⟩

/-- C105 is violated: the type of a table can have the name of the type of the queries. -/
theorem C105_valid_violated {sc : Strcase} {plural : Str → Str} {o : GqlOption} {s : Schema} (hc : CleanCase sc) (hl : CleanPlural plural)
    (hp : PlainGql o s) (out : Str) {ds : List GqlDef} (h : readGql (generate sc plural o s out).2 = some ds) {t : Table}
    (ht : t ∈ GqlSelected o s) (hn : gqlTypeName sc o t = "Query"ₛ ∨ gqlTypeName sc o t ∈ gqlBuiltin) : ¬ ValidGql ds := by
  rw [C105_valid_partial hc hl hp out h]
  rintro ⟨h1, _, h3⟩
  rcases hn with hn | hn
  · exact (List.nodup_cons.1 h1).1 (List.mem_map.2 ⟨t, ht, hn⟩)
  · exact (h3 t ht).1 hn

/-- A table whose type is called as the type of the queries, two tables with the same type, two columns with the same field. -/
example : let c n : Column := { name := n, type := "int32"ₛ }
    let t n cs : Table := { name := n, columns := cs }
    let s ts : Schema := { tables := ts }
    let bad := [[t "query"ₛ [c "id"ₛ]], [t "user"ₛ [c "id"ₛ], t "t_user"ₛ [c "id"ₛ]], [t "a"ₛ [c "user_id"ₛ, c "userId"ₛ]]]
    (∀ ts ∈ bad, (readGql (generate strcase withS gqlOption (s ts) "out"ₛ).2).isSome = true) ∧
      ∀ ts ∈ bad, PlainGql gqlOption (s ts) := by
  refine ⟨by decide +kernel, fun ts hts => ?_⟩
  refine gqlOption_plain ?_ ?_
  · revert ts; decide +kernel
  · revert ts; decide +kernel

/-! ### C106: queries -/

/-- C106: there is a query for each selected table, in order; it yields a list of the type of the table, and that type is defined. -/
theorem C106_queries {sc : Strcase} {plural : Str → Str} {o : GqlOption} {s : Schema} (hc : CleanCase sc) (hl : CleanPlural plural)
    (hp : PlainGql o s) (out : Str) {ds : List GqlDef} (h : readGql (generate sc plural o s out).2 = some ds) :
    ∃ schema query types, ds = schema :: query :: types ∧ schema.fields = [("query"ₛ, .named "Query"ₛ)] ∧ query.name = some "Query"ₛ ∧
      List.Forall₂ (fun t f => f = (gqlQuery sc plural o t, .list (.named (gqlTypeName sc o t))) ∧
        ∃ d ∈ types, d.name = some (gqlTypeName sc o t) ∧ GqlDescribes sc o t d) (GqlSelected o s) query.fields := by
  rw [read_generate hc hl hp] at h
  split at h
  · cases h
    refine ⟨_, _, _, rfl, rfl, rfl, ?_⟩
    show List.Forall₂ _ _ ((GqlSelected o s).map _)
    rw [List.forall₂_map_right_iff, List.forall₂_same]
    exact fun t ht => ⟨rfl, _, List.mem_map_of_mem ht, rfl, def_describes sc o t⟩
  · cases h

/-- C106: the document of the demo can be read. -/
example : ∃ ds, readGql (generate strcase withS gqlOption gqlSchema "out"ₛ).2 = some ds ∧ ds.length = 4 := by
  have h : (readGql (generate strcase withS gqlOption gqlSchema "out"ₛ).2).map List.length = some 4 := by decide +kernel
  obtain ⟨ds, hd, hl⟩ := Option.map_eq_some_iff.1 h
  exact ⟨ds, hd, hl⟩

/-! ### C107: numbers -/

theorem intBits_cases {x : Str} {b : Nat} (h : intBits.lookup x = some b) : (b ≤ 32 ∧ x ≠ "int64"ₛ) ∨ (b = 64 ∧ x = "int64"ₛ) := by
  have hm : ∀ p ∈ intBits, (p.2 ≤ 32 ∧ p.1 ≠ "int64"ₛ) ∨ (p.2 = 64 ∧ p.1 = "int64"ₛ) := by decide
  have : (x, b) ∈ intBits := by
    clear hm
    revert h
    unfold intBits
    intro h
    rw [List.lookup_eq_some_iff] at h
    obtain ⟨l1, l2, e, _⟩ := h
    rw [e]; simp
  exact hm _ this

/-- C107: a field of type `Int` can represent all numbers of its column exactly when the column has at most 32 bits. -/
theorem C107_range_partial {sc : Strcase} {t : Table} {c : Column} {f : Str × GqlType} (h : IsGqlField sc t c f) (hk : ¬ OnlyKey t c)
    (hi : lower c.type ∈ intBits.map Prod.fst) : f.2.bare = .named "Int"ₛ ∧ ((∀ v, IntValue c v → GqlInt v) ↔ lower c.type ≠ "int64"ₛ) := by
  have hty := h.type
  rw [if_neg hk] at hty
  have hs : ∀ x ∈ intBits.map Prod.fst, (gqlScalarOf.lookup x).getD "String"ₛ = "Int"ₛ ∧ (intBits.lookup x).isSome = true := by decide
  refine ⟨by rw [hty, (hs _ hi).1], ?_⟩
  obtain ⟨b, hb⟩ := Option.isSome_iff_exists.1 (hs _ hi).2
  constructor
  · intro hv e
    have := hv (2 ^ 40) ⟨64, by rw [e]; decide, by decide, by decide⟩
    exact absurd this.2 (by decide)
  · rintro hne v ⟨b', hb', h1, h2⟩
    have : b' ≤ 32 := by
      rcases intBits_cases hb' with h | h
      · exact h.1
      · exact absurd h.2 hne
    have hle : (2 : Int) ^ (b' - 1) ≤ 2 ^ (32 - 1) := by
      exact_mod_cast Nat.pow_le_pow_right (by decide : 0 < 2) (by omega : b' - 1 ≤ 32 - 1)
    exact ⟨le_trans (neg_le_neg hle) h1, lt_of_lt_of_le h2 hle⟩

/-- C107 is violated: a column of type `int64` that is not the key becomes an `Int`, which has 32 bits. -/
theorem C107_range_violated {sc : Strcase} {plural : Str → Str} {o : GqlOption} {s : Schema} (hc : CleanCase sc) (hl : CleanPlural plural)
    (hp : PlainGql o s) (out : Str) {ds : List GqlDef} (h : readGql (generate sc plural o s out).2 = some ds) {t : Table}
    (ht : t ∈ GqlSelected o s) {c : Column} (hcm : c ∈ t.columns) (hk : ¬ OnlyKey t c) (hi : lower c.type = "int64"ₛ) :
    ∃ d ∈ ds, d.name = some (gqlTypeName sc o t) ∧ ∃ f ∈ d.fields, IsGqlField sc t c f ∧ f.2.bare = .named "Int"ₛ ∧
      ∃ v, IntValue c v ∧ ¬ GqlInt v := by
  obtain ⟨schema, query, types, rfl, _, _, hd⟩ := C65_types hc hl hp out h
  obtain ⟨d, hdm, hd⟩ := forall₂_mem_left hd _ ht
  obtain ⟨f, hf, hfd⟩ := forall₂_mem_left hd.fields _ hcm
  refine ⟨d, List.mem_cons_of_mem _ (List.mem_cons_of_mem _ hdm), hd.name, f, hf, hfd, ?_⟩
  have := C107_range_partial hfd hk (by rw [hi]; decide)
  refine ⟨this.1, ?_⟩
  by_contra hn
  push Not at hn
  exact this.2.1 hn hi

/-- The second table of the example has such a column. -/
example : ∃ t ∈ GqlSelected gqlOption gqlSchema, ∃ c ∈ t.columns, ¬ OnlyKey t c ∧ lower c.type = "int64"ₛ := by decide +kernel

end Octo
