import Verif.Spec.Graphql
import Verif.Lemmas.Protobuf
import Verif.Lemmas.Str

/-! Lemmas about the GraphQL generator and reader. -/

namespace Octo.Graphql
open Spec

/-! ### Tokens -/

theorem lex_cons_ident (cur : Str) {c : Char} (h : isIdent c = true) (cs : Str) : gqlLex cur (c :: cs) = gqlLex (cur ++ [c]) cs := if_pos h

theorem lex_cons_sep (cur : Str) {c : Char} (h : isIdent c = false) (cs : Str) :
    gqlLex cur (c :: cs) = gqlWord cur ++ (if isBlank c = true ∨ c = ',' then [] else [[c]]) ++ gqlLex [] cs :=
  if_neg (by rw [h]; decide)

theorem lex_append {c : Char} (h : isIdent c = false) (b : Str) : ∀ (a cur : Str), gqlLex cur (a ++ c :: b) = gqlLex cur a ++ gqlLex [] (c :: b)
  | [], cur => by
    rw [List.nil_append, lex_cons_sep cur h, lex_cons_sep [] h, List.append_assoc, List.append_assoc]
    rfl
  | x :: a, cur => by
    rw [List.cons_append]
    cases hx : isIdent x
    · rw [lex_cons_sep cur hx, lex_cons_sep cur hx, lex_append h b a [], List.append_assoc, List.append_assoc, List.append_assoc]
    · rw [lex_cons_ident cur hx, lex_cons_ident cur hx, lex_append h b a]

theorem lex_all : ∀ (w cur : Str), w.all isIdent = true → gqlLex cur w = gqlWord (cur ++ w)
  | [], cur, _ => by rw [List.append_nil]; rfl
  | c :: w, cur, h => by
    rw [List.all_cons, Bool.and_eq_true] at h
    rw [lex_cons_ident cur h.1, lex_all w _ h.2, List.append_assoc]; rfl

theorem lex_ident {w : Str} (h : Ident w) : gqlLex [] w = [w] := by
  rw [lex_all w [] h.2, List.nil_append, gqlWord, if_neg h.1]

theorem lex_join : ∀ ls : List Str, gqlLex [] (join "\n"ₛ ls) = ls.flatMap (gqlLex [])
  | [] => rfl
  | [a] => by rw [List.flatMap_cons, List.flatMap_nil, List.append_nil]; rfl
  | a :: b :: l => by
    rw [join_cons_cons, List.flatMap_cons, ← lex_join (b :: l), List.append_assoc]
    exact lex_append (c := '\n') (by decide) _ a []

/-- The tokens of a type. -/
def typeTokens : GqlType → List Str
  | .named n => [n]
  | .list t => "["ₛ :: typeTokens t ++ ["]"ₛ]
  | .nonNull t => typeTokens t ++ ["!"ₛ]

/-- The tokens of a field. -/
def fieldTokens (f : Str × GqlType) : List Str := f.1 :: ":"ₛ :: typeTokens f.2

/-- The types of the generator. -/
def Simple (t : GqlType) : Prop := ∃ n, Ident n ∧ (t = .named n ∨ t = .nonNull (.named n) ∨ t = .list (.named n))

/-- A state that reads the next token as if it were before a field of a definition. -/
def Settled (st : GqlState) (defs : List GqlDef) (d : GqlDef) : Prop := ∀ tok, tok ≠ "!"ₛ → gqlStep st tok = gqlBody defs d tok

theorem settled_body (defs : List GqlDef) (d : GqlDef) : Settled (defs, .body d) defs d := fun _ _ => rfl

theorem settled_typed (defs : List GqlDef) (d : GqlDef) (n : Str) (t : GqlType) :
    Settled (defs, .typed d n t) defs { d with fields := d.fields ++ [(n, t)] } := fun _ h => if_neg fun e => h e.1

theorem ident_ne {s : Str} (h : Ident s) {c : Char} (hc : isIdent c = false) : s ≠ [c] := by
  rintro rfl
  have := h.2
  rw [List.all_cons, hc] at this
  cases this

theorem not_name_sep {c : Char} (h : isIdent c = false) : ¬ GqlName [c] := fun e => ident_ne e.1 h rfl

theorem foldlM_none {α β : Type} {f : β → α → Option β} {b : β} {a : α} {l : List α} (h : f b a = none) : (a :: l).foldlM f b = none := by
  rw [List.foldlM_cons, h]; rfl

theorem foldlM_some {α β : Type} {f : β → α → Option β} {b b' : β} {a : α} {l : List α} (h : f b a = some b') :
    (a :: l).foldlM f b = l.foldlM f b' := by
  rw [List.foldlM_cons, h]; rfl

theorem step_top (defs : List GqlDef) (tok : Str) : gqlStep (defs, .top) tok =
    if tok = "schema"ₛ then some (defs, .opening none) else if tok = "type"ₛ then some (defs, .type) else none := rfl

theorem step_type (defs : List GqlDef) (tok : Str) : gqlStep (defs, .type) tok =
    if GqlName tok then some (defs, .opening (some tok)) else none := rfl

theorem step_opening (defs : List GqlDef) (n : Option Str) (tok : Str) : gqlStep (defs, .opening n) tok =
    if tok = "{"ₛ then some (defs, .body ⟨n, []⟩) else none := rfl

theorem step_field (defs : List GqlDef) (d : GqlDef) (n tok : Str) : gqlStep (defs, .field d n) tok =
    if tok = ":"ₛ then some (defs, .colon d n) else none := rfl

theorem step_colon (defs : List GqlDef) (d : GqlDef) (n tok : Str) : gqlStep (defs, .colon d n) tok =
    if tok = "["ₛ then some (defs, .bracket d n) else if GqlName tok then some (defs, .typed d n (.named tok)) else none := rfl

theorem step_bracket (defs : List GqlDef) (d : GqlDef) (n tok : Str) : gqlStep (defs, .bracket d n) tok =
    if GqlName tok then some (defs, .item d n (.named tok)) else none := rfl

theorem step_item (defs : List GqlDef) (d : GqlDef) (n : Str) (t : GqlType) (tok : Str) : gqlStep (defs, .item d n t) tok =
    if tok = "]"ₛ then some (defs, .typed d n (.list t))
    else if tok = "!"ₛ ∧ t.isNonNull = false then some (defs, .item d n (.nonNull t)) else none := rfl

theorem step_typed (defs : List GqlDef) (d : GqlDef) (n : Str) (t : GqlType) (tok : Str) : gqlStep (defs, .typed d n t) tok =
    if tok = "!"ₛ ∧ t.isNonNull = false then some (defs, .typed d n (.nonNull t))
    else gqlBody defs { d with fields := d.fields ++ [(n, t)] } tok := rfl

theorem read_field {st : GqlState} {defs : List GqlDef} {d : GqlDef} (hs : Settled st defs d) {f : Str × GqlType} (hn : Ident f.1)
    (ht : Simple f.2) (rest : List Str) : (fieldTokens f ++ rest).foldlM gqlStep st =
      if GqlName f.1 ∧ GqlName f.2.base then rest.foldlM gqlStep (defs, .typed d f.1 f.2) else none := by
  obtain ⟨n, t⟩ := f
  dsimp only at hn ht ⊢
  have h1 : gqlStep st n = if GqlName n then some (defs, .field d n) else none := by
    rw [hs n (ident_ne hn (by decide)), gqlBody, if_neg (c := n = "}"ₛ) (ident_ne hn (c := '}') (by decide))]
  by_cases hN : GqlName n
  · rw [if_pos hN] at h1
    show (n :: ":"ₛ :: (typeTokens t ++ rest)).foldlM gqlStep st = _
    rw [foldlM_some h1, foldlM_some (b' := (defs, .colon d n)) ((step_field ..).trans (if_pos rfl))]
    obtain ⟨m, hm, ht⟩ := ht
    have hb : t.base = m := by rcases ht with rfl | rfl | rfl <;> rfl
    rw [hb]
    have hbr : m ≠ "["ₛ := ident_ne hm (c := '[') (by decide)
    by_cases hM : GqlName m
    · rw [if_pos ⟨hN, hM⟩]
      have h2 : gqlStep (defs, .colon d n) m = some (defs, .typed d n (.named m)) := by
        rw [step_colon, if_neg hbr, if_pos hM]
      rcases ht with rfl | rfl | rfl
      · show (m :: rest).foldlM gqlStep _ = _
        rw [foldlM_some h2]
      · show (m :: "!"ₛ :: rest).foldlM gqlStep _ = _
        rw [foldlM_some h2, foldlM_some (b' := (defs, .typed d n (.nonNull (.named m)))) ((step_typed ..).trans (if_pos ⟨rfl, rfl⟩))]
      · show ("["ₛ :: m :: "]"ₛ :: rest).foldlM gqlStep _ = _
        rw [foldlM_some (b' := (defs, .bracket d n)) ((step_colon ..).trans (if_pos rfl)), foldlM_some (b' := (defs, .item d n (.named m))) ((step_bracket ..).trans (if_pos hM)),
          foldlM_some (b' := (defs, .typed d n (.list (.named m)))) ((step_item ..).trans (if_pos rfl))]
    · rw [if_neg fun e => hM e.2]
      have h2 : gqlStep (defs, .colon d n) m = none := by
        rw [step_colon, if_neg hbr, if_neg hM]
      rcases ht with rfl | rfl | rfl
      · exact foldlM_none h2
      · exact foldlM_none h2
      · show ("["ₛ :: m :: "]"ₛ :: rest).foldlM gqlStep _ = _
        rw [foldlM_some (b' := (defs, .bracket d n)) ((step_colon ..).trans (if_pos rfl))]
        exact foldlM_none ((step_bracket ..).trans (if_neg hM))
  · rw [if_neg hN] at h1
    rw [if_neg fun e => hN e.1]
    exact foldlM_none h1

/-- A definition that can be read. -/
def GoodDef (d : GqlDef) : Prop :=
  (∀ n ∈ d.name.toList, GqlName n) ∧ (∀ f ∈ d.fields, GqlName f.1 ∧ GqlName f.2.base) ∧ d.fields ≠ []

instance (d : GqlDef) : Decidable (GoodDef d) := inferInstanceAs (Decidable (_ ∧ _))

/-- A definition of the generator. -/
def SimpleDef (d : GqlDef) : Prop := (∀ n ∈ d.name.toList, Ident n) ∧ ∀ f ∈ d.fields, Ident f.1 ∧ Simple f.2

theorem read_fields {defs : List GqlDef} (rest : List Str) : ∀ (fs : List (Str × GqlType)) {st : GqlState} {d : GqlDef}, Settled st defs d →
    (∀ f ∈ fs, Ident f.1 ∧ Simple f.2) → (fs.flatMap fieldTokens ++ "}"ₛ :: rest).foldlM gqlStep st =
      if (∀ f ∈ fs, GqlName f.1 ∧ GqlName f.2.base) ∧ d.fields ++ fs ≠ [] then
        rest.foldlM gqlStep (defs ++ [{ d with fields := d.fields ++ fs }], .top) else none
  | [], st, d, hs, _ => by
    rw [List.flatMap_nil, List.nil_append, List.append_nil]
    have h1 : gqlStep st "}"ₛ = if d.fields = [] then none else some (defs ++ [d], .top) := by
      rw [hs _ (by decide), gqlBody, if_pos rfl]
    by_cases hd : d.fields = []
    · rw [if_pos hd] at h1
      rw [if_neg fun e => e.2 hd]
      exact foldlM_none h1
    · rw [if_neg hd] at h1
      rw [if_pos ⟨by simp, hd⟩, foldlM_some h1]
  | f :: fs, st, d, hs, hf => by
    obtain ⟨h1, h2⟩ := List.forall_mem_cons.1 hf
    rw [List.flatMap_cons, List.append_assoc, read_field hs h1.1 h1.2, read_fields rest fs (settled_typed defs d f.1 f.2) h2]
    dsimp only
    by_cases hn : GqlName f.1 ∧ GqlName f.2.base
    · rw [if_pos hn]
      have e : d.fields ++ [(f.1, f.2)] ++ fs = d.fields ++ f :: fs := by rw [List.append_assoc]; rfl
      rw [e]
      refine if_congr (and_congr ?_ Iff.rfl) rfl rfl
      rw [List.forall_mem_cons]
      exact ⟨fun h => ⟨hn, h⟩, fun h => h.2⟩
    · rw [if_neg hn, if_neg fun e => hn (e.1 f (List.mem_cons_self ..))]

/-- The tokens of a definition. -/
def defTokens (d : GqlDef) : List Str :=
  (match d.name with | some n => ["type"ₛ, n] | none => ["schema"ₛ]) ++ "{"ₛ :: d.fields.flatMap fieldTokens ++ ["}"ₛ]

theorem read_def {d : GqlDef} (h : SimpleDef d) (defs : List GqlDef) (rest : List Str) : (defTokens d ++ rest).foldlM gqlStep (defs, .top) =
    if GoodDef d then rest.foldlM gqlStep (defs ++ [d], .top) else none := by
  obtain ⟨name, fs⟩ := d
  have key : (fs.flatMap fieldTokens ++ "}"ₛ :: rest).foldlM gqlStep (defs, .body ⟨name, []⟩) =
      if (∀ f ∈ fs, GqlName f.1 ∧ GqlName f.2.base) ∧ fs ≠ [] then rest.foldlM gqlStep (defs ++ [⟨name, fs⟩], .top) else none :=
    read_fields rest fs (settled_body defs _) h.2
  cases name with
  | none =>
    show ("schema"ₛ :: "{"ₛ :: (fs.flatMap fieldTokens ++ ["}"ₛ] ++ rest)).foldlM gqlStep _ = _
    rw [List.append_assoc, foldlM_some (b' := (defs, .opening none)) ((step_top ..).trans (if_pos rfl)),
      foldlM_some (b' := (defs, .body ⟨none, []⟩)) ((step_opening ..).trans (if_pos rfl))]
    refine key.trans (if_congr ?_ rfl rfl)
    exact ⟨fun h => ⟨fun _ hn => (by cases hn), h⟩, fun h => h.2⟩
  | some n =>
    show ("type"ₛ :: n :: "{"ₛ :: (fs.flatMap fieldTokens ++ ["}"ₛ] ++ rest)).foldlM gqlStep _ = _
    rw [List.append_assoc, foldlM_some (b' := (defs, .type)) (by rw [step_top, if_neg (by decide), if_pos rfl])]
    by_cases hn : GqlName n
    · rw [foldlM_some (b' := (defs, .opening (some n))) ((step_type ..).trans (if_pos hn)), foldlM_some (b' := (defs, .body ⟨some n, []⟩)) ((step_opening ..).trans (if_pos rfl))]
      refine key.trans (if_congr ?_ rfl rfl)
      exact ⟨fun h => ⟨fun m hm => by rw [List.mem_singleton.1 hm]; exact hn, h⟩, fun h => h.2⟩
    · rw [if_neg fun e => hn (e.1 n (List.mem_singleton.2 rfl))]
      exact foldlM_none ((step_type ..).trans (if_neg hn))

theorem read_defs : ∀ (ds defs : List GqlDef), (∀ d ∈ ds, SimpleDef d) → ((ds.flatMap defTokens).foldlM gqlStep (defs, .top)).bind gqlEnd =
    if ∀ d ∈ ds, GoodDef d then some (defs ++ ds) else none
  | [], defs, _ => by rw [if_pos (by simp), List.append_nil]; rfl
  | d :: ds, defs, h => by
    obtain ⟨h1, h2⟩ := List.forall_mem_cons.1 h
    rw [List.flatMap_cons, read_def h1]
    by_cases hd : GoodDef d
    · rw [if_pos hd, read_defs ds _ h2, List.append_assoc]
      refine if_congr ?_ rfl rfl
      rw [List.forall_mem_cons]
      exact ⟨fun h => ⟨hd, h⟩, fun h => h.2⟩
    · rw [if_neg hd, if_neg fun e => hd (e d (List.mem_cons_self ..))]; rfl

/-! ### The document of a schema -/

/-- The type of the field of a column. -/
def columnType (t : Table) (c : Column) : GqlType :=
  if OnlyKey t c then .nonNull (.named "ID"ₛ) else if c.notNull = true then .nonNull (.named (baseType c)) else .named (baseType c)

/-- The definition of a table. -/
def defOf (sc : Strcase) (o : GqlOption) (t : Table) : GqlDef :=
  ⟨some (gqlTypeName sc o t), t.columns.map fun c => (sc.toLowerCamel c.name, columnType t c)⟩

/-- The definition of the queries. -/
def queryDef (sc : Strcase) (plural : Str → Str) (o : GqlOption) (ts : List Table) : GqlDef :=
  ⟨some "Query"ₛ, ts.map fun t => (gqlQuery sc plural o t, .list (.named (gqlTypeName sc o t)))⟩

/-- The definition of the schema. -/
def schemaDef : GqlDef := ⟨none, [("query"ₛ, .named "Query"ₛ)]⟩

/-- The document of the tables. -/
def docOf (sc : Strcase) (plural : Str → Str) (o : GqlOption) (ts : List Table) : List GqlDef :=
  schemaDef :: queryDef sc plural o ts :: ts.map (defOf sc o)

theorem className_eq (sc : Strcase) (o : GqlOption) (t : Table) : className sc o t = gqlTypeName sc o t := by
  unfold className gqlTypeName
  refine if_congr Iff.rfl ?_ rfl
  dsimp only
  split
  · rfl
  · rename_i h
    rw [not_ne_iff.1 h, List.nil_append]

theorem selected_eq (o : GqlOption) (s : Schema) : s.tables.filter (passes o.tableFilter) = GqlSelected o s := by
  refine List.filter_congr fun t _ => ?_
  unfold passes
  cases o.tableFilter <;> rfl

/-- The type text of a field. -/
def fieldText (t : Table) (c : Column) : Str :=
  if OnlyKey t c then "ID!"ₛ else if c.notNull = true then baseType c ++ "!"ₛ else baseType c

theorem pk_length (sc : Strcase) (t : Table) : (((t.columns.map (newField sc)).filter (·.column.primaryKey)).length = 1) ↔
    (t.columns.filter (·.primaryKey)).length = 1 := by
  rw [List.filter_map, List.length_map]
  rfl

theorem newClass_fields (sc : Strcase) (o : GqlOption) (t : Table) :
    (newClass sc o t).fields.map (fun f => (f.name, f.type)) = t.columns.map fun c => (sc.toLowerCamel c.name, fieldText t c) := by
  unfold newClass
  dsimp only
  by_cases h : (t.columns.filter (·.primaryKey)).length = 1
  · rw [if_pos ((pk_length sc t).2 h), List.map_map, List.map_map]
    refine List.map_congr_left fun c _ => ?_
    dsimp only [Function.comp]
    unfold fieldText
    cases hp : c.primaryKey
    · rw [if_neg fun e : OnlyKey t c => absurd e.1 (by rw [hp]; decide)]
      rw [if_neg (by show ¬ c.primaryKey = true; rw [hp]; decide)]
      rfl
    · rw [if_pos (c := OnlyKey t c) ⟨hp, h⟩, if_pos (show (newField sc c).column.primaryKey = true from hp)]
      rfl
  · rw [if_neg fun e => h ((pk_length sc t).1 e), List.map_map]
    refine List.map_congr_left fun c _ => ?_
    unfold fieldText
    rw [if_neg fun e : OnlyKey t c => h e.2]
    rfl

theorem baseType_ident (c : Column) : baseType c ∈ gqlBuiltin := by
  unfold baseType
  dsimp only
  split_ifs <;> decide

theorem builtin_name : ∀ n ∈ gqlBuiltin, GqlName n := by decide

theorem lex_type (t : Table) (c : Column) : gqlLex [] (fieldText t c) = typeTokens (columnType t c) := by
  have hb : Ident (baseType c) := (builtin_name _ (baseType_ident c)).1
  unfold fieldText columnType
  split
  · decide
  · split
    · rw [show baseType c ++ "!"ₛ = baseType c ++ '!' :: [] from rfl, lex_append (by decide), lex_ident hb]
      rfl
    · exact lex_ident hb

theorem simple_type (t : Table) (c : Column) : Simple (columnType t c) := by
  have hb : Ident (baseType c) := (builtin_name _ (baseType_ident c)).1
  unfold columnType
  split
  · exact ⟨_, by decide, Or.inr (Or.inl rfl)⟩
  · split
    · exact ⟨_, hb, Or.inr (Or.inl rfl)⟩
    · exact ⟨_, hb, Or.inl rfl⟩

theorem base_type (t : Table) (c : Column) : (columnType t c).base ∈ gqlBuiltin := by
  unfold columnType
  split
  · decide
  · split
    · exact baseType_ident c
    · exact baseType_ident c

theorem ident_typeName {sc : Strcase} {o : GqlOption} {s : Schema} (hc : CleanCase sc) (hp : PlainGql o s) {t : Table} (ht : t ∈ s.tables) :
    Ident (gqlTypeName sc o t) ∧ HasAlnum (gqlTypeName sc o t) := by
  obtain ⟨h1, h2⟩ := hp.tables t ht
  unfold gqlTypeName
  split
  · have ha := (hc _ h1).1
    have : Alnum (o.prefixMapper.getPrefix t.group ++ sc.toCamel (o.removePrefixes.foldl trimPrefix t.name)) :=
      ⟨fun e => ha.1 (List.append_eq_nil_iff.1 e).2, by rw [List.all_append, hp.prefixes, ha.2]; rfl⟩
    refine ⟨alnum_ident this, ?_⟩
    obtain ⟨c, r, hr⟩ := List.exists_cons_of_ne_nil this.1
    have h3 := this.2
    rw [hr, List.all_cons, Bool.and_eq_true] at h3
    rw [hr]
    show (c :: r).any isAlnum = true
    rw [List.any_cons, h3.1]; rfl
  · rename_i h
    exact h2.resolve_left h

theorem ident_query {sc : Strcase} {plural : Str → Str} {o : GqlOption} {s : Schema} (hc : CleanCase sc) (hl : CleanPlural plural)
    (hp : PlainGql o s) {t : Table} (ht : t ∈ s.tables) : Ident (gqlQuery sc plural o t) :=
  alnum_ident (hl _ (hc _ (ident_typeName hc hp ht).2).2)

theorem ident_field {sc : Strcase} {o : GqlOption} {s : Schema} (hc : CleanCase sc) (hp : PlainGql o s) {t : Table} (ht : t ∈ s.tables)
    {c : Column} (h : c ∈ t.columns) : Ident (sc.toLowerCamel c.name) := alnum_ident (hc _ (hp.columns t ht c h)).2

/-! ### The text -/

theorem lex_blank (s : Str) : gqlLex [] (' ' :: s) = gqlLex [] s := rfl

theorem lex_class {sc : Strcase} {o : GqlOption} {s : Schema} (hc : CleanCase sc) (hp : PlainGql o s) {t : Table} (ht : t ∈ s.tables) :
    (classLines (newClass sc o t)).flatMap (gqlLex []) = defTokens (defOf sc o t) := by
  have hname : (newClass sc o t).name = gqlTypeName sc o t := className_eq sc o t
  unfold classLines defTokens
  rw [List.flatMap_append, List.flatMap_cons, hname]
  have h1 : gqlLex [] (indented 0 ("type "ₛ ++ gqlTypeName sc o t ++ " {"ₛ)) = ["type"ₛ, gqlTypeName sc o t, "{"ₛ] := by
    show gqlLex [] ("type "ₛ ++ gqlTypeName sc o t ++ ' ' :: ['{']) = _
    rw [lex_append (by decide), show "type "ₛ ++ gqlTypeName sc o t = "type"ₛ ++ ' ' :: gqlTypeName sc o t from rfl, lex_append (by decide),
      lex_blank, lex_ident (ident_typeName hc hp ht).1]
    rfl
  have h2 : ((newClass sc o t).fields.map (fun f => indented 1 (f.name ++ ": "ₛ ++ f.type))).flatMap (gqlLex []) =
      (defOf sc o t).fields.flatMap fieldTokens := by
    have e : (newClass sc o t).fields.map (fun f => indented 1 (f.name ++ ": "ₛ ++ f.type)) =
        ((newClass sc o t).fields.map fun f => (f.name, f.type)).map fun p => indented 1 (p.1 ++ ": "ₛ ++ p.2) := by rw [List.map_map]; rfl
    rw [e, newClass_fields, List.map_map, List.flatMap_map]
    show _ = List.flatMap fieldTokens (t.columns.map _)
    rw [List.flatMap_map]
    refine List.flatMap_congr fun c hcm => ?_
    show gqlLex [] (' ' :: ' ' :: (sc.toLowerCamel c.name ++ ": "ₛ ++ fieldText t c)) = _
    rw [lex_blank, lex_blank, show sc.toLowerCamel c.name ++ ": "ₛ ++ fieldText t c = sc.toLowerCamel c.name ++ ':' :: ' ' :: fieldText t c by
      rw [List.append_assoc]; rfl, lex_append (by decide), lex_ident (ident_field hc hp ht hcm), lex_cons_sep [] (by decide), lex_blank, lex_type]
    rfl
  rw [h1, h2]
  rfl

theorem lex_contents {sc : Strcase} {plural : Str → Str} {o : GqlOption} {s : Schema} (hc : CleanCase sc) (hl : CleanPlural plural)
    (hp : PlainGql o s) : (contents sc plural o s).flatMap (gqlLex []) = (docOf sc plural o (GqlSelected o s)).flatMap defTokens := by
  have hm : ∀ t ∈ GqlSelected o s, t ∈ s.tables := fun t ht => (List.mem_filter.1 ht).1
  unfold contents docOf
  dsimp only
  rw [selected_eq]
  generalize GqlSelected o s = ts at hm
  have h1 : ((ts.map (newClass sc o)).map fun k => indented 1 (plural (sc.toLowerCamel k.name) ++ ": ["ₛ ++ k.name ++ "]"ₛ)).flatMap (gqlLex []) =
      (queryDef sc plural o ts).fields.flatMap fieldTokens := by
    unfold queryDef
    rw [List.map_map, List.flatMap_map, List.flatMap_map]
    refine List.flatMap_congr fun t ht => ?_
    have hname : (newClass sc o t).name = gqlTypeName sc o t := className_eq sc o t
    dsimp only [Function.comp]
    rw [hname]
    show gqlLex [] (' ' :: ' ' :: (gqlQuery sc plural o t ++ ": ["ₛ ++ gqlTypeName sc o t ++ "]"ₛ)) = _
    rw [lex_blank, lex_blank, show gqlQuery sc plural o t ++ ": ["ₛ ++ gqlTypeName sc o t ++ "]"ₛ =
      (gqlQuery sc plural o t ++ ':' :: ' ' :: '[' :: gqlTypeName sc o t) ++ ']' :: [] by rw [List.append_assoc _ ": ["ₛ]; rfl,
      lex_append (by decide), lex_append (by decide), lex_ident (ident_query hc hl hp (hm t ht)), lex_cons_sep [] (by decide), lex_blank,
      lex_cons_sep [] (by decide), lex_ident (ident_typeName hc hp (hm t ht)).1]
    rfl
  have h2 : ((ts.map (newClass sc o)).flatMap classLines).flatMap (gqlLex []) = (ts.map (defOf sc o)).flatMap defTokens := by
    rw [List.flatMap_map, List.flatMap_assoc, List.flatMap_map]
    exact List.flatMap_congr fun t ht => lex_class hc hp (hm t ht)
  rw [List.flatMap_append, List.flatMap_append, List.flatMap_append, h1, h2, List.flatMap_cons (x := schemaDef), List.flatMap_cons (x := queryDef sc plural o ts)]
  have h3 : [indented 0 "schema {\n    query: Query\n}\n"ₛ, indented 0 "type Query {"ₛ].flatMap (gqlLex []) =
      defTokens schemaDef ++ ["type"ₛ, "Query"ₛ, "{"ₛ] := by decide
  have h4 : [indented 0 "}"ₛ, indented 0 []].flatMap (gqlLex []) = ["}"ₛ] := by decide
  rw [h3, h4]
  show _ = _ ++ ((["type"ₛ, "Query"ₛ] ++ "{"ₛ :: _ ++ ["}"ₛ]) ++ _)
  simp only [List.append_assoc, List.cons_append, List.nil_append]

theorem simple_doc {sc : Strcase} {plural : Str → Str} {o : GqlOption} {s : Schema} (hc : CleanCase sc) (hl : CleanPlural plural)
    (hp : PlainGql o s) {ts : List Table} (hm : ∀ t ∈ ts, t ∈ s.tables) : ∀ d ∈ docOf sc plural o ts, SimpleDef d := by
  intro d hd
  rcases List.mem_cons.1 hd with rfl | hd
  · refine ⟨fun _ h => (by cases h), fun f hf => ?_⟩
    rw [List.mem_singleton.1 hf]
    exact ⟨by decide, _, by decide, Or.inl rfl⟩
  rcases List.mem_cons.1 hd with rfl | hd
  · refine ⟨fun _ h => by rw [List.mem_singleton.1 h]; decide, fun f hf => ?_⟩
    obtain ⟨t, ht, rfl⟩ := List.mem_map.1 hf
    exact ⟨ident_query hc hl hp (hm t ht), _, (ident_typeName hc hp (hm t ht)).1, Or.inr (Or.inr rfl)⟩
  · obtain ⟨t, ht, rfl⟩ := List.mem_map.1 hd
    refine ⟨fun _ h => by rw [List.mem_singleton.1 h]; exact (ident_typeName hc hp (hm t ht)).1, fun f hf => ?_⟩
    obtain ⟨c, hcm, rfl⟩ := List.mem_map.1 hf
    exact ⟨ident_field hc hp (hm t ht) hcm, simple_type t c⟩

theorem good_doc {sc : Strcase} {plural : Str → Str} {o : GqlOption} {s : Schema} (hc : CleanCase sc) (hl : CleanPlural plural)
    (hp : PlainGql o s) {ts : List Table} (hm : ∀ t ∈ ts, t ∈ s.tables) :
    (∀ d ∈ docOf sc plural o ts, GoodDef d) ↔ ts ≠ [] ∧ ∀ t ∈ ts, GqlTable sc plural o t := by
  unfold docOf
  rw [List.forall_mem_cons, List.forall_mem_cons]
  have hschema : GoodDef schemaDef := by decide
  constructor
  · rintro ⟨_, h1, h2⟩
    refine ⟨fun e => h1.2.2 (by rw [e]; rfl), fun t ht => ?_⟩
    have hd := h2 _ (List.mem_map_of_mem ht)
    refine ⟨(hd.1 _ (List.mem_singleton.2 rfl)).2, (h1.2.1 _ (List.mem_map_of_mem ht)).1.2, fun e => hd.2.2 ?_, fun c hcm => ?_⟩
    · show t.columns.map _ = []
      rw [e]; rfl
    · exact (hd.2.1 _ (List.mem_map_of_mem hcm)).1.2
  · rintro ⟨hne, h⟩
    refine ⟨hschema, ⟨fun n hn => by rw [List.mem_singleton.1 hn]; decide, fun f hf => ?_, fun e => hne (List.map_eq_nil_iff.1 e)⟩, fun d hd => ?_⟩
    · obtain ⟨t, ht, rfl⟩ := List.mem_map.1 hf
      exact ⟨⟨ident_query hc hl hp (hm t ht), (h t ht).query⟩, ⟨(ident_typeName hc hp (hm t ht)).1, (h t ht).type⟩⟩
    · obtain ⟨t, ht, rfl⟩ := List.mem_map.1 hd
      refine ⟨fun n hn => ?_, fun f hf => ?_, fun e => (h t ht).columns (List.map_eq_nil_iff.1 e)⟩
      · rw [List.mem_singleton.1 hn]
        exact ⟨(ident_typeName hc hp (hm t ht)).1, (h t ht).type⟩
      · obtain ⟨c, hcm, rfl⟩ := List.mem_map.1 hf
        exact ⟨⟨ident_field hc hp (hm t ht) hcm, (h t ht).fields c hcm⟩, builtin_name _ (base_type t c)⟩

theorem read_generate {sc : Strcase} {plural : Str → Str} {o : GqlOption} {s : Schema} (hc : CleanCase sc) (hl : CleanPlural plural)
    (hp : PlainGql o s) (out : Str) : readGql (generate sc plural o s out).2 =
      if GqlSelected o s ≠ [] ∧ ∀ t ∈ GqlSelected o s, GqlTable sc plural o t then some (docOf sc plural o (GqlSelected o s)) else none := by
  have hm : ∀ t ∈ GqlSelected o s, t ∈ s.tables := fun t ht => (List.mem_filter.1 ht).1
  show ((gqlLex [] (join "\n"ₛ (contents sc plural o s))).foldlM gqlStep ([], .top)).bind gqlEnd = _
  rw [lex_join, lex_contents hc hl hp, read_defs _ _ (simple_doc hc hl hp hm), List.nil_append]
  exact if_congr (good_doc hc hl hp hm) rfl rfl

/-! ### Descriptions -/

theorem baseType_eq (c : Column) : baseType c = (gqlScalarOf.lookup (lower c.type)).getD "String"ₛ := by
  unfold baseType
  dsimp only
  generalize lower c.type = x
  by_cases hx : x ∈ gqlScalarOf.map Prod.fst
  · revert x
    decide
  · have h1 : gqlScalarOf.lookup x = none := by
      rw [List.lookup_eq_none_iff]
      intro p hp
      rw [bne_iff_ne]
      rintro rfl
      exact hx (List.mem_map_of_mem hp)
    rw [h1]
    have h2 : ∀ l : List Str, l ⊆ gqlScalarOf.map Prod.fst → x ∉ l := fun l hl h => hx (hl h)
    rw [if_neg (c := x = "boolean"ₛ) (fun e => hx (e ▸ by decide)),
      if_neg (c := x ∈ ["int8"ₛ, "int16"ₛ, "int24"ₛ, "int32"ₛ, "int64"ₛ]) (h2 _ (by decide)),
      if_neg (c := x ∈ ["decimal"ₛ, "float"ₛ, "double"ₛ]) (h2 _ (by decide)), ite_self]
    rfl

theorem def_describes (sc : Strcase) (o : GqlOption) (t : Table) : GqlDescribes sc o t (defOf sc o t) := by
  refine ⟨rfl, ?_⟩
  show List.Forall₂ _ _ (t.columns.map _)
  rw [List.forall₂_map_right_iff, List.forall₂_same]
  intro c _
  refine ⟨rfl, ?_, ?_⟩
  · show (columnType t c).isNonNull = true ↔ _
    unfold columnType
    by_cases h : OnlyKey t c
    · rw [if_pos h]; exact ⟨fun _ => Or.inr h, fun _ => rfl⟩
    · rw [if_neg h]
      by_cases hn : c.notNull = true
      · rw [if_pos hn]; exact ⟨fun _ => Or.inl hn, fun _ => rfl⟩
      · rw [if_neg hn]; exact ⟨fun e => (by cases e), fun e => absurd e (not_or.2 ⟨hn, h⟩)⟩
  · show (columnType t c).bare = _
    unfold columnType
    by_cases h : OnlyKey t c
    · rw [if_pos h, if_pos h]; rfl
    · rw [if_neg h, if_neg h, ← baseType_eq]
      split <;> rfl

/-! ### Valid documents -/

theorem doc_names (sc : Strcase) (plural : Str → Str) (o : GqlOption) (ts : List Table) :
    (docOf sc plural o ts).filterMap (·.name) = "Query"ₛ :: ts.map (gqlTypeName sc o) := by
  unfold docOf
  rw [List.filterMap_cons_none rfl, List.filterMap_cons_some (f := fun d : GqlDef => d.name) (a := queryDef sc plural o ts) (b := "Query"ₛ) rfl, List.filterMap_map]
  congr 1
  exact congrFun (List.filterMap_eq_map (f := gqlTypeName sc o)) ts

theorem valid_doc {sc : Strcase} {plural : Str → Str} {o : GqlOption} {s : Schema} (hc : CleanCase sc) (hl : CleanPlural plural)
    (hp : PlainGql o s) {ts : List Table} (hm : ∀ t ∈ ts, t ∈ s.tables) : ValidGql (docOf sc plural o ts) ↔
      ("Query"ₛ :: ts.map (gqlTypeName sc o)).Nodup ∧ (ts.map (gqlQuery sc plural o)).Nodup ∧
      ∀ t ∈ ts, gqlTypeName sc o t ∉ gqlBuiltin ∧ ¬ ['_', '_'] <+: gqlTypeName sc o t ∧ (t.columns.map fun c => sc.toLowerCamel c.name).Nodup := by
  have hq : (queryDef sc plural o ts).fields.map Prod.fst = ts.map (gqlQuery sc plural o) := by
    show (ts.map _).map _ = _
    rw [List.map_map]; rfl
  have hf : ∀ t, (defOf sc o t).fields.map Prod.fst = t.columns.map fun c => sc.toLowerCamel c.name := by
    intro t
    show (t.columns.map _).map _ = _
    rw [List.map_map]; rfl
  have hal : ∀ w : Str, Alnum w → ¬ ['_', '_'] <+: w := by
    rintro w ⟨_, hw⟩ ⟨r, rfl⟩
    rw [List.all_append] at hw
    exact absurd (Bool.and_eq_true _ _ ▸ hw : _ ∧ _).1 (by decide)
  constructor
  · intro h
    have ht := h.types
    rw [doc_names] at ht
    refine ⟨ht, ?_, fun t htm => ⟨?_, ?_, ?_⟩⟩
    · rw [← hq]
      exact h.fields _ (List.mem_cons_of_mem _ (List.mem_cons_self ..))
    · exact h.scalars _ (by rw [doc_names]; exact List.mem_cons_of_mem _ (List.mem_map_of_mem htm))
    · exact h.reserved _ (Or.inl (by rw [doc_names]; exact List.mem_cons_of_mem _ (List.mem_map_of_mem htm)))
    · rw [← hf]
      exact h.fields _ (List.mem_cons_of_mem _ (List.mem_cons_of_mem _ (List.mem_map_of_mem htm)))
  · rintro ⟨h1, h2, h3⟩
    refine ⟨?_, by rw [doc_names]; exact h1, ?_, ?_, ?_, ?_⟩
    · unfold docOf
      rw [List.filter_cons_of_pos rfl, List.filter_cons_of_neg Bool.false_ne_true, List.filter_eq_nil_iff.2]
      · rfl
      · intro d hd
        obtain ⟨t, _, rfl⟩ := List.mem_map.1 hd
        exact Bool.false_ne_true
    · intro n hn
      rw [doc_names] at hn
      rcases List.mem_cons.1 hn with rfl | hn
      · decide
      · obtain ⟨t, ht, rfl⟩ := List.mem_map.1 hn
        exact (h3 t ht).1
    · intro d hd
      rcases List.mem_cons.1 hd with rfl | hd
      · decide
      rcases List.mem_cons.1 hd with rfl | hd
      · rw [hq]; exact h2
      · obtain ⟨t, ht, rfl⟩ := List.mem_map.1 hd
        rw [hf]; exact (h3 t ht).2.2
    · rw [doc_names]
      intro d hd f hfm
      rcases List.mem_cons.1 hd with rfl | hd
      · rw [List.mem_singleton.1 hfm]; exact Or.inr (List.mem_cons_self ..)
      rcases List.mem_cons.1 hd with rfl | hd
      · obtain ⟨t, ht, rfl⟩ := List.mem_map.1 hfm
        exact Or.inr (List.mem_cons_of_mem _ (List.mem_map_of_mem ht))
      · obtain ⟨t, ht, rfl⟩ := List.mem_map.1 hd
        obtain ⟨c, _, rfl⟩ := List.mem_map.1 hfm
        exact Or.inl (base_type t c)
    · rw [doc_names]
      rintro n (hn | ⟨d, hd, hn⟩)
      · rcases List.mem_cons.1 hn with rfl | hn
        · decide
        · obtain ⟨t, ht, rfl⟩ := List.mem_map.1 hn
          exact (h3 t ht).2.1
      · rcases List.mem_cons.1 hd with rfl | hd
        · rw [List.mem_singleton.1 hn]; decide
        rcases List.mem_cons.1 hd with rfl | hd
        · rw [hq] at hn
          obtain ⟨t, ht, rfl⟩ := List.mem_map.1 hn
          exact hal _ (hl _ (hc _ (ident_typeName hc hp (hm t ht)).2).2)
        · obtain ⟨t, ht, rfl⟩ := List.mem_map.1 hd
          rw [hf] at hn
          obtain ⟨c, hcm, rfl⟩ := List.mem_map.1 hn
          exact hal _ (hc _ (hp.columns t (hm t ht) c hcm)).2

end Octo.Graphql
