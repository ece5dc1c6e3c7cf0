import Verif.Lemmas.Quickdbd
import Verif.Model.Plantuml
import Verif.Spec.Plantuml

/-! Lemmas about the PlantUML generator: what it writes is read by the PlantUML reader. -/

namespace Octo.Plantuml
open Spec

theorem rel_eq (r : Reference) : relationshipType r = puRel r.relationship := by
  unfold relationshipType puRel
  by_cases h1 : r.relationship = "n:1"ₛ
  · rw [if_pos h1, h1]; rfl
  · by_cases h2 : r.relationship = "1:n"ₛ
    · rw [if_neg h1, if_pos h2, h2]; rfl
    · by_cases h3 : r.relationship = "1:1"ₛ
      · rw [if_neg h1, if_neg h2, if_pos h3, h3]; rfl
      · rw [if_neg h1, if_neg h2, if_neg h3, List.lookup_cons, beq_eq_false_iff_ne.2 h1]
        dsimp only
        rw [List.lookup_cons, beq_eq_false_iff_ne.2 h2]
        dsimp only
        rw [List.lookup_cons, beq_eq_false_iff_ne.2 h3]
        rfl

theorem rel_ok (r : Str) : puRel r ∈ puRels ∧ Good sqlSep (puRel r) ∧ puRel r ≠ [] ∧ '\n' ∉ puRel r := by
  have hc : puRel r = "}o-||"ₛ ∨ puRel r = "||-o{"ₛ ∨ puRel r = "||-||"ₛ := by
    rw [← rel_eq ⟨[], [], r⟩]
    unfold relationshipType
    split
    · exact Or.inl rfl
    · split
      · exact Or.inr (Or.inl rfl)
      · split
        · exact Or.inr (Or.inr rfl)
        · exact Or.inl rfl
  rcases hc with h | h | h <;>
    (rw [h]; exact ⟨by decide, good_literal _ (by decide), by decide, by decide⟩)

/-! ### Columns -/

/-- The column as read. -/
def readColumn (c : Column) : PuColumn := ⟨c.name, c.type, c.notNull, c.primaryKey, c.uniqueKey, c.ref.isSome⟩

def tags (c : Column) : List Str :=
  (if c.primaryKey then ["<<PK>>"ₛ] else []) ++ (if c.uniqueKey then ["<<UQ>>"ₛ] else []) ++
  (if c.ref ≠ none then ["<<FK>>"ₛ] else [])

/-- The tokens of a column. -/
def columnToks (c : Column) : List Str :=
  (if c.notNull then ["*"ₛ] else []) ++ (c.name ++ ":"ₛ) :: c.type :: tags c

theorem columnDef_eq (c : Column) : columnDef c = join " "ₛ (columnToks c) := by
  have e : join " "ₛ ((c.name ++ ":"ₛ) :: c.type :: tags c) = c.name ++ ": "ₛ ++ c.type ++
      (if c.primaryKey then " <<PK>>"ₛ else []) ++ (if c.uniqueKey then " <<UQ>>"ₛ else []) ++
      (if c.ref ≠ none then " <<FK>>"ₛ else []) := by
    rw [Quickdbd.join_space]
    unfold tags
    have h : ∀ (p : Prop) [Decidable p] (k : Str), (if p then [k] else []).flatMap (fun y => " "ₛ ++ y) =
        if p then " "ₛ ++ k else [] := by
      intro p _ k
      by_cases hp : p
      · rw [if_pos hp, if_pos hp]; simp only [List.flatMap_cons, List.flatMap_nil, List.append_nil]
      · rw [if_neg hp, if_neg hp]; rfl
    rw [List.flatMap_cons, List.flatMap_append, List.flatMap_append, h, h, h]
    simp only [List.append_assoc]
    rfl
  unfold columnDef columnToks
  cases c.notNull with
  | false =>
    show [] ++ c.name ++ _ ++ _ ++ _ ++ _ ++ _ = join " "ₛ ((c.name ++ ":"ₛ) :: c.type :: tags c)
    rw [e, List.nil_append]
  | true =>
    show "* "ₛ ++ c.name ++ _ ++ _ ++ _ ++ _ ++ _ = join " "ₛ ("*"ₛ :: (c.name ++ ":"ₛ) :: c.type :: tags c)
    rw [join_cons_cons, e]
    simp only [List.append_assoc]
    rfl

theorem tags_mem {c : Column} {x : Str} (h : x ∈ tags c) : x = "<<PK>>"ₛ ∨ x = "<<UQ>>"ₛ ∨ x = "<<FK>>"ₛ := by
  unfold tags at h
  simp only [List.mem_append] at h
  rcases h with (h | h) | h
  · split at h
    · exact Or.inl (List.mem_singleton.1 h)
    · cases h
  · split at h
    · exact Or.inr (Or.inl (List.mem_singleton.1 h))
    · cases h
  · split at h
    · exact Or.inr (Or.inr (List.mem_singleton.1 h))
    · cases h

theorem toks_ok {c : Column} (hn : Ident c.name) (ht : Ident c.type) :
    ∀ x ∈ columnToks c, Good sqlSep x ∧ x ≠ [] ∧ '\n' ∉ x := by
  intro x hx
  unfold columnToks at hx
  rcases List.mem_append.1 hx with hx | hx
  · split at hx
    · rw [List.mem_singleton.1 hx]; exact ⟨good_literal _ (by decide), by decide, by decide⟩
    · cases hx
  rcases List.mem_cons.1 hx with rfl | hx
  · exact ⟨.append _ _ (good_ident hn) (good_literal _ (by decide)), by simp, newline_append (newline_ident hn) (by decide)⟩
  rcases List.mem_cons.1 hx with rfl | hx
  · exact ⟨good_ident ht, ht.1, newline_ident ht⟩
  rcases tags_mem hx with rfl | rfl | rfl <;> exact ⟨good_literal _ (by decide), by decide, by decide⟩

theorem body_read (c : Column) (m : Bool) :
    readPuBody m ((c.name ++ ":"ₛ) :: c.type :: tags c) =
      some ⟨c.name, c.type, m, c.primaryKey, c.uniqueKey, c.ref.isSome⟩ := by
  have h1 : (tags c).all (fun x => x == "<<PK>>"ₛ || x == "<<UQ>>"ₛ || x == "<<FK>>"ₛ) = true := by
    rw [List.all_eq_true]
    intro x hx
    rcases tags_mem hx with rfl | rfl | rfl <;> decide
  have h2 : (tags c).contains "<<PK>>"ₛ = c.primaryKey ∧ (tags c).contains "<<UQ>>"ₛ = c.uniqueKey ∧
      (tags c).contains "<<FK>>"ₛ = c.ref.isSome := by
    have e : tags c = (if c.primaryKey then ["<<PK>>"ₛ] else []) ++ (if c.uniqueKey then ["<<UQ>>"ₛ] else []) ++
        (if c.ref.isSome then ["<<FK>>"ₛ] else []) := by
      unfold tags
      cases c.ref <;> rfl
    rw [e]
    cases c.primaryKey <;> cases c.uniqueKey <;> cases c.ref.isSome <;> decide
  unfold readPuBody
  dsimp only
  rw [if_pos ⟨List.getLast?_concat, h1⟩, h2.1, h2.2.1, h2.2.2, show ":"ₛ = [':'] from rfl, List.dropLast_concat]

theorem column_tokens {c : Column} (hn : Ident c.name) (ht : Ident c.type) :
    tokens ("    "ₛ ++ columnDef c) = columnToks c := by
  rw [show "    "ₛ ++ columnDef c = ' ' :: ' ' :: ' ' :: ' ' :: columnDef c from rfl, tokens_blank rfl, tokens_blank rfl,
    tokens_blank rfl, tokens_blank rfl, columnDef_eq,
    tokens_join fun x hx => ⟨Good.blank (toks_ok hn ht x hx).1, (toks_ok hn ht x hx).2.1⟩]

theorem colon_ne {n k : Str} (hk : ':' ∉ k) : n ++ ":"ₛ ≠ k := by
  rintro rfl; exact hk (List.mem_append_right _ (by decide))

/-- The line of a column is read as the column. -/
theorem column_read {c : Column} (hn : Ident c.name) (ht : Ident c.type) :
    '\n' ∉ "    "ₛ ++ columnDef c ∧ tokens ("    "ₛ ++ columnDef c) ≠ ["}"ₛ] ∧
    tokens ("    "ₛ ++ columnDef c) ≠ ["--"ₛ] ∧ readPuColumn (tokens ("    "ₛ ++ columnDef c)) = some (readColumn c) := by
  rw [column_tokens hn ht]
  have hlen : ∀ k : Str, columnToks c ≠ [k] := by
    intro k e
    have := congrArg List.length e
    unfold columnToks at this
    simp only [List.length_append, List.length_cons, List.length_nil] at this
    omega
  refine ⟨?_, hlen _, hlen _, ?_⟩
  · rw [columnDef_eq]
    exact newline_append (by decide) (newline_join (by decide) fun x hx => (toks_ok hn ht x hx).2.2)
  · unfold columnToks readColumn
    cases c.notNull with
    | true =>
      show readPuColumn ("*"ₛ :: (c.name ++ ":"ₛ) :: c.type :: tags c) = _
      rw [readPuColumn, if_pos rfl, body_read]
    | false =>
      show readPuColumn ((c.name ++ ":"ₛ) :: c.type :: tags c) = _
      rw [readPuColumn, if_neg (colon_ne (by decide)), body_read]

/-! ### Entities -/

theorem lines_below (n : Str) (rest : List Str) : ∀ (cs : List Column) (l m : List PuColumn),
    (∀ c ∈ cs, Ident c.name ∧ Ident c.type) →
    readPuLines (.below n l m) (columnLines true cs ++ "}"ₛ :: rest) =
      (readPuLines .top rest).map fun d => ⟨⟨n, l, m ++ cs.map readColumn⟩ :: d.entities, d.edges⟩ := by
  intro cs
  induction cs with
  | nil =>
    intro l m _
    show readPuLines _ ("}"ₛ :: rest) = _
    rw [readPuLines, if_pos (by decide), List.map_nil, List.append_nil]
  | cons c cs ih =>
    intro l m h
    obtain ⟨_, h1, _, h3⟩ := column_read (h c (by simp)).1 (h c (by simp)).2
    have e : columnLines true (c :: cs) = ("    "ₛ ++ columnDef c) :: columnLines true cs := by
      rw [columnLines, if_neg (by simp)]
    rw [e, List.cons_append, readPuLines, if_neg h1, h3, Option.bind_some, ih _ _ fun c hc => h c (by simp [hc])]
    simp only [List.map_cons, List.append_assoc, List.singleton_append]

/-- The columns above the separator, as read. -/
def above (cs : List Column) : List PuColumn := (cs.takeWhile (·.primaryKey)).map readColumn

/-- The columns below the separator, as read. -/
def below (cs : List Column) : List PuColumn := (cs.dropWhile (·.primaryKey)).map readColumn

theorem lines_above (n : Str) (rest : List Str) : ∀ (cs : List Column) (l : List PuColumn),
    (∀ c ∈ cs, Ident c.name ∧ Ident c.type) →
    readPuLines (.above n l) (columnLines false cs ++ "}"ₛ :: rest) =
      (readPuLines .top rest).map fun d => ⟨⟨n, l ++ above cs, below cs⟩ :: d.entities, d.edges⟩ := by
  intro cs
  induction cs with
  | nil =>
    intro l _
    show readPuLines _ ("}"ₛ :: rest) = _
    rw [readPuLines, if_pos (by decide)]
    simp only [above, below, List.takeWhile_nil, List.dropWhile_nil, List.map_nil, List.append_nil]
  | cons c cs ih =>
    intro l h
    obtain ⟨_, h1, h2, h3⟩ := column_read (h c (by simp)).1 (h c (by simp)).2
    by_cases hp : c.primaryKey = true
    · have e : columnLines false (c :: cs) = ("    "ₛ ++ columnDef c) :: columnLines false cs := by
        rw [columnLines, if_neg (by simp [hp])]
      rw [e, List.cons_append, readPuLines, if_neg h1, if_neg h2, h3, Option.bind_some,
        ih _ fun c hc => h c (by simp [hc])]
      unfold above below
      rw [List.takeWhile_cons_of_pos hp, List.dropWhile_cons_of_pos hp]
      simp only [List.map_cons, List.append_assoc, List.singleton_append]
    · have e : columnLines false (c :: cs) = "    --"ₛ :: ("    "ₛ ++ columnDef c) :: columnLines true cs := by
        rw [columnLines, if_pos (by simp [hp])]
      rw [e, List.cons_append, readPuLines, if_neg (by decide), if_pos (by decide), List.cons_append, readPuLines,
        if_neg h1, h3, Option.bind_some, lines_below _ _ _ _ _ fun c hc => h c (by simp [hc])]
      unfold above below
      rw [List.takeWhile_cons_of_neg hp, List.dropWhile_cons_of_neg hp]
      simp only [List.map_cons, List.map_nil, List.append_nil, List.nil_append, List.singleton_append]

/-- The entity as read. -/
def readEntity (t : Table) : PuEntity := ⟨t.name, above t.columns, below t.columns⟩

theorem header_tokens {n : Str} (h : Ident n) : tokens ("entity "ₛ ++ n ++ " {"ₛ) = ["entity"ₛ, n, "{"ₛ] := by
  rw [show "entity "ₛ ++ n ++ " {"ₛ = "entity"ₛ ++ ' ' :: (n ++ ' ' :: "{"ₛ) by simp,
    tokens_cons (Good.blank (good_literal _ (by decide))) (by decide) rfl, tokens_cons (Good.blank (good_ident h)) h.1 rfl,
    tokens_single (Good.blank (good_literal _ (by decide))) (by decide)]

theorem read_top {l : Str} {ls : List Str} (hne : ls ≠ []) (a b c : Str) (h : tokens l = [a, b, c]) :
    readPuLines .top (l :: ls) =
      if a = "entity"ₛ ∧ c = "{"ₛ then readPuLines (.above b []) ls
      else if b ∈ puRels then (readPuLines .top ls).map fun d => ⟨d.entities, (a, b, c) :: d.edges⟩
      else none := by
  cases ls with
  | nil => exact absurd rfl hne
  | cons x ls =>
    rw [readPuLines, h]
    simp

theorem read_entity {t : Table} (h : PlainPuTable t) (rest : List Str) :
    readPuLines .top (tableLines t ++ rest) =
      (readPuLines .top rest).map fun d => ⟨readEntity t :: d.entities, d.edges⟩ := by
  unfold tableLines
  rw [List.cons_append, List.append_assoc (columnLines _ _), List.singleton_append, read_top (by simp) _ _ _ (header_tokens h.1),
    if_pos ⟨rfl, rfl⟩, lines_above _ _ _ _ fun c hc => ⟨(h.2 c hc).1, (h.2 c hc).2.1⟩]
  rfl

theorem read_entities (rest : List Str) : ∀ ts : List Table, (∀ t ∈ ts, PlainPuTable t) →
    readPuLines .top (ts.flatMap tableLines ++ rest) =
      (readPuLines .top rest).map fun d => ⟨ts.map readEntity ++ d.entities, d.edges⟩ := by
  intro ts
  induction ts with
  | nil =>
    intro _
    show readPuLines .top rest = _
    cases readPuLines .top rest <;> rfl
  | cons t ts ih =>
    intro h
    rw [List.flatMap_cons, List.append_assoc, read_entity (h t (by simp)), ih fun t ht => h t (by simp [ht]),
      Option.map_map]
    rfl

/-! ### Edges -/

theorem edge_tokens {n : Str} {r : Reference} (hn : Ident n) (hr : Ident r.table) :
    tokens (n ++ " "ₛ ++ relationshipType r ++ " "ₛ ++ r.table) = [n, puRel r.relationship, r.table] := by
  rw [rel_eq, show n ++ " "ₛ ++ puRel r.relationship ++ " "ₛ ++ r.table =
      n ++ ' ' :: (puRel r.relationship ++ ' ' :: r.table) by simp,
    tokens_cons (Good.blank (good_ident hn)) hn.1 rfl, tokens_cons (Good.blank (rel_ok _).2.1) (rel_ok _).2.2.1 rfl,
    tokens_single (Good.blank (good_ident hr)) hr.1]

theorem read_edges (n : Str) (hn : Ident n) (rest : List Str) (hne : rest ≠ []) : ∀ cs : List Column,
    (∀ c ∈ cs, ∀ r, c.ref = some r → Ident r.table) →
    readPuLines .top (cs.filterMap (edge n) ++ rest) =
      (readPuLines .top rest).map fun d =>
        ⟨d.entities, (cs.filterMap fun c => c.ref.map fun r => (n, puRel r.relationship, r.table)) ++ d.edges⟩ := by
  intro cs
  induction cs with
  | nil =>
    intro _
    show readPuLines .top rest = _
    cases readPuLines .top rest <;> rfl
  | cons c cs ih =>
    intro h
    have ih := ih fun c hc => h c (by simp [hc])
    cases hr : c.ref with
    | none =>
      rw [List.filterMap_cons_none (by rw [edge, hr]; rfl), List.filterMap_cons_none (by rw [hr]; rfl), ih]
    | some r =>
      have hi := h c (by simp) r hr
      rw [List.filterMap_cons_some (b := n ++ " "ₛ ++ relationshipType r ++ " "ₛ ++ r.table) (by rw [edge, hr]; rfl),
        List.filterMap_cons_some (b := (n, puRel r.relationship, r.table)) (by rw [hr]; rfl), List.cons_append,
        read_top (by simp [hne]) _ _ _ (edge_tokens hn hi), if_neg, if_pos (rel_ok _).1, ih, Option.map_map]
      · rfl
      · rintro ⟨-, e⟩
        rw [e] at hi
        exact absurd hi (by decide)

theorem read_allEdges (rest : List Str) (hne : rest ≠ []) : ∀ ts : List Table, (∀ t ∈ ts, PlainPuTable t) →
    readPuLines .top (ts.flatMap (fun t => t.columns.filterMap (edge t.name)) ++ rest) =
      (readPuLines .top rest).map fun d => ⟨d.entities, (ts.flatMap fun t => t.columns.filterMap fun c =>
        c.ref.map fun r => (t.name, puRel r.relationship, r.table)) ++ d.edges⟩ := by
  intro ts
  induction ts with
  | nil =>
    intro _
    show readPuLines .top rest = _
    cases readPuLines .top rest <;> rfl
  | cons t ts ih =>
    intro h
    have ht := h t (by simp)
    rw [List.flatMap_cons, List.append_assoc, read_edges _ ht.1 _ (by simp [hne]) _ fun c hc => (ht.2 c hc).2.2,
      ih fun t ht => h t (by simp [ht]), Option.map_map]
    simp only [List.flatMap_cons, List.append_assoc]
    rfl

/-! ### Documents -/

theorem newline_columns : ∀ (cs : List Column) (b : Bool), (∀ c ∈ cs, Ident c.name ∧ Ident c.type) →
    ∀ x ∈ columnLines b cs, '\n' ∉ x := by
  intro cs
  induction cs with
  | nil => intro b _ x hx; cases hx
  | cons c cs ih =>
    intro b h x hx
    obtain ⟨h1, _⟩ := column_read (h c (by simp)).1 (h c (by simp)).2
    rw [columnLines] at hx
    split at hx
    · rcases List.mem_cons.1 hx with rfl | hx
      · decide
      rcases List.mem_cons.1 hx with rfl | hx
      · exact h1
      · exact ih _ (fun c hc => h c (by simp [hc])) x hx
    · rcases List.mem_cons.1 hx with rfl | hx
      · exact h1
      · exact ih _ (fun c hc => h c (by simp [hc])) x hx

theorem read_generate {s : Schema} (h : ∀ t ∈ s.tables, PlainPuTable t) :
    readPu (generate s) = some ⟨s.tables.map readEntity, schemaEdges s⟩ := by
  unfold readPu generate
  rw [show "\n"ₛ = ['\n'] from rfl, split_join (by simp)]
  · simp only [List.append_assoc, List.cons_append, List.nil_append]
    rw [if_pos trivial, read_entities _ _ h, read_allEdges _ (by simp) _ h]
    show some _ = some _
    simp only [List.append_nil]
    rfl
  · intro p hp
    simp only [List.mem_append, List.mem_singleton, List.mem_flatMap] at hp
    rcases hp with ((rfl | ⟨t, ht, hp⟩) | ⟨t, ht, hp⟩) | rfl
    · decide
    · obtain ⟨hn, hc⟩ := h t ht
      unfold tableLines at hp
      rcases List.mem_cons.1 hp with rfl | hp
      · exact newline_append (newline_append (by decide) (newline_ident hn)) (by decide)
      rcases List.mem_append.1 hp with hp | hp
      · exact newline_columns _ _ (fun c hm => ⟨(hc c hm).1, (hc c hm).2.1⟩) p hp
      · rw [List.mem_singleton.1 hp]; decide
    · obtain ⟨hn, hc⟩ := h t ht
      obtain ⟨c, hm, he⟩ := List.mem_filterMap.1 hp
      unfold edge at he
      cases hr : c.ref with
      | none => rw [hr] at he; cases he
      | some r =>
        rw [hr] at he
        cases he
        dsimp only
        rw [rel_eq]
        exact newline_append (newline_append (newline_append (newline_append (newline_ident hn) (by decide)) (rel_ok _).2.2.2)
          (by decide)) (newline_ident ((hc c hm).2.2 r hr))
    · decide

end Octo.Plantuml
