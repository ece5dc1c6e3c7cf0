import Verif.Lemmas.Dbml
import Verif.Model.Quickdbd
import Verif.Spec.Quickdbd

/-! Lemmas about the QuickDBD exporter: what it writes is read by the QuickDBD reader. -/

namespace Octo.Quickdbd
open Spec

theorem rel_eq (r : Reference) : relationshipType r = qdRel r.relationship := by
  unfold relationshipType qdRel
  by_cases h1 : r.relationship = "n:1"ₛ
  · rw [if_pos h1, h1]; rfl
  · by_cases h2 : r.relationship = "1:n"ₛ
    · rw [if_neg h1, if_pos h2, h2]; rfl
    · by_cases h3 : r.relationship = "1:1"ₛ
      · rw [if_neg h1, if_neg h2, if_pos h3, h3]; rfl
      · rw [if_neg h1, if_neg h2, if_neg h3, List.lookup_cons, beq_eq_false_iff_ne.2 h1]
        dsimp only
        rw [List.lookup_cons, beq_eq_false_iff_ne.2 h2]
        dsimp only
        rw [List.lookup_cons, beq_eq_false_iff_ne.2 h3]
        rfl

theorem rel_ok (r : Str) : qdRel r ∈ qdConnections ∧ Good sqlSep (qdRel r) ∧ qdRel r ≠ [] ∧ '\n' ∉ qdRel r ∧
    '#' ∉ qdRel r := by
  have hc : qdRel r = ">-"ₛ ∨ qdRel r = "-<"ₛ ∨ qdRel r = "-"ₛ := by
    rw [← rel_eq ⟨[], [], r⟩]
    unfold relationshipType
    split
    · exact Or.inl rfl
    · split
      · exact Or.inr (Or.inl rfl)
      · split
        · exact Or.inr (Or.inr rfl)
        · exact Or.inl rfl
  rcases hc with h | h | h <;>
    (rw [h]; exact ⟨by decide, good_literal _ (by decide), by decide, by decide, by decide⟩)

/-! ### Words of a column -/

def refWords (c : Column) : List Str :=
  match c.ref with
  | none => []
  | some r => ["FK"ₛ, qdRel r.relationship, r.table ++ "."ₛ ++ r.column]

def words (c : Column) : List Str :=
  (if c.primaryKey then ["PK"ₛ] else []) ++ (if c.uniqueKey then ["UNIQUE"ₛ] else []) ++
  (if c.autoIncremental then ["AUTOINCREMENT"ₛ] else []) ++ (if !c.notNull then ["NULLABLE"ₛ] else []) ++
  (if c.defaultValue = [] then [] else ["default="ₛ ++ c.defaultValue]) ++ refWords c

def remark (s : Str) : Str := if s = [] then [] else " # "ₛ ++ s

theorem join_space (x : Str) (l : List Str) : join " "ₛ (x :: l) = x ++ l.flatMap fun y => " "ₛ ++ y := by
  induction l generalizing x with
  | nil => simp [join]
  | cons y l ih => rw [join_cons_cons, ih, List.flatMap_cons, List.append_assoc, List.append_assoc]

theorem columnDef_eq (c : Column) : columnDef c = join " "ₛ (c.name :: c.type :: words c) ++ remark c.description := by
  unfold columnDef params words remark
  simp only [List.append_assoc]
  rw [show ∀ l : List Str, [c.type] ++ l = c.type :: l from fun _ => rfl, join_space, join_space,
    List.flatMap_cons]
  simp only [List.flatMap_append, List.append_assoc]
  have h1 : (refParam c).flatMap (fun y => " "ₛ ++ y) = (refWords c).flatMap fun y => " "ₛ ++ y := by
    unfold refWords refParam
    cases c.ref with
    | none => rfl
    | some r =>
      dsimp only
      rw [rel_eq]
      simp only [List.flatMap_cons, List.flatMap_nil, List.append_nil, List.append_assoc]
      rfl
  have h2 : (if c.description = [] then [] else ["# "ₛ ++ c.description]).flatMap (fun y => " "ₛ ++ y) =
      if c.description = [] then [] else " # "ₛ ++ c.description := by
    split
    · rfl
    · simp only [List.flatMap_cons, List.flatMap_nil, List.append_nil]
      rfl
  rw [h1, h2]

theorem words_ok {c : Column} (h : PlainQdColumn c) :
    ∀ x ∈ c.name :: c.type :: words c, Good sqlSep x ∧ x ≠ [] ∧ '\n' ∉ x ∧ '#' ∉ x := by
  have hi : ∀ {s}, Ident s → Good sqlSep s ∧ s ≠ [] ∧ '\n' ∉ s ∧ '#' ∉ s := fun h =>
    ⟨good_ident h, h.1, newline_ident h, ident_not (by decide) h⟩
  have hf : ∀ (b : Bool) (k : Str), (Good sqlSep k ∧ k ≠ [] ∧ '\n' ∉ k ∧ '#' ∉ k) → ∀ x ∈ (if b then [k] else []),
      Good sqlSep x ∧ x ≠ [] ∧ '\n' ∉ x ∧ '#' ∉ x := by
    intro b k hk x hx
    cases b
    · cases hx
    · rw [List.mem_singleton.1 hx]; exact hk
  intro x hx
  rcases List.mem_cons.1 hx with rfl | hx
  · exact hi h.name
  rcases List.mem_cons.1 hx with rfl | hx
  · exact hi h.type
  unfold words at hx
  simp only [List.mem_append] at hx
  rcases hx with ((((hx | hx) | hx) | hx) | hx) | hx
  · exact hf _ _ ⟨good_literal _ (by decide), by decide, by decide, by decide⟩ x hx
  · exact hf _ _ ⟨good_literal _ (by decide), by decide, by decide, by decide⟩ x hx
  · exact hf _ _ ⟨good_literal _ (by decide), by decide, by decide, by decide⟩ x hx
  · exact hf _ _ ⟨good_literal _ (by decide), by decide, by decide, by decide⟩ x hx
  · split at hx
    · cases hx
    · rename_i h0
      rw [List.mem_singleton.1 hx]
      rcases h.default with e | ⟨hw, hh⟩
      · exact absurd e h0
      · refine ⟨.append _ _ (good_literal _ (by decide)) (good_word hw), by simp, newline_append (by decide) ?_, ?_⟩
        · intro hm; exact absurd (hw.2 _ hm).1 (by decide)
        · rw [List.mem_append, not_or]; exact ⟨by decide, hh⟩
  · unfold refWords at hx
    cases hr : c.ref with
    | none => rw [hr] at hx; cases hx
    | some r =>
      rw [hr] at hx
      obtain ⟨h1, h2⟩ := h.ref r hr
      obtain ⟨_, k2, k3, k4, k5⟩ := rel_ok r.relationship
      simp only [List.mem_cons, List.not_mem_nil, or_false] at hx
      rcases hx with rfl | rfl | rfl
      · exact ⟨good_literal _ (by decide), by decide, by decide, by decide⟩
      · exact ⟨k2, k3, k4, k5⟩
      · refine ⟨good_dotted h1 h2, by simp, ?_, ?_⟩
        · exact newline_append (newline_append (newline_ident h1) (by decide)) (newline_ident h2)
        · simp only [List.mem_append, not_or]
          exact ⟨⟨ident_not (by decide) h1, by decide⟩, ident_not (by decide) h2⟩

theorem read_pk (b : Bool) (d : QdColumn) (hd : d.pk = false) (l : List Str) :
    readQdWords d ((if b then ["PK"ₛ] else []) ++ l) = readQdWords { d with pk := b } l := by
  cases b
  · cases d; dsimp only at hd; subst hd; rfl
  · show readQdWords d ("PK"ₛ :: l) = _
    rw [readQdWords.eq_def]
    dsimp only
    rw [if_pos rfl]

theorem read_unique (b : Bool) (d : QdColumn) (hd : d.unique = false) (l : List Str) :
    readQdWords d ((if b then ["UNIQUE"ₛ] else []) ++ l) = readQdWords { d with unique := b } l := by
  cases b
  · cases d; dsimp only at hd; subst hd; rfl
  · show readQdWords d ("UNIQUE"ₛ :: l) = _
    rw [readQdWords.eq_def]
    dsimp only
    rw [if_neg (by decide), if_pos rfl]

theorem read_autoInc (b : Bool) (d : QdColumn) (hd : d.autoInc = false) (l : List Str) :
    readQdWords d ((if b then ["AUTOINCREMENT"ₛ] else []) ++ l) = readQdWords { d with autoInc := b } l := by
  cases b
  · cases d; dsimp only at hd; subst hd; rfl
  · show readQdWords d ("AUTOINCREMENT"ₛ :: l) = _
    rw [readQdWords.eq_def]
    dsimp only
    rw [if_neg (by decide), if_neg (by decide), if_pos rfl]

theorem read_nullable (b : Bool) (d : QdColumn) (hd : d.nullable = false) (l : List Str) :
    readQdWords d ((if b then ["NULLABLE"ₛ] else []) ++ l) = readQdWords { d with nullable := b } l := by
  cases b
  · cases d; dsimp only at hd; subst hd; rfl
  · show readQdWords d ("NULLABLE"ₛ :: l) = _
    rw [readQdWords.eq_def]
    dsimp only
    rw [if_neg (by decide), if_neg (by decide), if_neg (by decide), if_pos rfl]

theorem default_ne (v : Str) {k : Str} (hk : k.head? ≠ some 'd') : "default="ₛ ++ v ≠ k := by
  rintro rfl; exact hk rfl

theorem read_default (v : Str) (d : QdColumn) (hd : d.default = none) (l : List Str) :
    readQdWords d ((if v = [] then [] else ["default="ₛ ++ v]) ++ l) = readQdWords { d with default := optText v } l := by
  unfold optText
  split
  · cases d; dsimp only at hd; subst hd; rfl
  · show readQdWords d (("default="ₛ ++ v) :: l) = _
    rw [readQdWords.eq_def]
    dsimp only
    rw [if_neg (default_ne v (by decide)), if_neg (default_ne v (by decide)),
      if_neg (default_ne v (by decide)), if_neg (default_ne v (by decide)), if_pos (hasPrefix_append _ _)]
    rfl

theorem read_ref {c : Column} (h : ∀ r, c.ref = some r → Ident r.table ∧ Ident r.column) (d : QdColumn) (hd : d.fk = none) :
    readQdWords d (refWords c) =
      some { d with fk := c.ref.map fun r => (qdRel r.relationship, r.table, r.column) } := by
  unfold refWords
  cases hr : c.ref with
  | none =>
    cases d; dsimp only at hd; subst hd
    dsimp only
    rw [readQdWords.eq_def]
    rfl
  | some r =>
    dsimp only
    rw [readQdWords.eq_def]
    dsimp only
    rw [if_neg (by decide), if_neg (by decide), if_neg (by decide), if_neg (by decide),
      if_neg (by decide), if_pos rfl, if_pos (rel_ok _).1, readDotted_of (h r hr).1]
    dsimp only
    rw [readQdWords.eq_def]
    rfl

/-- The column as read. -/
def readColumn (c : Column) : QdColumn :=
  { name := c.name, type := c.type, pk := c.primaryKey, unique := c.uniqueKey, autoInc := c.autoIncremental,
    nullable := !c.notNull, default := optText c.defaultValue,
    fk := c.ref.map fun r => (qdRel r.relationship, r.table, r.column),
    comment := (optText c.description).map trimSpace }

theorem read_words {c : Column} (h : ∀ r, c.ref = some r → Ident r.table ∧ Ident r.column) (x : Option Str) :
    readQdWords { name := c.name, type := c.type, comment := x } (words c) = some { readColumn c with comment := x } := by
  unfold words
  simp only [List.append_assoc]
  rw [read_pk _ _ rfl, read_unique _ _ rfl, read_autoInc _ _ rfl, read_nullable _ _ rfl, read_default _ _ rfl,
    read_ref h _ rfl]
  rfl

theorem trimSpace_space (s : Str) : trimSpace (' ' :: s) = trimSpace s := by
  unfold trimSpace
  rw [List.dropWhile_cons_of_pos (by decide)]

/-- A text and its remark. -/
theorem split_remark {s d : Str} (h : '#' ∉ s) :
    splitN2 '#' (s ++ remark d) = (if d = [] then s else s ++ " "ₛ, if d = [] then none else some (' ' :: d)) := by
  unfold remark
  split
  · rw [List.append_nil, splitN2_no_sep h]
  · rw [show s ++ (" # "ₛ ++ d) = (s ++ " "ₛ) ++ '#' :: ' ' :: d by simp,
      splitN2_append_sep (by rw [List.mem_append, not_or]; exact ⟨h, by decide⟩)]

theorem remark_text (d : Str) : (if d = [] then none else some (' ' :: d)).map trimSpace = (optText d).map trimSpace := by
  unfold optText
  split
  · rfl
  · simp only [Option.map_some, trimSpace_space]

theorem tokens_remark {l : List Str} (h : ∀ x ∈ l, Good sqlSep x ∧ x ≠ []) (d : Str) :
    tokens (if d = [] then join " "ₛ l else join " "ₛ l ++ " "ₛ) = l := by
  have h' : ∀ x ∈ l, Good isBlank x ∧ x ≠ [] := fun x hx => ⟨Good.blank (h x hx).1, (h x hx).2⟩
  split
  · exact tokens_join h'
  · exact tokens_join_end h' (c := ' ') rfl

theorem sharp_join {sep : Str} (hs : '#' ∉ sep) {l : List Str} (h : ∀ x ∈ l, '#' ∉ x) : '#' ∉ join sep l := by
  induction l with
  | nil => simp [join]
  | cons x l ih =>
    cases l with
    | nil => exact h x (by simp)
    | cons y r =>
      rw [join_cons_cons]
      simp only [List.mem_append, not_or]
      exact ⟨⟨h x (by simp), hs⟩, ih fun z hz => h z (by simp [hz])⟩

theorem newline_remark {d : Str} (h : '\n' ∉ d) : '\n' ∉ remark d := by
  unfold remark
  split
  · exact List.not_mem_nil
  · exact newline_append (by decide) h

/-- The line of a column is read as the column. -/
theorem column_read {c : Column} (h : PlainQdColumn c) :
    '\n' ∉ columnDef c ∧ columnDef c ≠ [] ∧ readQdColumn (columnDef c) = some (readColumn c) := by
  have hw := words_ok h
  rw [columnDef_eq]
  refine ⟨?_, ?_, ?_⟩
  · exact newline_append (newline_join (by decide) fun x hx => (hw x hx).2.2.1) (newline_remark h.description)
  · rw [join_space]
    intro e
    simp only [List.append_eq_nil_iff] at e
    exact h.name.1 e.1.1
  · unfold readQdColumn
    rw [split_remark (sharp_join (by decide) fun x hx => (hw x hx).2.2.2)]
    dsimp only
    rw [tokens_remark (fun x hx => ⟨(hw x hx).1, (hw x hx).2.1⟩), remark_text]
    dsimp only
    rw [read_words h.ref]
    rfl

theorem table_read {t : Table} (hn : Ident t.name) (hd : '\n' ∉ t.description) :
    '\n' ∉ tableDef t ∧ tableDef t ≠ [] ∧
      readQdHeader (tableDef t) = some ⟨t.name, (optText t.description).map trimSpace, []⟩ := by
  have e : tableDef t = join " "ₛ [t.name] ++ remark t.description := by
    unfold tableDef remark
    split
    · exact (List.append_nil _).symm
    · rw [List.append_assoc]; rfl
  rw [e]
  refine ⟨newline_append (newline_ident hn) (newline_remark hd), ?_, ?_⟩
  · intro e; exact hn.1 (List.append_eq_nil_iff.1 e).1
  · unfold readQdHeader
    rw [split_remark (show '#' ∉ join " "ₛ [t.name] from ident_not (by decide) hn)]
    dsimp only
    rw [tokens_remark (fun x hx => by rw [List.mem_singleton.1 hx]; exact ⟨good_ident hn, hn.1⟩), remark_text]

/-! ### Documents -/

/-- The table as read. -/
def readTable (t : Table) : QdTable := ⟨t.name, (optText t.description).map trimSpace, t.columns.map readColumn⟩

theorem byteLen_pos {s : Str} (h : s ≠ []) : byteLen s ≠ 0 := by
  cases s with
  | nil => exact absurd rfl h
  | cons c s =>
    have := Char.utf8Size_pos c
    simp only [byteLen, List.map_cons, List.sum_cons]
    omega

theorem read_columns (rest : List Str) : ∀ (cs : List Column) (t : QdTable), (∀ c ∈ cs, PlainQdColumn c) →
    readQdLines (.inside t) (cs.map columnDef ++ [[]] ++ rest) =
      (readQdLines .top rest).map ({ t with columns := t.columns ++ cs.map readColumn } :: ·) := by
  intro cs
  induction cs with
  | nil =>
    intro t _
    show readQdLines (.inside t) ([] :: rest) = _
    rw [readQdLines, if_pos rfl, List.map_nil, List.append_nil]
  | cons c cs ih =>
    intro t h
    obtain ⟨_, h1, h2⟩ := column_read (h c (by simp))
    show readQdLines (.inside t) (columnDef c :: (cs.map columnDef ++ [[]] ++ rest)) = _
    rw [readQdLines, if_neg h1, h2, Option.bind_some, ih _ fun c hc => h c (by simp [hc])]
    simp only [List.map_cons, List.append_assoc, List.singleton_append]

theorem read_table {t : Table} (h : PlainQdTable t) (rest : List Str) :
    readQdLines .top (tableLines t ++ rest) = (readQdLines .top rest).map (readTable t :: ·) := by
  obtain ⟨hn, hd, hc⟩ := h
  obtain ⟨_, h1, h2⟩ := table_read hn hd
  have e : tableLines t ++ rest = tableDef t :: List.replicate (byteLen t.name) '-' ::
      (t.columns.map columnDef ++ [[]] ++ rest) := by simp [tableLines]
  rw [e, readQdLines, if_neg h1, h2, Option.bind_some, readQdLines, if_pos, read_columns _ _ _ hc]
  · rfl
  · refine ⟨?_, ?_⟩
    · rw [Ne, List.replicate_eq_nil_iff]; exact byteLen_pos hn.1
    · rw [List.all_eq_true]
      intro x hx
      rw [(List.mem_replicate.1 hx).2]; rfl

theorem read_tables : ∀ ts : List Table, (∀ t ∈ ts, PlainQdTable t) →
    readQdLines .top (ts.flatMap tableLines) = some (ts.map readTable) := by
  intro ts
  induction ts with
  | nil => intro _; rfl
  | cons t ts ih =>
    intro h
    rw [List.flatMap_cons, read_table (h t (by simp)), ih fun t ht => h t (by simp [ht])]
    rfl

theorem read_export {s : Schema} (h : ∀ t ∈ s.tables, PlainQdTable t) :
    readQd (exportText s) = some (s.tables.map readTable) := by
  unfold readQd exportText
  by_cases h0 : s.tables = []
  · rw [h0]; rfl
  · rw [show "\n"ₛ = ['\n'] from rfl, split_join]
    · exact read_tables _ h
    · intro e
      obtain ⟨t, ts, hs⟩ := List.exists_cons_of_ne_nil h0
      rw [hs, List.flatMap_cons] at e
      have := (List.append_eq_nil_iff.1 e).1
      simp [tableLines] at this
    · intro p hp
      obtain ⟨t, ht, hp⟩ := List.mem_flatMap.1 hp
      obtain ⟨hn, hd, hc⟩ := h t ht
      unfold tableLines at hp
      simp only [List.mem_append, List.mem_cons, List.not_mem_nil, or_false] at hp
      rcases hp with ((rfl | rfl) | hp) | rfl
      · exact (table_read hn hd).1
      · intro hm; exact absurd (List.mem_replicate.1 hm).2 (by decide)
      · obtain ⟨c, hcm, rfl⟩ := List.mem_map.1 hp
        exact (column_read (hc c hcm)).1
      · exact List.not_mem_nil

end Octo.Quickdbd
