import Verif.Lemmas.Gorm

/-! The text of the GORM generator, line by line. -/

namespace Octo.Gorm
open Spec
open Protobuf (LineWord lineWord_ident lineWord_literal newline_quoted)

theorem _root_.Octo.Protobuf.LineWord.append {a b : Str} (ha : LineWord a) (hb : LineWord b) : LineWord (a ++ b) :=
  ⟨.append _ _ ha.good hb.good, fun e => ha.ne (List.append_eq_nil_iff.1 e).1, newline_append ha.newline hb.newline⟩

/-! ### Tags -/

/-- A setting as it is written. -/
def tagStr (p : Str × Option Str) : Str := match p.2 with
  | none => p.1
  | some v => p.1 ++ ':' :: v

/-- The characters that a setting may not have. -/
def tagBad (c : Char) : Bool := c == '`' || c == '"' || c == '\\' || c == '\n' || c == ';'

/-- A setting that can be written. -/
def PlainTag (p : Str × Option Str) : Prop := (∀ c ∈ p.1, tagBad c = false) ∧ ':' ∉ p.1 ∧ ∀ v ∈ p.2, ∀ c ∈ v, tagBad c = false

theorem splitN2_tagStr {p : Str × Option Str} (h : PlainTag p) : splitN2 ':' (tagStr p) = p := by
  obtain ⟨k, v⟩ := p
  cases v with
  | none => exact splitN2_no_sep h.2.1
  | some v => exact splitN2_append_sep h.2.1 v

theorem tagStr_chars {p : Str × Option Str} (h : PlainTag p) : ∀ c ∈ tagStr p, tagBad c = false := by
  obtain ⟨k, v⟩ := p
  intro c hc
  cases v with
  | none => exact h.1 c hc
  | some v =>
    rcases List.mem_append.1 hc with hc | hc
    · exact h.1 c hc
    · rcases List.mem_cons.1 hc with rfl | hc
      · rfl
      · exact h.2.2 v rfl c hc

theorem mem_join {c : Char} {sep : Str} : ∀ {l : List Str}, c ∈ join sep l → c ∈ sep ∨ ∃ x ∈ l, c ∈ x := by
  intro l
  induction l with
  | nil => intro h; cases h
  | cons x l ih =>
    cases l with
    | nil => intro h; exact .inr ⟨x, by simp, h⟩
    | cons y l =>
      intro h
      rcases List.mem_append.1 h with h | h
      · rcases List.mem_append.1 h with h | h
        · exact .inr ⟨x, by simp, h⟩
        · exact .inl h
      · rcases ih h with h | ⟨z, hz, h⟩
        · exact .inl h
        · exact .inr ⟨z, List.mem_cons_of_mem _ hz, h⟩

theorem join_not_bad {tags : List (Str × Option Str)} (h : ∀ p ∈ tags, PlainTag p) {c : Char} (hc : tagBad c = true)
    (hs : c ≠ ';') : c ∉ join ";"ₛ (tags.map tagStr) := by
  intro hm
  rcases mem_join hm with hm | ⟨x, hx, hm⟩
  · exact hs (List.mem_singleton.1 hm)
  · obtain ⟨p, hp, rfl⟩ := List.mem_map.1 hx
    rw [tagStr_chars (h p hp) c hm] at hc
    cases hc

theorem gormTag_read {tags : List (Str × Option Str)} (hne : tags ≠ []) (h : ∀ p ∈ tags, PlainTag p) :
    LineWord (gormTag (tags.map tagStr)) ∧ readGormTag (gormTag (tags.map tagStr)) = some tags := by
  have hne' : tags.map tagStr ≠ [] := by simpa using hne
  have e : gormTag (tags.map tagStr) = ['`'] ++ ("gorm:"ₛ ++ (['"'] ++ join ";"ₛ (tags.map tagStr) ++ ['"'])) ++ ['`'] := by
    unfold gormTag
    rw [if_neg hne']
    simp [List.append_assoc]
  constructor
  · rw [e]
    refine ⟨.quoted _ _ rfl rfl ?_ (.inl rfl), by simp, ?_⟩
    · have := join_not_bad h (c := '`') rfl (by decide)
      rw [show ";"ₛ = [';'] from rfl] at this ⊢
      simp [this]
    · have := join_not_bad h (c := '\n') rfl (by decide)
      rw [show ";"ₛ = [';'] from rfl] at this ⊢
      simp [this]
  · unfold readGormTag
    rw [e, unwrap_wrap, Option.bind_some]
    unfold after
    rw [if_pos (List.take_left' rfl), List.drop_left' rfl, Option.bind_some,
      unquote_wrap (join_not_bad h rfl (by decide)) (join_not_bad h rfl (by decide)), Option.map_some,
      show ";"ₛ = [';'] from rfl, split_join hne' ?_, List.map_map]
    · congr 1
      conv_rhs => rw [← List.map_id tags]
      apply List.map_congr_left
      intro p hp
      exact splitN2_tagStr (h p hp)
    · intro x hx hm
      obtain ⟨p, hp, rfl⟩ := List.mem_map.1 hx
      exact absurd (tagStr_chars (h p hp) _ hm) (by decide)

/-! ### Lines of a struct -/

/-- The line of a field. -/
def declLine (d : GoFieldDecl) : Str := "\t"ₛ ++ fieldLine d.name d.type (gormTag (d.tags.map tagStr))

structure PlainDecl (d : GoFieldDecl) : Prop where
  name : LineWord d.name
  type : LineWord d.type
  tags : ∀ p ∈ d.tags, PlainTag p

theorem decl_read {x : GoFieldDecl} (h : PlainDecl x) (d : GoStructDecl) (f : GoFile) :
    '\n' ∉ declLine x ∧ readGoLine (.struct d, f) (declLine x) = some (.struct { d with fields := d.fields ++ [x] }, f) := by
  obtain ⟨n, t, tags⟩ := x
  obtain ⟨hn, ht, hg⟩ := h
  dsimp only at hn ht hg
  unfold declLine fieldLine
  dsimp only
  by_cases hne : tags = []
  · subst hne
    rw [show gormTag (([] : List (Str × Option Str)).map tagStr) = [] from rfl, if_pos rfl]
    have e : tokens ("\t"ₛ ++ (n ++ " "ₛ ++ t)) = [n, t] := by
      rw [show "\t"ₛ ++ (n ++ " "ₛ ++ t) = '\t' :: (n ++ ' ' :: t) by simp, tokens_blank rfl,
        tokens_cons (Good.blank hn.good) hn.ne rfl, tokens_single (Good.blank ht.good) ht.ne]
    refine ⟨newline_append (by decide) (newline_append (newline_append hn.newline (by decide)) ht.newline), ?_⟩
    show readGoField d f (tokens _) = _
    rw [e]
    rfl
  · obtain ⟨hw, hr⟩ := gormTag_read hne hg
    rw [if_neg hw.ne]
    have e : tokens ("\t"ₛ ++ (n ++ " "ₛ ++ t ++ " "ₛ ++ gormTag (tags.map tagStr))) = [n, t, gormTag (tags.map tagStr)] := by
      rw [show "\t"ₛ ++ (n ++ " "ₛ ++ t ++ " "ₛ ++ gormTag (tags.map tagStr)) =
          '\t' :: (n ++ ' ' :: (t ++ ' ' :: gormTag (tags.map tagStr))) by simp, tokens_blank rfl,
        tokens_cons (Good.blank hn.good) hn.ne rfl, tokens_cons (Good.blank ht.good) ht.ne rfl,
        tokens_single (Good.blank hw.good) hw.ne]
    refine ⟨newline_append (by decide) (newline_append (newline_append (newline_append (newline_append hn.newline (by decide))
      ht.newline) (by decide)) hw.newline), ?_⟩
    show readGoField d f (tokens _) = _
    rw [e]
    unfold readGoField
    dsimp only
    rw [hr]
    rfl

theorem read_decls (f : GoFile) : ∀ (xs : List GoFieldDecl) (d : GoStructDecl), (∀ x ∈ xs, PlainDecl x) →
    (xs.map declLine).foldlM readGoLine (.struct d, f) = some (.struct { d with fields := d.fields ++ xs }, f) := by
  intro xs
  induction xs with
  | nil => intro d _; rw [List.append_nil]; rfl
  | cons x xs ih =>
    intro d h
    rw [List.map_cons, List.foldlM_cons, (decl_read (h x (by simp)) d f).2]
    show (xs.map declLine).foldlM readGoLine _ = _
    rw [ih _ fun y hy => h y (by simp [hy])]
    simp

theorem read_embedded (f : GoFile) : ∀ (xs : List Str) (d : GoStructDecl), (∀ x ∈ xs, LineWord x ∧ x ≠ "}"ₛ) →
    (xs.map ("\t"ₛ ++ ·)).foldlM readGoLine (.struct d, f) = some (.struct { d with embedded := d.embedded ++ xs }, f) := by
  intro xs
  induction xs with
  | nil => intro d _; rw [List.append_nil]; rfl
  | cons x xs ih =>
    intro d h
    have hx := h x (by simp)
    have e : readGoLine (.struct d, f) ("\t"ₛ ++ x) = some (.struct { d with embedded := d.embedded ++ [x] }, f) := by
      show readGoField d f (tokens _) = _
      rw [show "\t"ₛ ++ x = '\t' :: x from rfl, tokens_blank rfl, tokens_single (Good.blank hx.1.good) hx.1.ne]
      unfold readGoField
      dsimp only
      rw [if_neg hx.2]
    rw [List.map_cons, List.foldlM_cons, e]
    show (xs.map ("\t"ₛ ++ ·)).foldlM readGoLine _ = _
    rw [ih _ fun y hy => h y (by simp [hy])]
    simp

/-! ### Structs -/

/-- A struct with the name of its table. -/
def structLines (d : GoStructDecl) (table : Str) : List Str :=
  ("type "ₛ ++ d.name ++ " struct {"ₛ) :: (d.embedded.map ("\t"ₛ ++ ·) ++ d.fields.map declLine ++
    ["}"ₛ, [], "func (c *"ₛ ++ d.name ++ ") TableName() string { return \""ₛ ++ table ++ "\" }"ₛ, []])

structure PlainStruct (d : GoStructDecl) (table : Str) : Prop where
  name : Ident d.name
  table : Ident table
  embedded : ∀ x ∈ d.embedded, LineWord x ∧ x ≠ "}"ₛ
  fields : ∀ x ∈ d.fields, PlainDecl x

theorem read_type {n : Str} (h : Ident n) (f : GoFile) :
    readGoLine (.top, f) ("type "ₛ ++ n ++ " struct {"ₛ) = some (.struct ⟨n, [], []⟩, f) := by
  show readGoTop f (tokens _) = _
  rw [show "type "ₛ ++ n ++ " struct {"ₛ = "type"ₛ ++ ' ' :: (n ++ ' ' :: ("struct"ₛ ++ ' ' :: "{"ₛ)) by simp,
    tokens_cons (Good.blank (good_literal _ (by decide))) (by decide) rfl, tokens_cons (Good.blank (good_ident h)) h.1 rfl,
    tokens_cons (Good.blank (good_literal _ (by decide))) (by decide) rfl,
    tokens_single (Good.blank (good_literal _ (by decide))) (by decide)]
  unfold readGoTop
  dsimp only
  rw [if_pos ⟨rfl, rfl, rfl⟩]

theorem read_func {n t : Str} (h : Ident n) (ht : Ident t) (f : GoFile) :
    readGoLine (.top, f) ("func (c *"ₛ ++ n ++ ") TableName() string { return \""ₛ ++ t ++ "\" }"ₛ) =
      some (.top, { f with tableNames := f.tableNames ++ [(n, t)] }) := by
  show readGoTop f (tokens _) = _
  have g1 : Good isBlank (['('] ++ ("c *"ₛ ++ n) ++ [')']) := by
    refine .paren _ rfl (.append _ _ (good_chars (by decide)) ?_)
    exact (good_ident h).mono (by intro c hc; cases hc)
  have g2 : Good isBlank "TableName()"ₛ := by
    show Good isBlank ("TableName"ₛ ++ (['('] ++ [] ++ [')']))
    exact .append _ _ (good_chars (by decide)) (.paren _ rfl .nil)
  have g3 : Good isBlank (['"'] ++ t ++ ['"']) :=
    .quoted _ _ rfl rfl (ident_not (by decide) ht) (.inr (ident_not (by decide) ht))
  rw [show "func (c *"ₛ ++ n ++ ") TableName() string { return \""ₛ ++ t ++ "\" }"ₛ =
      "func"ₛ ++ ' ' :: ((['('] ++ ("c *"ₛ ++ n) ++ [')']) ++ ' ' :: ("TableName()"ₛ ++ ' ' :: ("string"ₛ ++ ' ' :: ("{"ₛ ++ ' ' ::
        ("return"ₛ ++ ' ' :: ((['"'] ++ t ++ ['"']) ++ ' ' :: "}"ₛ)))))) by simp,
    tokens_cons (Good.blank (good_literal _ (by decide))) (by decide) rfl, tokens_cons g1 (by simp) rfl,
    tokens_cons g2 (by decide) rfl,
    tokens_cons (Good.blank (good_literal _ (by decide))) (by decide) rfl,
    tokens_cons (Good.blank (good_literal _ (by decide))) (by decide) rfl,
    tokens_cons (Good.blank (good_literal _ (by decide))) (by decide) rfl, tokens_cons g3 (by simp) rfl,
    tokens_single (Good.blank (good_literal _ (by decide))) (by decide)]
  unfold readGoTop
  dsimp only
  rw [if_pos ⟨rfl, rfl, rfl, rfl, rfl, rfl⟩]
  unfold readReceiver
  rw [unwrap_wrap, Option.bind_some]
  unfold after
  rw [if_pos (List.take_left' rfl), List.drop_left' rfl, Option.bind_some,
    unquote_wrap (ident_not (by decide) ht) (ident_not (by decide) ht), Option.map_some]

theorem read_close (d : GoStructDecl) (f : GoFile) :
    readGoLine (.struct d, f) "}"ₛ = some (.top, { f with structs := f.structs ++ [d] }) := rfl

theorem read_nil (f : GoFile) : readGoLine (.top, f) [] = some (.top, f) := rfl

theorem read_struct {d : GoStructDecl} {table : Str} (h : PlainStruct d table) (f : GoFile) :
    (structLines d table).foldlM readGoLine (.top, f) =
      some (.top, { f with structs := f.structs ++ [d], tableNames := f.tableNames ++ [(d.name, table)] }) := by
  unfold structLines
  rw [List.foldlM_cons, read_type h.name]
  show List.foldlM readGoLine _ _ = _
  rw [List.foldlM_append, List.foldlM_append, read_embedded f _ _ h.embedded]
  show (do let x ← List.foldlM readGoLine _ _; _) = _
  rw [read_decls f _ _ h.fields]
  show List.foldlM readGoLine _ _ = _
  rw [List.foldlM_cons, read_close]
  show List.foldlM readGoLine _ _ = _
  rw [List.foldlM_cons, read_nil]
  show List.foldlM readGoLine _ _ = _
  rw [List.foldlM_cons, read_func h.name h.table]
  rfl

theorem read_structs : ∀ (ds : List (GoStructDecl × Str)) (f : GoFile), (∀ d ∈ ds, PlainStruct d.1 d.2) →
    (ds.flatMap fun d => structLines d.1 d.2).foldlM readGoLine (.top, f) =
      some (.top, { f with structs := f.structs ++ ds.map Prod.fst,
                           tableNames := f.tableNames ++ ds.map fun d => (d.1.name, d.2) }) := by
  intro ds
  induction ds with
  | nil => intro f _; simp
  | cons d ds ih =>
    intro f h
    rw [List.flatMap_cons, List.foldlM_append, read_struct (h d (by simp))]
    show List.foldlM readGoLine _ _ = _
    rw [ih _ fun y hy => h y (by simp [hy])]
    simp

theorem newline_struct {d : GoStructDecl} {table : Str} (h : PlainStruct d table) : ∀ x ∈ structLines d table, '\n' ∉ x := by
  intro x hx
  unfold structLines at hx
  rcases List.mem_cons.1 hx with rfl | hx
  · exact newline_append (newline_append (by decide) (newline_ident h.name)) (by decide)
  · rcases List.mem_append.1 hx with hx | hx
    · rcases List.mem_append.1 hx with hx | hx
      · obtain ⟨y, hy, rfl⟩ := List.mem_map.1 hx
        exact newline_append (by decide) (h.embedded y hy).1.newline
      · obtain ⟨y, hy, rfl⟩ := List.mem_map.1 hx
        exact (decl_read (h.fields y hy) ⟨[], [], []⟩ ⟨none, [], [], []⟩).1
    · rcases List.mem_cons.1 hx with rfl | hx
      · decide
      · rcases List.mem_cons.1 hx with rfl | hx
        · decide
        · rcases List.mem_cons.1 hx with rfl | hx
          · exact newline_append (newline_append (newline_append (newline_append (by decide) (newline_ident h.name)) (by decide))
              (newline_ident h.table)) (by decide)
          · rw [List.mem_singleton.1 hx]; decide

/-! ### Headers -/

/-- The lines before the structs. -/
def headerLines (p : Str) (is : List Str) : List Str :=
  ("package "ₛ ++ p) :: [] :: "import ("ₛ :: (is.map (fun i => "\t\""ₛ ++ i ++ "\""ₛ) ++ [")"ₛ, []])

/-- The name of a package to import, as it can be written. -/
def PlainImport (s : Str) : Prop := '"' ∉ s ∧ '\\' ∉ s ∧ '\n' ∉ s

theorem read_imports : ∀ (is : List Str) (f : GoFile), (∀ i ∈ is, PlainImport i) →
    (is.map (fun i => "\t\""ₛ ++ i ++ "\""ₛ)).foldlM readGoLine (.imports, f) =
      some (.imports, { f with imports := f.imports ++ is }) := by
  intro is
  induction is with
  | nil => intro f _; rw [List.append_nil]; rfl
  | cons i is ih =>
    intro f h
    obtain ⟨h1, h2, _⟩ := h i (by simp)
    have e : readGoLine (.imports, f) ("\t\""ₛ ++ i ++ "\""ₛ) = some (.imports, { f with imports := f.imports ++ [i] }) := by
      show readGoImport f (tokens _) = _
      rw [show "\t\""ₛ ++ i ++ "\""ₛ = '\t' :: (['"'] ++ i ++ ['"']) by simp, tokens_blank rfl,
        tokens_single (.quoted _ _ rfl rfl h1 (.inr h2)) (by simp)]
      unfold readGoImport
      dsimp only
      rw [if_neg (by intro e; exact absurd (congrArg List.head? e) (by simp)), unquote_wrap h1 h2]
      rfl
    rw [List.map_cons, List.foldlM_cons, e]
    show List.foldlM readGoLine _ _ = _
    rw [ih _ fun y hy => h y (by simp [hy])]
    simp

theorem read_header {p : Str} (hp : Ident p) {is : List Str} (h : ∀ i ∈ is, PlainImport i) :
    (headerLines p is).foldlM readGoLine (.top, ⟨none, [], [], []⟩) = some (.top, ⟨some p, is, [], []⟩) := by
  unfold headerLines
  have e1 : readGoLine (.top, ⟨none, [], [], []⟩) ("package "ₛ ++ p) = some (.top, ⟨some p, [], [], []⟩) := by
    show readGoTop _ (tokens _) = _
    rw [show "package "ₛ ++ p = "package"ₛ ++ ' ' :: p by simp,
      tokens_cons (Good.blank (good_literal _ (by decide))) (by decide) rfl, tokens_single (Good.blank (good_ident hp)) hp.1]
    unfold readGoTop
    dsimp only
    rw [if_pos rfl]
  have e2 : ∀ f, readGoLine (.top, f) "import ("ₛ = some (.imports, f) := by
    intro f
    show readGoTop f (tokens "import ("ₛ) = _
    rw [show tokens "import ("ₛ = ["import"ₛ, "("ₛ] by decide]
    rfl
  have e3 : ∀ f, readGoLine (.imports, f) ")"ₛ = some (.top, f) := by
    intro f
    show readGoImport f (tokens ")"ₛ) = _
    rw [show tokens ")"ₛ = [")"ₛ] by decide]
    rfl
  rw [List.foldlM_cons, e1]
  show List.foldlM readGoLine _ _ = _
  rw [List.foldlM_cons, read_nil]
  show List.foldlM readGoLine _ _ = _
  rw [List.foldlM_cons, e2]
  show List.foldlM readGoLine _ _ = _
  rw [List.foldlM_append, read_imports _ _ h]
  show List.foldlM readGoLine _ _ = _
  rw [List.foldlM_cons, e3]
  rfl

theorem newline_header {p : Str} (hp : Ident p) {is : List Str} (h : ∀ i ∈ is, PlainImport i) : ∀ x ∈ headerLines p is, '\n' ∉ x := by
  intro x hx
  unfold headerLines at hx
  rcases List.mem_cons.1 hx with rfl | hx
  · exact newline_append (by decide) (newline_ident hp)
  · rcases List.mem_cons.1 hx with rfl | hx
    · decide
    · rcases List.mem_cons.1 hx with rfl | hx
      · decide
      · rcases List.mem_append.1 hx with hx | hx
        · obtain ⟨i, hi, rfl⟩ := List.mem_map.1 hx
          exact newline_append (newline_append (by decide) (h i hi).2.2) (by decide)
        · rcases List.mem_cons.1 hx with rfl | hx
          · decide
          · rw [List.mem_singleton.1 hx]; decide

/-- A file as lines is read as its parts. -/
theorem read_file {p : Str} (hp : Ident p) {is : List Str} (h : ∀ i ∈ is, PlainImport i) {ds : List (GoStructDecl × Str)}
    (hd : ∀ d ∈ ds, PlainStruct d.1 d.2) :
    readGo (unlines (headerLines p is ++ ds.flatMap fun d => structLines d.1 d.2)) =
      some ⟨some p, is, ds.map Prod.fst, ds.map fun d => (d.1.name, d.2)⟩ := by
  unfold readGo
  rw [split_unlines, List.foldlM_append, List.foldlM_append, read_header hp h]
  · show (do let x ← List.foldlM readGoLine _ _; _).bind goDone = _
    rw [read_structs _ _ hd]
    rfl
  · intro x hx
    rcases List.mem_append.1 hx with hx | hx
    · exact newline_header hp h x hx
    · obtain ⟨d, hd', hx⟩ := List.mem_flatMap.1 hx
      exact newline_struct (hd d hd') x hx

end Octo.Gorm
