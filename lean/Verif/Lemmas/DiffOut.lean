import Verif.Spec.DiffOut
import Verif.Model.DiffOut
import Verif.Lemmas.Mysql
import Verif.Lemmas.DiffTables

namespace Octo
open Spec

/-! ## Reading scripts -/

theorem readAction_congr {s s' : Str} (h : tokens s = tokens s') : readAction s = readAction s' := by
  unfold readAction readCreateTable
  rw [h]

/-- Text that, wherever it stands in a script, contributes the given actions. -/
def Reads (text : Str) (acts : List SqlAction) : Prop :=
  ∀ p rest : Str, (∀ c ∈ p, isBlank c = true) → ∃ q : Str, (∀ c ∈ q, isBlank c = true) ∧
    readScript (p ++ (text ++ rest)) = (readScript (q ++ rest)).map (acts ++ ·)

theorem tokens_blanks {p : Str} (h : ∀ c ∈ p, isBlank c = true) (s : Str) : tokens (p ++ s) = tokens s := by
  induction p with
  | nil => rfl
  | cons c p ih =>
    rw [List.cons_append, tokens_blank (h c List.mem_cons_self), ih fun c hc => h c (List.mem_cons_of_mem _ hc)]

theorem good_blanks {p : Str} (h : ∀ c ∈ p, isBlank c = true) : Good (· == ';') p := by
  refine good_chars fun c hc => ?_
  have := h c hc
  unfold isBlank at this
  simp only [Bool.or_eq_true, beq_iff_eq] at this
  rcases this with ((rfl | rfl) | rfl) | rfl <;> decide

theorem Reads.nil : Reads [] [] := fun p rest hp => ⟨p, hp, by
  rw [List.nil_append]
  cases readScript (p ++ rest) <;> simp⟩

theorem Reads.blank {s : Str} (h : ∀ c ∈ s, isBlank c = true) : Reads s [] := fun p rest hp =>
  ⟨p ++ s, fun c hc => (List.mem_append.1 hc).elim (hp c) (h c), by
    rw [← List.append_assoc]
    cases readScript (p ++ s ++ rest) <;> simp⟩

theorem Reads.append {s t : Str} {a b : List SqlAction} (hs : Reads s a) (ht : Reads t b) : Reads (s ++ t) (a ++ b) := by
  intro p rest hp
  obtain ⟨q, hq, h1⟩ := hs p (t ++ rest) hp
  obtain ⟨r, hr, h2⟩ := ht q rest hq
  refine ⟨r, hr, ?_⟩
  rw [List.append_assoc, h1, h2]
  cases readScript (r ++ rest) <;> simp

theorem Reads.statement {b : Str} (hb : Good (· == ';') b) {a : SqlAction} (h : readAction b = some a) :
    Reads (b ++ ";"ₛ) [a] := by
  intro p rest hp
  refine ⟨[], by simp, ?_⟩
  have e : p ++ (b ++ ";"ₛ ++ rest) = (p ++ b) ++ ';' :: rest := by simp
  have ht : tokens (p ++ b) = tokens b := tokens_blanks hp b
  have hne : (!(tokens (p ++ b)).isEmpty) = true := by
    rw [ht]
    cases h' : tokens b with
    | nil => unfold readAction at h; rw [h'] at h; cases h
    | cons x l => rfl
  unfold readScript statements
  rw [e, parts_cons (.append _ _ (good_blanks hp) hb) rfl,
    List.filter_cons_of_pos (p := fun s => !(Spec.tokens s).isEmpty) hne, List.mapM_cons, readAction_congr ht, h]
  simp only [List.nil_append, bind, Option.bind_some]
  cases List.mapM readAction (List.filter (fun s => !(tokens s).isEmpty) (parts (fun x => x == ';') rest)) <;> rfl

theorem Reads.flatMap {α : Type} {f : α → Str} {g : α → List SqlAction} {l : List α} (h : ∀ x ∈ l, Reads (f x) (g x)) :
    Reads (l.flatMap f) (l.flatMap g) := by
  induction l with
  | nil => exact Reads.nil
  | cons x l ih =>
    rw [List.flatMap_cons, List.flatMap_cons]
    exact (h x List.mem_cons_self).append (ih fun y hy => h y (List.mem_cons_of_mem _ hy))

theorem Reads.script {s : Str} {a : List SqlAction} (h : Reads s a) : readScript s = some a := by
  obtain ⟨q, hq, h1⟩ := h [] [] (by simp)
  simp only [List.append_nil, List.nil_append] at h1
  rw [h1]
  have : readScript q = some [] := by
    unfold readScript statements
    rw [parts_single (good_blanks hq), List.filter_cons_of_neg]
    · rfl
    · have := tokens_blanks hq []
      rw [List.append_nil, tokens_nil] at this
      rw [this]
      simp
  rw [this]
  simp

/-- A statement given by its tokens. -/
theorem Reads.tokens {b : Str} {toks : List Str} (hd : DefText b toks) {a : SqlAction}
    (h : ∀ s, Spec.tokens s = toks → readAction s = some a) : Reads (b ++ ";"ₛ) [a] := by
  refine Reads.statement ?_ (h b hd.tokens)
  rw [hd.eq]
  refine good_join (.char ' ' rfl rfl (by decide) (by decide)) fun s hs => (hd.good s hs).1.mono ?_
  intro c hc
  simp only [sqlSep, Bool.or_eq_true]; exact Or.inr hc

/-! ## The statements -/

theorem dropTable_reads {n : Str} (h : Word n) : Reads ("DROP TABLE "ₛ ++ n ++ ";"ₛ) [.dropTable n] := by
  refine Reads.tokens (toks := ["DROP"ₛ, "TABLE"ₛ, n]) ⟨?_, ?_⟩ ?_
  · simp [join]
  · intro s hs
    simp only [List.mem_cons, List.not_mem_nil, or_false] at hs
    rcases hs with rfl | rfl | rfl
    · exact ⟨good_literal _ rfl, by decide⟩
    · exact ⟨good_literal _ rfl, by decide⟩
    · exact ⟨good_word h, h.1⟩
  · intro s hs
    unfold readAction
    rw [hs]
    dsimp only
    rw [if_neg (by decide), if_neg (by decide), if_pos rfl, if_pos rfl]

theorem renameTable_reads {n m : Str} (h : Word n) (h' : Word m) :
    Reads ("RENAME TABLE "ₛ ++ n ++ " TO "ₛ ++ m ++ ";"ₛ) [.renameTable n m] := by
  refine Reads.tokens (toks := ["RENAME"ₛ, "TABLE"ₛ, n, "TO"ₛ, m]) ⟨?_, ?_⟩ ?_
  · simp [join]
  · intro s hs
    simp only [List.mem_cons, List.not_mem_nil, or_false] at hs
    rcases hs with rfl | rfl | rfl | rfl | rfl
    · exact ⟨good_literal _ rfl, by decide⟩
    · exact ⟨good_literal _ rfl, by decide⟩
    · exact ⟨good_word h, h.1⟩
    · exact ⟨good_literal _ rfl, by decide⟩
    · exact ⟨good_word h', h'.1⟩
  · intro s hs
    unfold readAction
    rw [hs]
    dsimp only
    rw [if_neg (by decide), if_neg (by decide), if_neg (by decide), if_pos rfl, if_pos rfl]

/-- An `ALTER TABLE` statement. -/
theorem alter_reads {n : Str} (hn : Word n) {toks : List Str} (hg : ∀ s ∈ toks, Good sqlSep s ∧ s ≠ []) {a : SqlAction}
    (ha : readAlter n toks = some a) {b : Str} (hb : b = join " "ₛ ("ALTER"ₛ :: "TABLE"ₛ :: n :: toks)) :
    Reads (b ++ ";"ₛ) [a] := by
  refine Reads.tokens (toks := "ALTER"ₛ :: "TABLE"ₛ :: n :: toks) ⟨hb, ?_⟩ ?_
  · intro s hs
    simp only [List.mem_cons] at hs
    rcases hs with rfl | rfl | rfl | hs
    · exact ⟨good_literal _ rfl, by decide⟩
    · exact ⟨good_literal _ rfl, by decide⟩
    · exact ⟨good_word hn, hn.1⟩
    · exact hg s hs
  · intro s hs
    unfold readAction
    rw [hs]
    dsimp only
    rw [if_neg (by decide), if_neg (by decide), if_neg (by decide), if_neg (by decide), if_pos rfl, ha]

theorem dropPrimaryKey_reads {n : Str} (h : Word n) :
    Reads ("ALTER TABLE "ₛ ++ n ++ " DROP PRIMARY KEY;"ₛ) [.dropPrimaryKey n] := by
  have := alter_reads h (toks := ["DROP"ₛ, "PRIMARY"ₛ, "KEY"ₛ]) (a := .dropPrimaryKey n) (by
    intro s hs
    simp only [List.mem_cons, List.not_mem_nil, or_false] at hs
    rcases hs with rfl | rfl | rfl <;> exact ⟨good_literal _ rfl, by decide⟩) rfl rfl
  have e : "ALTER TABLE "ₛ ++ n ++ " DROP PRIMARY KEY;"ₛ =
      join " "ₛ ["ALTER"ₛ, "TABLE"ₛ, n, "DROP"ₛ, "PRIMARY"ₛ, "KEY"ₛ] ++ ";"ₛ := by simp [join]
  rw [e]
  exact this

theorem mapM_some (l : List Str) : l.mapM some = some l := by
  induction l with
  | nil => rfl
  | cons x l ih => rw [List.mapM_cons, ih]; rfl

theorem addPrimaryKey_reads {n : Str} (h : Word n) {cols : List Str} (hc : ∀ c ∈ cols, Word c) :
    Reads ("ALTER TABLE "ₛ ++ n ++ " ADD PRIMARY KEY ("ₛ ++ join ","ₛ cols ++ ");"ₛ) [.addPrimaryKey n cols] := by
  have hg : ∀ a ∈ cols, Good sqlSep a ∧ a ≠ [] := fun a ha => ⟨good_word (hc a ha), (hc a ha).1⟩
  have hp : parenList some (argText ","ₛ cols) = some cols := parenList_args some ","ₛ (Or.inl rfl) cols cols hg (mapM_some cols)
  have := alter_reads h (toks := ["ADD"ₛ, "PRIMARY"ₛ, "KEY"ₛ, argText ","ₛ cols]) (a := .addPrimaryKey n cols) (by
    intro s hs
    simp only [List.mem_cons, List.not_mem_nil, or_false] at hs
    rcases hs with rfl | rfl | rfl | rfl
    · exact ⟨good_literal _ rfl, by decide⟩
    · exact ⟨good_literal _ rfl, by decide⟩
    · exact ⟨good_literal _ rfl, by decide⟩
    · exact ⟨good_argText (Or.inl rfl) fun a ha => (hg a ha).1, by simp [argText]⟩) (by
    rw [readAlter.eq_def]
    dsimp only
    rw [if_neg (by decide), if_pos rfl, if_pos (by rfl)]
    show (some (argText ","ₛ cols)).bind _ = _
    rw [Option.bind_some, hp]
    rfl) rfl
  have e : "ALTER TABLE "ₛ ++ n ++ " ADD PRIMARY KEY ("ₛ ++ join ","ₛ cols ++ ");"ₛ =
      join " "ₛ ["ALTER"ₛ, "TABLE"ₛ, n, "ADD"ₛ, "PRIMARY"ₛ, "KEY"ₛ, argText ","ₛ cols] ++ ";"ₛ := by
    have e2 : join " "ₛ ["ALTER"ₛ, "TABLE"ₛ, n, "ADD"ₛ, "PRIMARY"ₛ, "KEY"ₛ, argText ","ₛ cols] =
      "ALTER"ₛ ++ " "ₛ ++ ("TABLE"ₛ ++ " "ₛ ++ (n ++ " "ₛ ++ ("ADD"ₛ ++ " "ₛ ++ ("PRIMARY"ₛ ++ " "ₛ ++ ("KEY"ₛ ++ " "ₛ ++ argText ","ₛ cols))))) := rfl
    rw [e2]
    unfold argText
    generalize join ","ₛ cols = X
    simp
  rw [e]
  exact this

theorem drop_last_two {l pre : List Str} {a b : Str} (h : l = pre ++ [a, b]) : l.drop (l.length - 2) = [a, b] := by
  subst h
  simp

/-- Reading a modification. -/
theorem readAlter_modify (n : Str) {cols pre : List Str} {a b : Str} (hl : cols = pre ++ [a, b])
    (hne : ¬(a = "PRIMARY"ₛ ∧ b = "KEY"ₛ)) (hc : cols.head? ≠ some "COLUMN"ₛ) :
    readAlter n ("MODIFY"ₛ :: cols) = (readColumn cols).map (.modifyColumn n · false) := by
  have hx : cols.drop (cols.length - 2) ≠ ["PRIMARY"ₛ, "KEY"ₛ] := by
    rw [drop_last_two hl]
    intro h
    rw [List.cons.injEq, List.cons.injEq] at h
    exact hne ⟨h.1, h.2.1⟩
  rw [readAlter.eq_def]
  dsimp only
  rw [if_neg (by decide), if_neg (by decide), if_pos rfl]
  rw [if_neg hc, if_neg hx]

theorem readAlter_modifyColumn (n : Str) (cols : List Str) (hc : cols.head? ≠ some "COLUMN"ₛ) :
    readAlter n ("MODIFY"ₛ :: "COLUMN"ₛ :: cols) = readAlter n ("MODIFY"ₛ :: cols) := by
  rw [readAlter.eq_def, readAlter.eq_def n ("MODIFY"ₛ :: cols)]
  dsimp only
  have k1 : ¬("MODIFY"ₛ = "DROP"ₛ) := by decide
  have k2 : ¬("MODIFY"ₛ = "ADD"ₛ) := by decide
  rw [if_neg k1, if_neg k2, if_pos rfl, if_neg k1, if_neg k2, if_pos rfl]
  have hcol : (if ("COLUMN"ₛ :: cols).head? = some "COLUMN"ₛ then List.drop 1 ("COLUMN"ₛ :: cols) else "COLUMN"ₛ :: cols) =
    cols := if_pos rfl
  rw [hcol, if_neg hc]

theorem readColumn_opts {c : Column} (h : PlainColumn c) :
    readColumn (c.name :: Mysql.toMysqlColumnType c :: (optTokens c).flatten) =
      some (ddlColumn Mysql.toMysqlColumnType c) := by
  rw [readColumn, readOptions_optTokens h _ rfl]
  rfl

theorem opts_last_two {c : Column} (h : PlainColumn c) :
    ∃ pre a b, c.name :: Mysql.toMysqlColumnType c :: (optTokens c).flatten = pre ++ [a, b] ∧
      ¬(a = "PRIMARY"ₛ ∧ b = "KEY"ₛ) := by
  have hty := (good_mysqlType h.type h.values).2.2.1
  unfold optTokens
  by_cases h5 : c.description = []
  · by_cases h4 : c.onUpdate = []
    · by_cases h3 : c.defaultValue = []
      · rw [if_neg (not_not.2 h5), if_neg (not_not.2 h4), if_neg (not_not.2 h3)]
        cases c.autoIncremental
        · cases c.notNull
          · exact ⟨[], c.name, Mysql.toMysqlColumnType c, rfl, fun e => hty e.2⟩
          · exact ⟨[c.name, Mysql.toMysqlColumnType c], "NOT"ₛ, "NULL"ₛ, rfl, fun e => absurd e.1 (by decide)⟩
        · cases c.notNull
          · exact ⟨[c.name], Mysql.toMysqlColumnType c, "AUTO_INCREMENT"ₛ, rfl, fun e => absurd e.2 (by decide)⟩
          · exact ⟨[c.name, Mysql.toMysqlColumnType c, "NOT"ₛ], "NULL"ₛ, "AUTO_INCREMENT"ₛ, rfl, fun e => absurd e.2 (by decide)⟩
      · rw [if_neg (not_not.2 h5), if_neg (not_not.2 h4), if_pos h3]
        refine ⟨c.name :: Mysql.toMysqlColumnType c :: ((if c.notNull then [["NOT"ₛ, "NULL"ₛ]] else []) ++
          (if c.autoIncremental then [["AUTO_INCREMENT"ₛ]] else [])).flatten, "DEFAULT"ₛ, Mysql.valueText c.type c.getDefaultValue, ?_, fun e => absurd e.1 (by decide)⟩
        rw [List.append_nil, List.append_nil, List.flatten_append]
        rfl
    · rw [if_neg (not_not.2 h5), if_pos h4]
      refine ⟨c.name :: Mysql.toMysqlColumnType c :: (((if c.notNull then [["NOT"ₛ, "NULL"ₛ]] else []) ++
        (if c.autoIncremental then [["AUTO_INCREMENT"ₛ]] else []) ++
        (if c.defaultValue ≠ [] then [["DEFAULT"ₛ, Mysql.valueText c.type c.getDefaultValue]] else [])).flatten ++ ["ON"ₛ]),
        "UPDATE"ₛ, Mysql.valueText c.type c.getOnUpdate, ?_, fun e => absurd e.1 (by decide)⟩
      rw [List.append_nil, List.flatten_append, List.cons_append, List.cons_append, List.append_assoc (bs := ["ON"ₛ])]
      rfl
  · rw [if_pos h5]
    refine ⟨c.name :: Mysql.toMysqlColumnType c :: ((if c.notNull then [["NOT"ₛ, "NULL"ₛ]] else []) ++
      (if c.autoIncremental then [["AUTO_INCREMENT"ₛ]] else []) ++
      (if c.defaultValue ≠ [] then [["DEFAULT"ₛ, Mysql.valueText c.type c.getDefaultValue]] else []) ++
      (if c.onUpdate ≠ [] then [["ON"ₛ, "UPDATE"ₛ, Mysql.valueText c.type c.getOnUpdate]] else [])).flatten,
      "COMMENT"ₛ, "'"ₛ ++ c.description ++ "'"ₛ, ?_, fun e => absurd e.1 (by decide)⟩
    rw [List.flatten_append, List.cons_append, List.cons_append]
    rfl

/-! ## Changes -/

/-- A column reduced to name, type and nullability. -/
def bareColumn (c : Column) : Column :=
  { c with autoIncremental := false, defaultValue := [], onUpdate := [], description := [] }

theorem bareColumn_plain {c : Column} (h : PlainColumn c) : PlainColumn (bareColumn c) where
  name := h.name
  type := h.type
  values := h.values
  description := ⟨by simp [bareColumn], by simp [bareColumn]⟩
  default := Or.inl rfl
  onUpdate := Or.inl rfl

theorem bareColumn_type (c : Column) : Mysql.toMysqlColumnType (bareColumn c) = Mysql.toMysqlColumnType c := rfl

theorem columnTokens_good {c : Column} (h : PlainColumn c) :
    ∀ s ∈ c.name :: Mysql.toMysqlColumnType c :: (optTokens c).flatten, Good sqlSep s ∧ s ≠ [] := by
  intro s hs
  simp only [List.mem_cons] at hs
  rcases hs with rfl | rfl | hs
  · exact ⟨good_word h.name, h.name.1⟩
  · exact ⟨(good_mysqlType h.type h.values).1, (good_mysqlType h.type h.values).2.1⟩
  · exact good_optTokens h s hs

theorem join_modify (n x : Str) (l : List Str) :
    join " "ₛ ("ALTER"ₛ :: "TABLE"ₛ :: n :: "MODIFY"ₛ :: x :: l) = "ALTER TABLE "ₛ ++ n ++ " MODIFY "ₛ ++ join " "ₛ (x :: l) := by
  generalize hX : join " "ₛ (x :: l) = X
  rw [join_cons_cons, join_cons_cons, join_cons_cons, join_cons_cons, hX]
  simp

theorem join_modify_two (n y x : Str) (l : List Str) :
    join " "ₛ ("ALTER"ₛ :: "TABLE"ₛ :: n :: "MODIFY"ₛ :: y :: x :: l) =
      "ALTER TABLE "ₛ ++ n ++ " MODIFY "ₛ ++ y ++ " "ₛ ++ join " "ₛ (x :: l) := by
  rw [join_modify, join_cons_cons]
  simp only [List.append_assoc]

theorem modify_reads {n : Str} (hn : Word n) {c : Column} (h : PlainColumn c) (hc : c.name ≠ "COLUMN"ₛ) :
    Reads ("ALTER TABLE "ₛ ++ n ++ " MODIFY "ₛ ++ Mysql.columnDefinition c ++ ";"ₛ)
        [.modifyColumn n (ddlColumn Mysql.toMysqlColumnType c) false] ∧
    Reads ("ALTER TABLE "ₛ ++ n ++ " MODIFY COLUMN "ₛ ++ Mysql.columnDefinition c ++ ";"ₛ)
        [.modifyColumn n (ddlColumn Mysql.toMysqlColumnType c) false] := by
  obtain ⟨pre, a, b, h1, h2⟩ := opts_last_two h
  have hhead : (c.name :: Mysql.toMysqlColumnType c :: (optTokens c).flatten).head? ≠ some "COLUMN"ₛ := by simpa using hc
  have hr := readAlter_modify n h1 h2 hhead
  have hr2 := readAlter_modifyColumn n (c.name :: Mysql.toMysqlColumnType c :: (optTokens c).flatten) hhead
  rw [readColumn_opts h] at hr
  rw [hr] at hr2
  constructor
  · refine alter_reads hn (toks := "MODIFY"ₛ :: c.name :: Mysql.toMysqlColumnType c :: (optTokens c).flatten) ?_ hr ?_
    · intro s hs
      rcases List.mem_cons.1 hs with rfl | hs
      · exact ⟨good_literal _ rfl, by decide⟩
      · exact columnTokens_good h s hs
    · rw [columnDefinition_eq, join_modify]
  · refine alter_reads hn (toks := "MODIFY"ₛ :: "COLUMN"ₛ :: c.name :: Mysql.toMysqlColumnType c :: (optTokens c).flatten) ?_ hr2 ?_
    · intro s hs
      rcases List.mem_cons.1 hs with rfl | hs
      · exact ⟨good_literal _ rfl, by decide⟩
      rcases List.mem_cons.1 hs with rfl | hs
      · exact ⟨good_literal _ rfl, by decide⟩
      · exact columnTokens_good h s hs
    · rw [columnDefinition_eq, join_modify_two]
      generalize join " "ₛ (_ :: _) = X
      simp

/-- The statement for a nullability change says nothing but the type and the nullability. -/
theorem setNotNull_reads {n : Str} (hn : Word n) {c : Column} (h : PlainColumn c) (hc : c.name ≠ "COLUMN"ₛ) {t : Table}
    (ht : t.name = n) (suffix : Str) :
    ∃ s, toSQL suffix (.setNotNull t c) = [s] ∧
      Reads s [.modifyColumn n (ddlColumn Mysql.toMysqlColumnType (bareColumn c)) false] := by
  have := (modify_reads hn (bareColumn_plain h) hc).1
  refine ⟨_, ?_, this⟩
  subst ht
  rw [columnDefinition_eq, bareColumn_type]
  rw [toSQL]
  cases hb : c.notNull
  · have : (optTokens (bareColumn c)).flatten = [] := by simp [optTokens, bareColumn, hb]
    rw [this, if_neg (by simp)]
    simp [join, bareColumn]
  · have : (optTokens (bareColumn c)).flatten = ["NOT"ₛ, "NULL"ₛ] := by simp [optTokens, bareColumn, hb]
    rw [this, if_pos rfl]
    simp [join, bareColumn]

theorem join_ne_nil {sep a : Str} {l : List Str} (ha : a ∈ l) (hne : a ≠ []) : join sep l ≠ [] := by
  induction l with
  | nil => cases ha
  | cons x l ih =>
    cases l with
    | nil => rw [List.mem_singleton] at ha; subst ha; exact hne
    | cons y l =>
      rw [join_cons_cons]
      rcases List.mem_cons.1 ha with rfl | ha
      · simp [hne]
      · have := ih ha
        simp [this]

theorem setAutoIncrement_on_reads {t : Table} (hn : Word t.name) {c : Column} (h : PlainColumn c) (hc : c.name ≠ "COLUMN"ₛ)
    (ha : c.autoIncremental = true) (suffix : Str) :
    ∃ s, toSQL suffix (.setAutoIncrement t c) = [s] ∧
      Reads s [.modifyColumn t.name (ddlColumn Mysql.toMysqlColumnType c) false] := by
  refine ⟨_, ?_, (modify_reads hn h hc).2⟩
  rw [toSQL, if_pos ha]
  have hne : Mysql.columnConstraints c ≠ [] := by
    rw [columnConstraints_eq]
    refine join_ne_nil (a := "AUTO_INCREMENT"ₛ) (List.mem_flatten.2 ⟨["AUTO_INCREMENT"ₛ], ?_, List.mem_singleton_self _⟩)
      (by decide)
    simp only [optTokens, List.mem_append]
    exact Or.inl (Or.inl (Or.inl (Or.inr (by rw [if_pos ha]; exact List.mem_singleton_self _))))
  rw [Mysql.columnDefinition, if_pos hne]
  generalize Mysql.columnConstraints c = X
  generalize Mysql.toMysqlColumnType c = Y
  simp [join]

theorem setAutoIncrement_off_reads {t : Table} (hn : Word t.name) {c : Column} (h : PlainColumn c) (hc : c.name ≠ "COLUMN"ₛ)
    (ha : c.autoIncremental = false) (suffix : Str) :
    ∃ s, toSQL suffix (.setAutoIncrement t c) = [s] ∧
      Reads s [.modifyColumn t.name { name := c.name, type := Mysql.toMysqlColumnType c, autoIncrement := true } true] := by
  rw [toSQL, if_neg (by simp [ha])]
  refine ⟨_, rfl, ?_⟩
  have e : "ALTER TABLE "ₛ ++ t.name ++ " MODIFY COLUMN "ₛ ++ c.name ++ " "ₛ ++ Mysql.toMysqlColumnType c ++
      " AUTO_INCREMENT PRIMARY KEY;"ₛ = join " "ₛ ("ALTER"ₛ :: "TABLE"ₛ :: t.name ::
        ["MODIFY"ₛ, "COLUMN"ₛ, c.name, Mysql.toMysqlColumnType c, "AUTO_INCREMENT"ₛ, "PRIMARY"ₛ, "KEY"ₛ]) ++ ";"ₛ := by
    generalize Mysql.toMysqlColumnType c = Y
    simp [join]
  rw [e]
  refine alter_reads hn ?_ ?_ rfl
  · intro s hs
    simp only [List.mem_cons, List.not_mem_nil, or_false] at hs
    rcases hs with rfl | rfl | rfl | rfl | rfl | rfl | rfl
    · exact ⟨good_literal _ rfl, by decide⟩
    · exact ⟨good_literal _ rfl, by decide⟩
    · exact ⟨good_word h.name, h.name.1⟩
    · exact ⟨(good_mysqlType h.type h.values).1, (good_mysqlType h.type h.values).2.1⟩
    · exact ⟨good_literal _ rfl, by decide⟩
    · exact ⟨good_literal _ rfl, by decide⟩
    · exact ⟨good_literal _ rfl, by decide⟩
  · rw [readAlter_modifyColumn _ _ (by simpa using hc), readAlter.eq_def]
    dsimp only
    have hcol : ([c.name, Mysql.toMysqlColumnType c, "AUTO_INCREMENT"ₛ, "PRIMARY"ₛ, "KEY"ₛ].head? = some "COLUMN"ₛ) = False := by
      simpa using hc
    rw [if_neg (by decide), if_neg (by decide), if_pos rfl]
    simp only [hcol, if_false]
    rw [if_pos (by rfl)]
    rfl

/-- No type is a keyword of the column options. -/
theorem mysqlType_not_keyword {c : Column} (ht : c.type ∈ colTypes) :
    ∀ k ∈ ["AUTO_INCREMENT"ₛ, "NOT"ₛ, "DEFAULT"ₛ, "COMMENT"ₛ, "ON"ₛ], Mysql.toMysqlColumnType c ≠ k := by
  obtain ⟨e, he, hte⟩ := mysqlTypes_of_mem ht
  have hlow : ∀ e ∈ mysqlTypes, ∃ x l, e.2.1 = x :: l ∧ x.isLower = true := by
    have : mysqlTypes.all (fun e => match e.2.1 with | [] => false | x :: _ => x.isLower) = true := by decide +kernel
    intro e he
    have := List.all_eq_true.1 this e he
    split at this
    · cases this
    · rename_i x l h; exact ⟨x, l, h, this⟩
  obtain ⟨x, l, hx, hlow⟩ := hlow e he
  rw [toMysqlColumnType_eq c e he hte]
  obtain ⟨sep, hsep, heq⟩ := mysqlTypeText_eq e.2.1 e.2.2 c
  rw [heq, hx]
  intro k hk hc
  have hk2 : ∀ k ∈ ["AUTO_INCREMENT"ₛ, "NOT"ₛ, "DEFAULT"ₛ, "COMMENT"ₛ, "ON"ₛ], k.head?.map Char.isLower = some false := by
    decide
  have := hk2 k hk
  rw [← hc] at this
  simp [hlow] at this

/-- The statement for an added column cannot be read. -/
theorem addColumn_unreadable {t : Table} (hn : Word t.name) {c : Column} (h : PlainColumn c) (suffix : Str) :
    ∃ s, toSQL suffix (.addColumn t c) = [s ++ ";"ₛ] ∧ Good (· == ';') s ∧ tokens s ≠ [] ∧ readAction s = none := by
  have ht : toSQL suffix (.addColumn t c) = ["ALTER TABLE "ₛ ++ t.name ++ " MODIFY ADD "ₛ ++ Mysql.columnDefinition c ++ ";"ₛ] := by
    rw [toSQL, Mysql.columnDefinition]
    generalize Mysql.columnConstraints c = X
    generalize Mysql.toMysqlColumnType c = Y
    by_cases hX : X = []
    · simp [hX, join]
    · simp [hX, join]
  have hd : DefText ("ALTER TABLE "ₛ ++ t.name ++ " MODIFY ADD "ₛ ++ Mysql.columnDefinition c)
      ("ALTER"ₛ :: "TABLE"ₛ :: t.name :: "MODIFY"ₛ :: "ADD"ₛ :: c.name :: Mysql.toMysqlColumnType c :: (optTokens c).flatten) := by
    refine ⟨?_, ?_⟩
    · rw [columnDefinition_eq, join_modify_two]
      generalize join " "ₛ (_ :: _) = X
      simp
    · intro s hs
      rw [List.mem_cons, List.mem_cons, List.mem_cons, List.mem_cons, List.mem_cons] at hs
      rcases hs with rfl | rfl | rfl | rfl | rfl | hs
      · exact ⟨good_literal _ rfl, by decide⟩
      · exact ⟨good_literal _ rfl, by decide⟩
      · exact ⟨good_word hn, hn.1⟩
      · exact ⟨good_literal _ rfl, by decide⟩
      · exact ⟨good_literal _ rfl, by decide⟩
      · exact columnTokens_good h s hs
  refine ⟨_, ht, ?_, by rw [hd.tokens]; simp, ?_⟩
  · rw [hd.eq]
    refine good_join (.char ' ' rfl rfl (by decide) (by decide)) fun s hs => (hd.good s hs).1.mono ?_
    intro c hc
    simp only [sqlSep, Bool.or_eq_true]; exact Or.inr hc
  · unfold readAction
    rw [hd.tokens]
    dsimp only
    rw [if_neg (by decide), if_neg (by decide), if_neg (by decide), if_neg (by decide), if_pos rfl]
    obtain ⟨pre, a, b, h1, h2⟩ := opts_last_two h
    rw [readAlter_modify t.name (pre := "ADD"ₛ :: pre) (a := a) (b := b) (by rw [h1]; rfl) h2 (by
      rw [List.head?_cons]; decide), readColumn]
    have hk := mysqlType_not_keyword h.type
    simp only [List.forall_mem_cons] at hk
    obtain ⟨k1, k2, k3, k4, k5, -⟩ := hk
    rw [readOptions.eq_def]
    dsimp only
    rw [if_neg k1]
    cases (optTokens c).flatten with
    | nil => rfl
    | cons v r =>
      dsimp only
      rw [if_neg (fun e => k2 e.1), if_neg k3, if_neg k4, if_neg (fun e => k5 e.1)]
      rfl

theorem primaryKey_slice (t : Table) :
    t.primaryKeyNameSet.slice = sortStrings ((t.columns.filter (·.primaryKey)).map (·.name)).dedup := by
  refine sortStrings_congr ?_
  rw [id, List.perm_ext_iff_of_nodup (nodup_primaryKeyNameSet t) (List.nodup_dedup _)]
  intro n
  rw [mem_primaryKeyNameSet, List.mem_dedup]
  simp [and_assoc]

theorem createTable_reads {suffix : Str} (hsuf : UnescapedName suffix) {t : Table} (h : PlainTable t) :
    Reads (Mysql.exportTable suffix t) [.createTable (ddlTable Mysql.toMysqlColumnType suffix t)] := by
  obtain ⟨h1, h2, h3⟩ := statement_read hsuf h
  have e : Mysql.exportTable suffix t = statementText suffix t ++ ";"ₛ ++ "\n"ₛ := by
    rw [exportTable_eq, List.append_assoc]; rfl
  rw [e]
  have : Reads (statementText suffix t ++ ";"ₛ) [.createTable (ddlTable Mysql.toMysqlColumnType suffix t)] := by
    refine Reads.statement h1 ?_
    unfold readAction
    rw [h2]
    dsimp only
    rw [if_neg (by decide), if_pos rfl, h3 _ rfl]
    rfl
  exact this.append (Reads.blank (s := "\n"ₛ) (by decide))

theorem lines_reads {ss : List Str} {acts : List SqlAction} (h : Reads (ss.flatMap fun s => s) acts) :
    ∀ s, ss = [s] → Reads (ss.flatMap (· ++ "\n"ₛ)) acts := by
  rintro s rfl
  simp only [List.flatMap_cons, List.flatMap_nil, List.append_nil] at h ⊢
  have := h.append (Reads.blank (s := "\n"ₛ) (by decide))
  rwa [List.append_nil] at this

theorem one_line {s : Str} {acts : List SqlAction} (h : Reads s acts) : Reads ([s].flatMap (· ++ "\n"ₛ)) acts :=
  lines_reads (by simpa using h) s rfl

/-- The statements for a change say what is meant. -/
theorem change_reads {suffix : Str} (hsuf : UnescapedName suffix) {c : Change} (hp : PlainChange c) (hok : SqlOk c) :
    Reads ((toSQL suffix c).flatMap (· ++ "\n"ₛ)) (meant Mysql.toMysqlColumnType suffix c) := by
  cases c with
  | createTable t => exact one_line (createTable_reads hsuf hp)
  | dropTable t => exact one_line (dropTable_reads hp)
  | renameTable o n => exact one_line (renameTable_reads hp.1 hp.2)
  | updatePrimaryKey o n =>
    obtain ⟨hn, hc⟩ := hp
    have ho : o.columns.any (·.primaryKey) = true := hok
    rw [toSQL, meant, if_pos ho, primaryKey_slice, List.flatMap_append]
    refine (one_line (dropPrimaryKey_reads hn)).append ?_
    by_cases hk : n.columns.any (·.primaryKey) = true
    · rw [if_pos hk, if_pos]
      · refine one_line (addPrimaryKey_reads hn ?_)
        intro m hm
        rw [mem_sortStrings, List.mem_dedup] at hm
        obtain ⟨c, hcm, rfl⟩ := List.mem_map.1 hm
        exact hc c (List.mem_filter.1 hcm).1
      · obtain ⟨c, hcm, hcp⟩ := List.any_eq_true.1 hk
        have : c.name ∈ sortStrings ((n.columns.filter (·.primaryKey)).map (·.name)).dedup := by
          rw [mem_sortStrings, List.mem_dedup]
          exact List.mem_map_of_mem (List.mem_filter.2 ⟨hcm, hcp⟩)
        exact List.length_pos_of_mem this
    · rw [if_neg hk, if_neg]
      · exact Reads.nil
      · intro hlen
        obtain ⟨m, hm⟩ := List.exists_mem_of_length_pos hlen
        rw [mem_sortStrings, List.mem_dedup] at hm
        obtain ⟨c, hcm, rfl⟩ := List.mem_map.1 hm
        exact hk (List.any_eq_true.2 ⟨c, (List.mem_filter.1 hcm).1, (List.mem_filter.1 hcm).2⟩)
  | setNotNull t c =>
    obtain ⟨hn, hc, hne⟩ := hp
    obtain ⟨s, hs, hr⟩ := setNotNull_reads hn hc hne (t := t) rfl suffix
    have hb : bareColumn c = c := by
      obtain ⟨h1, h2, h3, h4⟩ : OnlyNullability c := hok
      obtain ⟨⟩ := c
      simp only at h1 h2 h3 h4
      subst h1 h2 h3 h4
      rfl
    rw [hs, meant, ← hb]
    exact one_line hr
  | setAutoIncrement t c =>
    obtain ⟨hn, hc, hne⟩ := hp
    obtain ⟨s, hs, hr⟩ := setAutoIncrement_on_reads hn hc hne hok suffix
    rw [hs]
    exact one_line hr
  | _ => exact absurd hok (by simp [SqlOk])

theorem flyway_reads {suffix : Str} (hsuf : UnescapedName suffix) {cs : List ChangeSet}
    (h : ∀ s ∈ cs, ∀ c ∈ s.changes, PlainChange c ∧ SqlOk c) :
    Reads (flyway suffix cs) (cs.flatMap fun s => s.changes.flatMap (meant Mysql.toMysqlColumnType suffix)) := by
  refine Reads.flatMap fun s hs => ?_
  have := (Reads.flatMap (f := fun c => (toSQL suffix c).flatMap (· ++ "\n"ₛ)) fun c hc =>
    change_reads hsuf (h s hs c hc).1 (h s hs c hc).2).append (Reads.blank (s := "\n"ₛ) (by decide))
  rwa [List.append_nil] at this

/-- A script with a readable statement list containing an unreadable one cannot be read. -/
theorem unreadable {s : Str} (hg : Good (· == ';') s) (hne : tokens s ≠ []) (hr : readAction s = none) (rest : Str) :
    readScript (s ++ ";"ₛ ++ rest) = none := by
  have e : s ++ ";"ₛ ++ rest = s ++ ';' :: rest := by simp
  have hne' : (!(tokens s).isEmpty) = true := by cases h : tokens s <;> simp_all
  unfold readScript statements
  rw [e, parts_cons hg rfl, List.filter_cons_of_pos (p := fun s => !(Spec.tokens s).isEmpty) hne', List.mapM_cons, hr]
  rfl

/-! ## The markdown report -/

/-- The changes put into the multimap. -/
def byTable (all : List Change) : MultiMap Str Change :=
  all.foldl (fun (m : MultiMap Str Change) c => m.put c.depTable.name c) MultiMap.empty

theorem byTable_eq (cs : List ChangeSet) : cs.foldl (fun m s => s.changes.foldl (fun (m : MultiMap Str Change) c =>
    m.put c.depTable.name c) m) MultiMap.empty = byTable (cs.flatMap (·.changes)) := by
  unfold byTable
  rw [List.foldl_flatMap]

theorem byTable_append (l : List Change) (c : Change) : byTable (l ++ [c]) = (byTable l).put c.depTable.name c := by
  simp [byTable]

theorem byTable_get (all : List Change) (n : Str) :
    ((byTable all).get n).getD [] = all.filter fun c => decide (c.depTable.name = n) := by
  induction all using List.reverseRecOn with
  | nil => rfl
  | append_singleton l c ih =>
    rw [byTable_append, List.filter_append]
    simp only [MultiMap.put, MultiMap.get, MultiMap.lookup_setKey]
    by_cases h : n = c.depTable.name
    · subst h
      rw [if_pos rfl, Option.getD_some]
      simp only [MultiMap.get] at ih
      rw [ih]
      simp
    · rw [if_neg h]
      simp only [MultiMap.get] at ih
      rw [ih]
      have : ¬c.depTable.name = n := fun e => h e.symm
      simp [this]

theorem byTable_keys (all : List Change) :
    ((byTable all).store.map Prod.fst).Nodup ∧ ∀ n, n ∈ (byTable all).store.map Prod.fst ↔ ∃ c ∈ all, c.depTable.name = n := by
  induction all using List.reverseRecOn with
  | nil => exact ⟨List.nodup_nil, by simp [byTable, MultiMap.empty]⟩
  | append_singleton l c ih =>
    rw [byTable_append]
    simp only [MultiMap.put, MultiMap.keys_setKey]
    by_cases h : c.depTable.name ∈ (byTable l).store.map Prod.fst
    · rw [if_pos h]
      refine ⟨ih.1, fun n => ?_⟩
      rw [ih.2]
      constructor
      · rintro ⟨d, hd, rfl⟩; exact ⟨d, List.mem_append_left _ hd, rfl⟩
      · rintro ⟨d, hd, rfl⟩
        rcases List.mem_append.1 hd with hd | hd
        · exact ⟨d, hd, rfl⟩
        · rw [List.mem_singleton] at hd; subst hd; exact (ih.2 _).1 h
    · rw [if_neg h]
      refine ⟨List.nodup_append.2 ⟨ih.1, by simp, ?_⟩, fun n => ?_⟩
      · rintro a ha b hb rfl
        rw [List.mem_singleton] at hb; subst hb; exact h ha
      · rw [List.mem_append, ih.2, List.mem_singleton]
        constructor
        · rintro (⟨d, hd, rfl⟩ | rfl)
          · exact ⟨d, List.mem_append_left _ hd, rfl⟩
          · exact ⟨c, by simp, rfl⟩
        · rintro ⟨d, hd, rfl⟩
          rcases List.mem_append.1 hd with hd | hd
          · exact Or.inl ⟨d, hd, rfl⟩
          · rw [List.mem_singleton] at hd; subst hd; exact Or.inr rfl

/-- The table names of a report. -/
def reportNames (all : List Change) : List Str := sortStrings ((byTable all).store.map Prod.fst)

/-- The lines of a report. -/
def sectionLines (sections : List (Str × List Str)) : List Str :=
  sections.flatMap fun s => [] :: ("## "ₛ ++ s.1) :: s.2.map ("* "ₛ ++ ·)

def reportLines (fromVersion toVersion : Str) (sections : List (Str × List Str)) : List Str :=
  "# DB Schema changes"ₛ :: [] :: ("* from: `"ₛ ++ fromVersion ++ "`"ₛ) :: ("* to: `"ₛ ++ toVersion ++ "`"ₛ) ::
    sectionLines sections

def reportSections (all : List Change) : List (Str × List Str) :=
  (reportNames all).map fun n => (n, (all.filter fun c => decide (c.depTable.name = n)).map toMarkdownLine)

theorem markdown_eq {ord : List Str → List Str} (hord : ∀ l, (ord l).Perm l) (f t : Str) (cs : List ChangeSet) :
    markdown ord f t cs = (reportLines f t (reportSections (cs.flatMap (·.changes)))).flatMap (· ++ "\n"ₛ) := by
  unfold markdown
  dsimp only
  rw [byTable_eq]
  have hk : sortStrings ((byTable (cs.flatMap (·.changes))).keys ord) = reportNames (cs.flatMap (·.changes)) :=
    sortStrings_congr (hord _)
  rw [hk]
  generalize cs.flatMap (·.changes) = all
  unfold reportLines reportSections sectionLines
  simp only [List.flatMap_cons, List.flatMap_map, List.flatMap_assoc, List.map_map]
  have e : ∀ n, ("\n"ₛ ++ "## "ₛ ++ n ++ "\n"ₛ ++ (((byTable all).get n).getD []).flatMap fun c => "* "ₛ ++ toMarkdownLine c ++ "\n"ₛ) =
      [] ++ "\n"ₛ ++ ("## "ₛ ++ n ++ "\n"ₛ ++ (all.filter fun c => decide (c.depTable.name = n)).flatMap fun c =>
        "* "ₛ ++ toMarkdownLine c ++ "\n"ₛ) := by
    intro n
    rw [byTable_get]
    simp only [List.append_assoc, List.nil_append]
  simp only [e]
  simp

theorem split_lines {sep : Char} {ls : List Str} (h : ∀ l ∈ ls, sep ∉ l) :
    split sep (ls.flatMap (· ++ [sep])) = ls ++ [[]] := by
  induction ls with
  | nil => rfl
  | cons l ls ih =>
    have e : (l :: ls).flatMap (· ++ [sep]) = l ++ sep :: ls.flatMap (· ++ [sep]) := by simp
    rw [e, split_append_sep (h l List.mem_cons_self), ih fun l hl => h l (List.mem_cons_of_mem _ hl)]
    rfl

theorem readSections_items {items : List Str} {rest : List Str} {its : List Str} {secs : List (Str × List Str)}
    (h : readSections rest = some (its, secs)) :
    readSections (items.map ("* "ₛ ++ ·) ++ rest) = some (items ++ its, secs) := by
  induction items with
  | nil => exact h
  | cons x items ih =>
    rw [List.map_cons, List.cons_append, readSections, ih]
    have h1 : ¬("* "ₛ ++ x = []) := by simp
    have h2 : ¬(hasPrefix ("* "ₛ ++ x) "## "ₛ = true) := by
      simp [hasPrefix]
    have h3 : hasPrefix ("* "ₛ ++ x) "* "ₛ = true := by simp [hasPrefix]
    dsimp only
    rw [if_neg h1, if_neg h2, if_pos h3]
    rfl

theorem readSections_lines (secs : List (Str × List Str)) :
    readSections (sectionLines secs ++ [[]]) = some ([], secs) := by
  induction secs with
  | nil => rfl
  | cons s secs ih =>
    have e : sectionLines (s :: secs) ++ [[]] =
        [] :: ("## "ₛ ++ s.1) :: (s.2.map ("* "ₛ ++ ·) ++ (sectionLines secs ++ [[]])) := by
      simp [sectionLines]
    rw [e, readSections, readSections, readSections_items ih]
    have h1 : ¬("## "ₛ ++ s.1 = []) := by simp
    have h3 : hasPrefix ("## "ₛ ++ s.1) "## "ₛ = true := by simp [hasPrefix]
    dsimp only
    rw [if_neg h1, if_pos h3, List.append_nil]
    rfl

theorem between_wrap (pre suf x : Str) : between pre suf (pre ++ x ++ suf) = some x := by
  unfold between
  have h1 : hasPrefix (pre ++ x ++ suf) pre = true := by rw [hasPrefix_iff]; exact ⟨x ++ suf, by simp⟩
  have h2 : hasSuffix (pre ++ x ++ suf) suf = true := by rw [hasSuffix_iff]; exact ⟨pre ++ x, rfl⟩
  rw [h1, h2, if_pos (by simp)]
  congr 1
  simp [List.append_assoc]

theorem readReport_lines {f t : Str} {secs : List (Str × List Str)} (hf : '\n' ∉ f) (ht : '\n' ∉ t)
    (hs : ∀ s ∈ secs, '\n' ∉ s.1 ∧ ∀ i ∈ s.2, '\n' ∉ i) :
    readReport ((reportLines f t secs).flatMap (· ++ "\n"ₛ)) = some ⟨f, t, secs⟩ := by
  unfold readReport
  have hn : ∀ l ∈ reportLines f t secs, '\n' ∉ l := by
    intro l hl
    simp only [reportLines, sectionLines, List.mem_cons, List.mem_flatMap, List.mem_map] at hl
    rcases hl with rfl | rfl | rfl | rfl | ⟨s, hs', rfl | rfl | ⟨i, hi, rfl⟩⟩
    · decide
    · simp
    · simp [hf]
    · simp [ht]
    · simp
    · simpa using (hs s hs').1
    · simpa using (hs s hs').2 i hi
  have e := split_lines hn
  have : "\n"ₛ = ['\n'] := rfl
  rw [this, e]
  unfold reportLines
  simp only [List.cons_append]
  simp only [and_self, if_true]
  rw [between_wrap, between_wrap, Option.bind_some, Option.bind_some, readSections_lines]

theorem hasPrefix_clash {pre p : Str} (h1 : hasPrefix pre p = false) (h2 : hasPrefix p pre = false) (r : Str) :
    hasPrefix (pre ++ r) p = false := by
  rw [Bool.eq_false_iff]
  intro h
  obtain ⟨x, hx⟩ := (hasPrefix_iff _ _).1 h
  rcases List.append_eq_append_iff.1 hx with ⟨a, ha, -⟩ | ⟨a, ha, -⟩
  · rw [Bool.eq_false_iff] at h2
    exact h2 ((hasPrefix_iff _ _).2 ⟨a, ha⟩)
  · rw [Bool.eq_false_iff] at h1
    exact h1 ((hasPrefix_iff _ _).2 ⟨a, ha⟩)

theorem itemPrefixes_clash : itemPrefixes.Pairwise fun p q => hasPrefix p.1 q.1 = false ∧ hasPrefix q.1 p.1 = false := by
  decide +kernel

theorem readKind_of {pre : Str} {k : ItemKind} (h : (pre, k) ∈ itemPrefixes) (r : Str) : readKind (pre ++ r) = some k := by
  obtain ⟨ps, qs, he⟩ := List.append_of_mem h
  have hc := itemPrefixes_clash
  rw [he, List.pairwise_append] at hc
  unfold readKind
  rw [he, List.find?_append, List.find?_eq_none.2 (fun p hp => by
    have := hc.2.2 p hp _ List.mem_cons_self
    simp [hasPrefix_clash this.2 this.1 r])]
  have : hasPrefix (pre ++ r) pre = true := by rw [hasPrefix_iff]; exact ⟨r, rfl⟩
  rw [List.find?_cons_of_pos (p := fun p : Str × ItemKind => hasPrefix (pre ++ r) p.1) (a := (pre, k)) this]
  rfl

theorem readSubject_of {pre x : Str} (h1 : '`' ∉ pre) (h2 : '`' ∉ x) (r : Str) :
    readSubject (pre ++ '`' :: (x ++ '`' :: r)) = x := by
  unfold readSubject
  have d1 : (pre ++ '`' :: (x ++ '`' :: r)).dropWhile (· != '`') = '`' :: (x ++ '`' :: r) := by
    rw [List.dropWhile_append_of_pos]
    · simp
    · intro c hc; rw [bne_iff_ne]; rintro rfl; exact h1 hc
  rw [d1, List.drop_succ_cons, List.drop_zero, List.takeWhile_append_of_pos]
  · simp
  · intro c hc; rw [bne_iff_ne]; rintro rfl; exact h2 hc

theorem readKind_line (c : Change) : readKind (toMarkdownLine c) = some (kindOf c) := by
  have key : ∀ {k : ItemKind} (lit pre : Str), (pre, k) ∈ itemPrefixes → hasPrefix lit pre = true → ∀ r,
      readKind (lit ++ r) = some k := by
    intro k lit pre h hp r
    obtain ⟨x, rfl⟩ := (hasPrefix_iff _ _).1 hp
    rw [List.append_assoc]
    exact readKind_of h _
  cases c with
  | createTable => exact key (k := .createTable) "create table"ₛ "create table"ₛ (by decide +kernel) (by decide +kernel) []
  | dropTable => exact key (k := .dropTable) "drop table"ₛ "drop table"ₛ (by decide +kernel) (by decide +kernel) []
  | renameTable =>
    unfold toMarkdownLine kindOf
    simp only [List.append_assoc]
    exact key (k := .renameTable) "rename table `"ₛ "rename table "ₛ (by decide +kernel) (by decide +kernel) _
  | updatePrimaryKey =>
    unfold toMarkdownLine kindOf
    simp only [List.append_assoc]
    exact key (k := .updatePrimaryKey) "update PK: ["ₛ "update PK: "ₛ (by decide +kernel) (by decide +kernel) _
  | createUnique =>
    unfold toMarkdownLine kindOf
    simp only [List.append_assoc]
    exact key (k := .createUnique) "create unique constraint: ["ₛ "create unique constraint: "ₛ (by decide +kernel) (by decide +kernel) _
  | dropUnique =>
    unfold toMarkdownLine kindOf
    simp only [List.append_assoc]
    exact key (k := .dropUnique) "drop unique constraint: ["ₛ "drop unique constraint: "ₛ (by decide +kernel) (by decide +kernel) _
  | setTableComment =>
    unfold toMarkdownLine kindOf
    simp only [List.append_assoc]
    exact key (k := .tableComment) "update table comment: `"ₛ "update table comment: "ₛ (by decide +kernel) (by decide +kernel) _
  | addColumn =>
    unfold toMarkdownLine kindOf
    simp only [List.append_assoc]
    exact key (k := .addColumn) "add column: `"ₛ "add column: "ₛ (by decide +kernel) (by decide +kernel) _
  | dropColumn =>
    unfold toMarkdownLine kindOf
    simp only [List.append_assoc]
    exact key (k := .dropColumn) "drop column: `"ₛ "drop column: "ₛ (by decide +kernel) (by decide +kernel) _
  | setColumnComment =>
    unfold toMarkdownLine kindOf
    simp only [List.append_assoc]
    exact key (k := .columnComment) "update column comment: `"ₛ "update column comment: "ₛ (by decide +kernel) (by decide +kernel) _
  | changeColumnType =>
    unfold toMarkdownLine kindOf
    simp only [List.append_assoc]
    exact key (k := .columnType) "change column type: `"ₛ "change column type: "ₛ (by decide +kernel) (by decide +kernel) _
  | renameColumn =>
    unfold toMarkdownLine kindOf
    simp only [List.append_assoc]
    exact key (k := .renameColumn) "rename column: `"ₛ "rename column: "ₛ (by decide +kernel) (by decide +kernel) _
  | setNotNull t c =>
    unfold toMarkdownLine kindOf
    dsimp only
    cases c.notNull
    · rw [if_neg (by decide), if_neg (by decide)]
      simp only [List.append_assoc]
      exact key (k := .nullable) "set nullable: `"ₛ "set nullable: "ₛ (by decide +kernel) (by decide +kernel) _
    · rw [if_pos rfl, if_pos rfl]
      simp only [List.append_assoc]
      exact key (k := .notNull) "set not null: `"ₛ "set not null: "ₛ (by decide +kernel) (by decide +kernel) _
  | setAutoIncrement t c =>
    unfold toMarkdownLine kindOf
    dsimp only
    cases c.autoIncremental
    · rw [if_neg (by decide), if_neg (by decide)]
      simp only [List.append_assoc]
      exact key (k := .autoOff) "remove auto incremental: `"ₛ "remove auto incremental: "ₛ (by decide +kernel) (by decide +kernel) _
    · rw [if_pos rfl, if_pos rfl]
      simp only [List.append_assoc]
      exact key (k := .autoOn) "set auto incremental: `"ₛ "set auto incremental: "ₛ (by decide +kernel) (by decide +kernel) _
  | setDefaultValue t c =>
    unfold toMarkdownLine kindOf
    dsimp only
    by_cases h : c.defaultValue = []
    · rw [if_pos h, if_pos h]
      simp only [List.append_assoc]
      exact key (k := .removeDefault) "remove default value: `"ₛ "remove default value: "ₛ (by decide +kernel) (by decide +kernel) _
    · rw [if_neg h, if_neg h]
      simp only [List.append_assoc]
      exact key (k := .setDefault) "update default value: `"ₛ "update default value: "ₛ (by decide +kernel) (by decide +kernel) _

theorem readSubject_line {c : Change} {n : Str} (h : subjectOf c = some n) (hn : '`' ∉ n) :
    readSubject (toMarkdownLine c) = n := by
  have key : ∀ (lit pre : Str), lit = pre ++ "`"ₛ → '`' ∉ pre → ∀ r s : Str, s = lit ++ (n ++ ("`"ₛ ++ r)) → readSubject s = n := by
    intro lit pre h hp r s hs
    subst h hs
    have e : pre ++ "`"ₛ ++ (n ++ ("`"ₛ ++ r)) = pre ++ '`' :: (n ++ '`' :: r) := by simp
    rw [e]
    exact readSubject_of hp hn r
  unfold subjectOf at h
  unfold toMarkdownLine
  cases c with
  | createTable => cases h
  | dropTable => cases h
  | updatePrimaryKey => cases h
  | createUnique => cases h
  | dropUnique => cases h
  | setTableComment => cases h
  | renameTable o m =>
    cases h
    have e : "` → `"ₛ = "`"ₛ ++ " → `"ₛ := by decide
    exact key "rename table `"ₛ "rename table "ₛ (by decide) (by decide) (" → `"ₛ ++ (m.name ++ "`"ₛ)) _ (by
      dsimp only; rw [e]; simp only [List.append_assoc])
  | addColumn t c =>
    cases h
    exact key "add column: `"ₛ "add column: "ₛ (by decide) (by decide) [] _ (by
      dsimp only; simp only [List.append_assoc, List.append_nil])
  | dropColumn t m =>
    cases h
    exact key "drop column: `"ₛ "drop column: "ₛ (by decide) (by decide) [] _ (by
      dsimp only; simp only [List.append_assoc, List.append_nil])
  | setColumnComment t c =>
    cases h
    have e : "` :`"ₛ = "`"ₛ ++ " :`"ₛ := by decide
    exact key "update column comment: `"ₛ "update column comment: "ₛ (by decide) (by decide) (" :`"ₛ ++ (c.description ++ "`"ₛ)) _ (by
      dsimp only; rw [e]; simp only [List.append_assoc])
  | changeColumnType t o c =>
    cases h
    have e : "` :`"ₛ = "`"ₛ ++ " :`"ₛ := by decide
    exact key "change column type: `"ₛ "change column type: "ₛ (by decide) (by decide)
      (" :`"ₛ ++ (o.format ++ ("` → `"ₛ ++ (c.format ++ "`"ₛ)))) _ (by
      dsimp only; rw [e]; simp only [List.append_assoc])
  | renameColumn t o m =>
    cases h
    have e : "` → `"ₛ = "`"ₛ ++ " → `"ₛ := by decide
    exact key "rename column: `"ₛ "rename column: "ₛ (by decide) (by decide) (" → `"ₛ ++ (m.name ++ "`"ₛ)) _ (by
      dsimp only; rw [e]; simp only [List.append_assoc])
  | setNotNull t c =>
    cases h
    dsimp only
    split
    · exact key "set not null: `"ₛ "set not null: "ₛ (by decide) (by decide) [] _ (by
        simp only [List.append_assoc, List.append_nil])
    · exact key "set nullable: `"ₛ "set nullable: "ₛ (by decide) (by decide) [] _ (by
        simp only [List.append_assoc, List.append_nil])
  | setAutoIncrement t c =>
    cases h
    dsimp only
    split
    · exact key "set auto incremental: `"ₛ "set auto incremental: "ₛ (by decide) (by decide) [] _ (by
        simp only [List.append_assoc, List.append_nil])
    · exact key "remove auto incremental: `"ₛ "remove auto incremental: "ₛ (by decide) (by decide) [] _ (by
        simp only [List.append_assoc, List.append_nil])
  | setDefaultValue t c =>
    cases h
    dsimp only
    have e : "` : `"ₛ = "`"ₛ ++ " : `"ₛ := by decide
    split
    · exact key "remove default value: `"ₛ "remove default value: "ₛ (by decide) (by decide) [] _ (by
        simp only [List.append_assoc, List.append_nil])
    · exact key "update default value: `"ₛ "update default value: "ₛ (by decide) (by decide) (" : `"ₛ ++ (c.defaultValue ++ "`"ₛ)) _ (by
        rw [e]; simp only [List.append_assoc])

theorem not_mem_join {a : Char} {sep : Str} (hs : a ∉ sep) {l : List Str} (h : ∀ s ∈ l, a ∉ s) : a ∉ join sep l := by
  induction l with
  | nil => simp [join]
  | cons x l ih =>
    cases l with
    | nil => exact h x List.mem_cons_self
    | cons y l =>
      rw [join_cons_cons]
      simp only [List.mem_append, not_or]
      exact ⟨⟨h x List.mem_cons_self, hs⟩, ih fun s hs => h s (List.mem_cons_of_mem _ hs)⟩

theorem not_mem_format {c : Column} (h : '\n' ∉ c.type) : '\n' ∉ c.format := by
  have hi : ∀ n, '\n' ∉ itoa n := not_mem_itoa (by decide)
  unfold Column.format
  split
  · exact h
  · split <;> simp [h, hi]

theorem oneLine_name {c : Change} (h : OneLine c) : '\n' ∉ c.depTable.name := by
  cases c <;> first | exact h.1 | exact h

theorem oneLine_item {c : Change} (h : OneLine c) : '\n' ∉ toMarkdownLine c := by
  have lit : ∀ {a b : Str}, '\n' ∉ a → '\n' ∉ b → '\n' ∉ a ++ b := by
    intro a b ha hb; rw [List.mem_append, not_or]; exact ⟨ha, hb⟩
  have pk : ∀ {t : Table}, (∀ c ∈ t.columns, '\n' ∉ c.name) → '\n' ∉ join ", "ₛ t.primaryKeyNameSet.slice := by
    intro t ht
    refine not_mem_join (by decide) fun s hs => ?_
    obtain ⟨c, hc, -, rfl⟩ := mem_primaryKeyNameSet.1 (mem_slice.1 hs)
    exact ht c hc
  have uk : ∀ {t : Table}, (∀ c ∈ t.columns, '\n' ∉ c.name) → '\n' ∉ join ", "ₛ t.uniqueKeyNameSet.slice := by
    intro t ht
    refine not_mem_join (by decide) fun s hs => ?_
    obtain ⟨c, hc, -, rfl⟩ := mem_uniqueKeyNameSet.1 (mem_slice.1 hs)
    exact ht c hc
  unfold toMarkdownLine
  cases c with
  | createTable t => exact (by decide : '\n' ∉ "create table"ₛ)
  | dropTable t => exact (by decide : '\n' ∉ "drop table"ₛ)
  | renameTable o n => exact lit (lit (lit (lit (by decide) h.1) (by decide)) h.2) (by decide)
  | updatePrimaryKey o n =>
    exact lit (lit (lit (lit (by decide) (pk fun c hc => h.2 c (Or.inl hc))) (by decide))
      (pk fun c hc => h.2 c (Or.inr hc))) (by decide)
  | createUnique n t => exact lit (lit (by decide) (uk h.2)) (by decide)
  | dropUnique n t => exact lit (lit (by decide) (uk h.2)) (by decide)
  | setTableComment t => exact lit (lit (by decide) h.2) (by decide)
  | addColumn t c => exact lit (lit (by decide) h.2) (by decide)
  | dropColumn t n => exact lit (lit (by decide) h.2) (by decide)
  | setColumnComment t c => exact lit (lit (lit (lit (by decide) h.2.1) (by decide)) h.2.2) (by decide)
  | changeColumnType t o n =>
    exact lit (lit (lit (lit (lit (lit (by decide) h.2.1) (by decide)) (not_mem_format h.2.2.1)) (by decide))
      (not_mem_format h.2.2.2)) (by decide)
  | renameColumn t o n => exact lit (lit (lit (lit (by decide) h.2.1) (by decide)) h.2.2) (by decide)
  | setNotNull t c => dsimp only; split <;> exact lit (lit (by decide) h.2) (by decide)
  | setAutoIncrement t c => dsimp only; split <;> exact lit (lit (by decide) h.2) (by decide)
  | setDefaultValue t c =>
    dsimp only
    split
    · exact lit (lit (by decide) h.2.1) (by decide)
    · exact lit (lit (lit (lit (by decide) h.2.1) (by decide)) h.2.2) (by decide)

end Octo
