import Verif.Lemmas.Sql
import Verif.Lemmas.Octopus
import Verif.Model.Mysql
import Verif.Spec.MysqlDdl
import Mathlib.Data.List.TakeWhile

/-! Lemmas on the MySQL exporter. -/

namespace Octo
open Spec

/-- Separators of tokens, definitions and statements. -/
def sqlSep (c : Char) : Bool := isBlank c || c == ',' || c == ';'

/-- Separators of definitions and statements. -/
def defSep (c : Char) : Bool := c == ',' || c == ';'

theorem good_word {s : Str} (h : Word s) : Good sqlSep s := by
  refine good_chars ?_
  intro c hc
  obtain ⟨h1, h2, h3, h4, h5, h6⟩ := h.2 c hc
  exact ⟨by simp [sqlSep, h1, h5, h6], h2, h3, h4⟩

theorem good_literal (s : Str) (h : s.all (fun c => !sqlSep c && !isQuote c && c != '(' && c != ')') = true) :
    Good sqlSep s := by
  refine good_chars ?_
  intro c hc
  have := List.all_eq_true.1 h c hc
  simpa [and_assoc] using this

theorem good_single {s : Str} (h : Unescaped s) : Good sqlSep ("'"ₛ ++ s ++ "'"ₛ) :=
  .quoted '\'' s rfl rfl h.1 (Or.inr h.2)

theorem good_back {s : Str} (h : UnescapedName s) : Good sqlSep (Mysql.backQuote s) :=
  .quoted '`' s rfl rfl h (Or.inl rfl)

theorem sqlSep_blank {c : Char} (h : isBlank c = true) : sqlSep c = true := by simp [sqlSep, h]

theorem Good.blank {s : Str} (h : Good sqlSep s) : Good isBlank s := h.mono fun _ => sqlSep_blank

theorem Good.defs {s : Str} (h : Good sqlSep s) : Good defSep s :=
  h.mono fun c hc => by simp only [defSep, Bool.or_eq_true] at hc; simp only [sqlSep, Bool.or_eq_true]; tauto

theorem Good.comma {s : Str} (h : Good defSep s) : Good (· == ',') s :=
  h.mono fun c hc => by simp only [defSep, Bool.or_eq_true]; exact Or.inl hc

theorem Good.none {sep : Char → Bool} {s : Str} (h : Good sep s) : Good (fun _ => false) s :=
  h.mono fun c hc => by cases hc

/-! ## join -/

theorem join_append (sep : Str) {l m : List Str} (hl : l ≠ []) (hm : m ≠ []) :
    join sep (l ++ m) = join sep l ++ sep ++ join sep m := by
  induction l with
  | nil => exact absurd rfl hl
  | cons x l ih =>
    cases l with
    | nil => rw [List.singleton_append, join_cons _ _ hm]; simp [join]
    | cons y r =>
      have := ih (by simp)
      rw [List.cons_append, join_cons sep x (by simp), this, join_cons_cons]
      simp

theorem join_flatten (sep : Str) {l : List (List Str)} (h : ∀ g ∈ l, g ≠ []) :
    join sep (l.map (join sep)) = join sep l.flatten := by
  induction l with
  | nil => rfl
  | cons g l ih =>
    have hih := ih fun g hg => h g (by simp [hg])
    cases l with
    | nil => simp [join]
    | cons g' r =>
      have hne : (g' :: r).flatten ≠ [] := by
        intro e
        have := List.flatten_eq_nil_iff.1 e g' (by simp)
        exact h g' (by simp) this
      rw [List.map_cons, join_cons _ _ (by simp), hih, show (g :: g' :: r).flatten = g ++ (g' :: r).flatten from rfl,
        join_append _ (h g (by simp)) hne]

/-! ## Column types -/

theorem good_itoa (n : Nat) : Good sqlSep (itoa n) := by
  refine good_chars ?_
  intro c hc
  have hd := itoa_digits n c hc
  have key : ∀ x : Char, isDigit x = false → c ≠ x := by
    rintro x hx rfl; rw [hd] at hx; cases hx
  refine ⟨?_, ?_, key _ rfl, key _ rfl⟩
  · simp [sqlSep, isBlank, key ' ' rfl, key '\n' rfl, key '\t' rfl, key '\r' rfl, key ',' rfl, key ';' rfl]
  · simp [isQuote, key '\'' rfl, key '"' rfl, key '`' rfl]

/-- Text of the arguments of a type. -/
def argText (sep : Str) (args : List Str) : Str := "("ₛ ++ join sep args ++ ")"ₛ

theorem parenList_args {α : Type} (item : Str → Option α) (sep : Str) (hsep : sep = ","ₛ ∨ sep = ", "ₛ)
    (args : List Str) (vals : List α)
    (hargs : ∀ a ∈ args, Good sqlSep a ∧ a ≠ []) (hitem : args.mapM item = some vals) :
    parenList item (argText sep args) = some vals := by
  have hu : unwrap '(' ')' (argText sep args) = some (join sep args) := unwrap_wrap _ _ _
  simp only [parenList, hu, Option.bind_eq_bind, Option.bind_some]
  cases args with
  | nil =>
    simp only [join, tokens_nil, List.isEmpty_nil, if_true]
    exact hitem
  | cons a r =>
    obtain ⟨m, hm, rfl, hmt⟩ : ∃ m : Str, Good (· == ',') m ∧ sep = ',' :: m ∧ ∀ s, tokens (m ++ s) = tokens s := by
      rcases hsep with rfl | rfl
      · exact ⟨[], .nil, rfl, fun _ => rfl⟩
      · exact ⟨[' '], .char _ rfl rfl (by decide) (by decide), rfl, fun s => tokens_blank rfl s⟩
    have hg : ∀ s ∈ a :: r, Good (· == ',') s := fun s hs => Good.comma (Good.defs (hargs s hs).1)
    have hp := parts_join (sep := (· == ',')) (c := ',') rfl hm hg
    have hne : (tokens (join (',' :: m) (a :: r))).isEmpty = false := by
      cases r with
      | nil => rw [join, tokens_single (Good.blank (hargs a (by simp)).1) (hargs a (by simp)).2]; rfl
      | cons b r =>
        -- the first token is non-empty
        have : join (',' :: m) (a :: b :: r) ≠ [] := by rw [join_cons_cons]; simp
        by_contra hcon
        have hnil : tokens (join (',' :: m) (a :: b :: r)) = [] := by
          cases h : tokens (join (',' :: m) (a :: b :: r)) with
          | nil => rfl
          | cons x l => rw [h] at hcon; simp at hcon
        -- the text starts with the characters of `a ++ [',']`, none of which is a top-level blank
        rw [join_cons_cons, List.append_assoc] at hnil
        have hg2 : Good isBlank (a ++ [',']) :=
          .append _ _ (Good.blank (hargs a (by simp)).1) (.char _ rfl rfl (by decide) (by decide))
        have : ∀ (rest : Str), tokens (a ++ [','] ++ rest) ≠ [] := by
          intro rest
          have key : ∀ (rest cur : Str) (m : Mode) (d : Nat), cur ≠ [] →
              (splitTop isBlank m d cur rest).filter (fun t => !t.isEmpty) ≠ [] := by
            intro rest
            induction rest with
            | nil =>
              intro cur m d hc
              cases m <;> simp [splitTop, hc]
            | cons x rest ih =>
              intro cur m d hc
              cases m with
              | plain =>
                simp only [splitTop]
                split
                · rw [List.filter_cons_of_pos (by simpa using hc)]; simp
                · exact ih _ _ _ (by simp)
              | quoted q => exact ih _ _ _ (by simp)
              | escaped q => exact ih _ _ _ (by simp)
          rw [tokens, parts, hg2.splitTop isBlank 0 (fun _ _ h => h)]
          exact key _ _ _ _ (by simp)
        have h3 := this (m ++ join (',' :: m) (b :: r))
        rw [List.append_assoc] at h3
        exact h3 (by simpa using hnil)
    simp only [hne, Bool.false_eq_true, if_false, hp]
    have hmap : ∀ (l : List Str) (vals : List α), (∀ s ∈ l, Good sqlSep s ∧ s ≠ []) → l.mapM item = some vals →
        (l.map (m ++ ·)).mapM (oneToken item) = some vals := by
      intro l
      induction l with
      | nil => intro vals _ h; exact h
      | cons s l ih =>
        intro vals hl h
        simp only [List.mapM_cons, Option.bind_eq_bind] at h
        simp only [List.map_cons, List.mapM_cons, Option.bind_eq_bind, oneToken, hmt, tokens_single (Good.blank (hl s (by simp)).1) (hl s (by simp)).2]
        cases hs : item s with
        | none => rw [hs] at h; simp at h
        | some v =>
          rw [hs] at h
          simp only [Option.bind_some] at h ⊢
          cases hl' : l.mapM item with
          | none => rw [hl'] at h; simp at h
          | some vs =>
            rw [hl'] at h
            rw [ih vs (fun x hx => hl x (by simp [hx])) hl']
            exact h
    simp only [List.mapM_cons, Option.bind_eq_bind] at hitem
    cases hs : item a with
    | none => rw [hs] at hitem; simp at hitem
    | some v =>
      rw [hs] at hitem
      simp only [Option.bind_some] at hitem
      cases hl' : r.mapM item with
      | none => rw [hl'] at hitem; simp at hitem
      | some vs =>
        rw [hl'] at hitem
        have ha : oneToken item a = some v := by
          simp only [oneToken, tokens_single (Good.blank (hargs a (by simp)).1) (hargs a (by simp)).2, hs]
        simp only [List.mapM_cons, Option.bind_eq_bind, ha, Option.bind_some,
          hmap r vs (fun x hx => hargs x (by simp [hx])) hl']
        exact hitem

theorem good_argText {sep : Str} (hsep : sep = ","ₛ ∨ sep = ", "ₛ) {args : List Str} (h : ∀ a ∈ args, Good sqlSep a) :
    Good sqlSep (argText sep args) := by
  refine .paren _ rfl (good_join ?_ fun s hs => Good.none (h s hs))
  rcases hsep with rfl | rfl
  · exact .char _ rfl rfl (by decide) (by decide)
  · exact .append [','] [' '] (.char _ rfl rfl (by decide) (by decide)) (.char _ rfl rfl (by decide) (by decide))

/-- How the exporter writes a type, by shape. -/
def mysqlTypeText (base : Str) (shape : TypeShape) (c : Column) : Str :=
  match shape with
  | .fixed => base
  | .oneBit => base ++ "(1)"ₛ
  | .members => base ++ "("ₛ ++ quoteAndJoin c.values "'"ₛ ", "ₛ ++ ")"ₛ
  | .sized => Mysql.formatColumnType base c

theorem toMysqlColumnType_eq (c : Column) : ∀ e ∈ mysqlTypes, c.type = e.1 →
    Mysql.toMysqlColumnType c = mysqlTypeText e.2.1 e.2.2 c := by
  simp only [mysqlTypes, List.forall_mem_cons, List.not_mem_nil, false_imp_iff, implies_true, and_true]
  refine ⟨?_, ?_, ?_, ?_, ?_, ?_, ?_, ?_, ?_, ?_, ?_, ?_, ?_, ?_, ?_, ?_, ?_, ?_, ?_, ?_, ?_, ?_, ?_, ?_, ?_,
    ?_, ?_, ?_, ?_, ?_, ?_⟩ <;>
  · intro h
    unfold Mysql.toMysqlColumnType mysqlTypeText
    rw [h]
    rfl

theorem mysqlTypes_names : mysqlTypes.map Prod.fst = colTypes := by decide +kernel

theorem mysqlTypes_of_mem {c : Column} (h : c.type ∈ colTypes) : ∃ e ∈ mysqlTypes, c.type = e.1 := by
  rw [← mysqlTypes_names] at h
  obtain ⟨e, he, h⟩ := List.mem_map.1 h
  exact ⟨e, he, h.symm⟩

theorem mysqlTypes_base : ∀ e ∈ mysqlTypes, e.2.1 ≠ [] ∧ e.2.1 ≠ "KEY"ₛ ∧ e.2.1.all isAlpha = true := by
  decide +kernel

theorem good_alpha {s : Str} (h : s.all isAlpha = true) : Good sqlSep s := by
  refine good_chars ?_
  intro c hc
  have hd := List.all_eq_true.1 h c hc
  have key : ∀ x : Char, isAlpha x = false → c ≠ x := by
    rintro x hx rfl; rw [hd] at hx; cases hx
  refine ⟨?_, ?_, key _ rfl, key _ rfl⟩
  · simp [sqlSep, isBlank, key ' ' rfl, key '\n' rfl, key '\t' rfl, key '\r' rfl, key ',' rfl, key ';' rfl]
  · simp [isQuote, key '\'' rfl, key '"' rfl, key '`' rfl]

theorem uint16_pos {n : UInt16} : n > 0 ↔ n ≠ 0 := by
  constructor
  · rintro h rfl; exact absurd h (by decide)
  · intro h
    rw [gt_iff_lt, UInt16.lt_iff_toNat_lt]
    have : n.toNat ≠ 0 := fun e => h (UInt16.toNat_inj.1 e)
    simp; omega

/-- The type text is the base name followed by its arguments, if there are any. -/
theorem mysqlTypeText_eq (base : Str) (shape : TypeShape) (c : Column) :
    ∃ sep : Str, (sep = ","ₛ ∨ sep = ", "ₛ) ∧ mysqlTypeText base shape c =
      base ++ (if shape ≠ .members ∧ typeArgs shape c = [] then [] else argText sep (typeArgs shape c)) := by
  cases shape with
  | fixed => exact ⟨","ₛ, Or.inl rfl, by simp [mysqlTypeText, typeArgs]⟩
  | oneBit => exact ⟨","ₛ, Or.inl rfl, by simp [mysqlTypeText, typeArgs, argText, join]⟩
  | members =>
    refine ⟨", "ₛ, Or.inr rfl, ?_⟩
    simp only [mysqlTypeText, typeArgs, argText, quoteAndJoin, ne_eq, not_true_eq_false, false_and, if_false,
      List.append_assoc]
    rfl
  | sized =>
    refine ⟨","ₛ, Or.inl rfl, ?_⟩
    simp only [mysqlTypeText, typeArgs, Mysql.formatColumnType, uint16_pos]
    by_cases h1 : c.size = 0
    · simp [h1]
    · by_cases h2 : c.scale = 0
      · simp only [h1, h2, ne_eq, not_true_eq_false, not_false_eq_true, if_true, if_false, argText, join]
        simp
      · simp only [h1, h2, ne_eq, not_false_eq_true, if_true, if_false, argText, join]
        simp

theorem good_typeArgs {shape : TypeShape} {c : Column} (h : ∀ v ∈ c.values, Unescaped v) :
    ∀ a ∈ typeArgs shape c, Good sqlSep a ∧ a ≠ [] := by
  intro a ha
  cases shape with
  | fixed => cases ha
  | oneBit => rw [typeArgs, List.mem_singleton] at ha; subst ha; exact ⟨good_literal _ rfl, by decide⟩
  | members =>
    obtain ⟨v, hv, rfl⟩ := List.mem_map.1 ha
    exact ⟨good_single (h v hv), by simp⟩
  | sized =>
    simp only [typeArgs] at ha
    split at ha
    · cases ha
    · split at ha
      · rw [List.mem_singleton] at ha; subst ha; exact ⟨good_itoa _, itoa_ne_nil _⟩
      · simp only [List.mem_cons, List.not_mem_nil, or_false] at ha
        rcases ha with rfl | rfl <;> exact ⟨good_itoa _, itoa_ne_nil _⟩

theorem good_mysqlType {c : Column} (ht : c.type ∈ colTypes) (hv : ∀ v ∈ c.values, Unescaped v) :
    Good sqlSep (Mysql.toMysqlColumnType c) ∧ Mysql.toMysqlColumnType c ≠ [] ∧
    Mysql.toMysqlColumnType c ≠ "KEY"ₛ ∧ (Mysql.toMysqlColumnType c).head? ≠ some '`' := by
  obtain ⟨e, he, hte⟩ := mysqlTypes_of_mem ht
  obtain ⟨h1, h2, h3⟩ := mysqlTypes_base e he
  rw [toMysqlColumnType_eq c e he hte]
  obtain ⟨sep, hsep, heq⟩ := mysqlTypeText_eq e.2.1 e.2.2 c
  rw [heq]
  have hg := good_typeArgs (shape := e.2.2) hv
  have hhead : ∀ r : Str, (e.2.1 ++ r).head? ≠ some '`' := by
    intro r hh
    obtain ⟨x, l, hx⟩ := List.exists_cons_of_ne_nil h1
    rw [hx] at hh h3
    simp only [List.cons_append, List.head?_cons, Option.some.injEq] at hh
    subst hh
    simp [isAlpha] at h3
  refine ⟨.append _ _ (good_alpha h3) ?_, by simp [h1], ?_, hhead _⟩
  · split
    · exact .nil
    · exact good_argText hsep fun a ha => (hg a ha).1
  · split
    · simpa using h2
    · intro hk
      have : '(' ∈ "KEY"ₛ := by rw [← hk]; simp [argText]
      revert this; decide

theorem readType_eq {c : Column} (hv : ∀ v ∈ c.values, Unescaped v) {e : Str × Str × TypeShape} (he : e ∈ mysqlTypes)
    (hte : c.type = e.1) : readType (Mysql.toMysqlColumnType c) = some (e.2.1, typeArgs e.2.2 c) := by
  obtain ⟨h1, h2, h3⟩ := mysqlTypes_base e he
  rw [toMysqlColumnType_eq c e he hte]
  obtain ⟨sep, hsep, heq⟩ := mysqlTypeText_eq e.2.1 e.2.2 c
  rw [heq]
  have hno : ∀ x ∈ e.2.1, (x != '(') = true := by
    intro x hx
    have := List.all_eq_true.1 h3 x hx
    rw [bne_iff_ne]
    rintro rfl
    revert this; decide
  split
  · rename_i h
    rw [List.append_nil, readType, List.dropWhile_eq_nil_iff.2 hno, h.2]
  · have hd : (e.2.1 ++ argText sep (typeArgs e.2.2 c)).dropWhile (· != '(') = argText sep (typeArgs e.2.2 c) := by
      rw [List.dropWhile_append_of_pos hno]; rfl
    have ht : (e.2.1 ++ argText sep (typeArgs e.2.2 c)).takeWhile (· != '(') = e.2.1 := by
      rw [List.takeWhile_append_of_pos hno]
      simp [argText]
    have hp := parenList_args some sep hsep (typeArgs e.2.2 c) (typeArgs e.2.2 c) (good_typeArgs hv) (by
      induction typeArgs e.2.2 c with
      | nil => rfl
      | cons a l ih => simp only [List.mapM_cons, ih]; rfl)
    obtain ⟨x, l, hx⟩ : ∃ x l, argText sep (typeArgs e.2.2 c) = x :: l := ⟨_, _, rfl⟩
    rw [readType, hd, ht, hx]
    rw [hx] at hp
    simp only [hp]
    rfl

/-! ## Column constraints -/

/-- The tokens of the constraint text. -/
def optTokens (c : Column) : List (List Str) :=
  (if c.notNull then [["NOT"ₛ, "NULL"ₛ]] else []) ++
  (if c.autoIncremental then [["AUTO_INCREMENT"ₛ]] else []) ++
  (if c.defaultValue ≠ [] then [["DEFAULT"ₛ, Mysql.valueText c.type c.getDefaultValue]] else []) ++
  (if c.onUpdate ≠ [] then [["ON"ₛ, "UPDATE"ₛ, Mysql.valueText c.type c.getOnUpdate]] else []) ++
  (if c.description ≠ [] then [["COMMENT"ₛ, "'"ₛ ++ c.description ++ "'"ₛ]] else [])

theorem optTokens_ne (c : Column) : ∀ g ∈ optTokens c, g ≠ [] := by
  intro g hg
  simp only [optTokens, List.mem_append] at hg
  rcases hg with (((h | h) | h) | h) | h <;>
  · split at h
    · rw [List.mem_singleton] at h; subst h; simp
    · cases h

theorem columnConstraints_eq (c : Column) : Mysql.columnConstraints c = join " "ₛ (optTokens c).flatten := by
  rw [← join_flatten _ (optTokens_ne c), Mysql.columnConstraints]
  congr 1
  simp only [optTokens, List.map_append, apply_ite (List.map (join " "ₛ)), List.map_cons, List.map_nil, join]
  congr 1

theorem columnDefinition_eq (c : Column) :
    Mysql.columnDefinition c = join " "ₛ (c.name :: Mysql.toMysqlColumnType c :: (optTokens c).flatten) := by
  rw [Mysql.columnDefinition]
  by_cases h : (optTokens c).flatten = []
  · have : Mysql.columnConstraints c = [] := by rw [columnConstraints_eq, h]; rfl
    rw [this, h]
    rfl
  · by_cases h2 : Mysql.columnConstraints c = []
    · exfalso
      have : ∀ l : List Str, l ≠ [] → (∀ x ∈ l.head?, x ≠ []) → join " "ₛ l ≠ [] := by
        intro l hl hx
        cases l with
        | nil => exact absurd rfl hl
        | cons a l =>
          have := hx a rfl
          cases l with
          | nil => exact this
          | cons b r => rw [join_cons_cons]; simp [this]
      rw [columnConstraints_eq] at h2
      refine this _ h ?_ h2
      intro x hx
      cases ho : optTokens c with
      | nil => rw [ho] at h; exact absurd rfl h
      | cons g r =>
        have hg : g ∈ optTokens c := by rw [ho]; simp
        rw [ho] at hx
        simp only [optTokens, List.mem_append] at hg
        rcases hg with (((h | h) | h) | h) | h <;>
        · split at h
          · rw [List.mem_singleton] at h; subst h
            simp only [List.flatten_cons, List.cons_append, List.head?_cons, Option.mem_def, Option.some.injEq] at hx
            subst hx; decide
          · cases h
    · rw [if_pos h2, columnConstraints_eq]
      rw [show c.name :: Mysql.toMysqlColumnType c :: (optTokens c).flatten =
        [c.name, Mysql.toMysqlColumnType c] ++ (optTokens c).flatten from rfl,
        join_append _ (by simp) (by simp), join_append _ (by simp) h]
      rfl

theorem isStringType_iff {t : Str} (h : t ∈ colTypes) : isStringType t = true ↔ t = "char"ₛ ∨ t = "varchar"ₛ := by
  revert t; decide +kernel

theorem valueText_spec {type v : Str} (ht : type ∈ colTypes) (hne : v ≠ []) (h : PlainValue type v) :
    Good sqlSep (Mysql.valueText type (getValue v)) ∧ Mysql.valueText type (getValue v) ≠ [] ∧
    readValue (Mysql.valueText type (getValue v)) = valueMeaning type v := by
  have hword : ∀ w : Str, Word w → ∀ r, unwrap '\'' '\'' (w ++ r) = none := by
    intro w hw r
    apply unwrap_none
    obtain ⟨x, l, rfl⟩ := List.exists_cons_of_ne_nil hw.1
    simp only [List.cons_append, List.head?_cons, ne_eq, Option.some.injEq]
    rintro rfl
    have := (hw.2 _ (by simp : '\'' ∈ '\'' :: l)).2.1
    revert this; decide
  have hlen : fnPrefix.length = 4 := rfl
  rcases h with h | ⟨h1, h2⟩ | ⟨h1, h2⟩
  · exact absurd h hne
  · have e : getValue v = (v.drop 4, true) := by
      exact if_pos h1
    rw [e]
    simp only [Mysql.valueText, if_true, valueMeaning, if_pos h1]
    refine ⟨.append _ _ (good_word h2) (.paren [] rfl .nil), by simp, ?_⟩
    have hs : hasSuffix (v.drop 4 ++ "()"ₛ) "()"ₛ = true := (hasSuffix_iff _ _).2 ⟨_, rfl⟩
    have h2' : "()"ₛ.length = 2 := rfl
    simp only [readValue, hword _ h2, hs, if_true, List.length_append, h2', Nat.add_sub_cancel, List.take_left]
  · have e : getValue v = (v, false) := by
      exact if_neg h1
    rw [e]
    simp only [Mysql.valueText, Bool.false_eq_true, if_false, valueMeaning, if_neg h1, isStringType_iff ht]
    by_cases hc : type = "char"ₛ ∨ type = "varchar"ₛ
    · rw [if_pos hc] at h2
      simp only [if_pos hc]
      refine ⟨good_single h2, by simp, ?_⟩
      have : unwrap '\'' '\'' ("'"ₛ ++ v ++ "'"ₛ) = some v := unwrap_wrap _ _ _
      simp only [readValue, this]
    · rw [if_neg hc] at h2
      simp only [if_neg hc]
      refine ⟨good_word h2, hne, ?_⟩
      have hs : hasSuffix v "()"ₛ = false := by
        cases hs : hasSuffix v "()"ₛ
        · rfl
        · obtain ⟨t, rfl⟩ := (hasSuffix_iff _ _).1 hs
          exact absurd rfl (h2.2 '(' (by simp)).2.2.1
      have := hword v h2 []
      rw [List.append_nil] at this
      simp only [readValue, this, hs, Bool.false_eq_true, if_false]

theorem good_optTokens {c : Column} (h : PlainColumn c) : ∀ s ∈ (optTokens c).flatten, Good sqlSep s ∧ s ≠ [] := by
  intro s hs
  obtain ⟨g, hg, hs⟩ := List.mem_flatten.1 hs
  simp only [optTokens, List.mem_append] at hg
  rcases hg with (((hg | hg) | hg) | hg) | hg
  · split at hg
    · rw [List.mem_singleton] at hg; subst hg
      simp only [List.mem_cons, List.not_mem_nil, or_false] at hs
      rcases hs with rfl | rfl <;> exact ⟨good_literal _ rfl, by decide⟩
    · cases hg
  · split at hg
    · rw [List.mem_singleton] at hg; subst hg
      simp only [List.mem_cons, List.not_mem_nil, or_false] at hs
      subst hs; exact ⟨good_literal _ rfl, by decide⟩
    · cases hg
  · split at hg
    · rename_i hne
      rw [List.mem_singleton] at hg; subst hg
      simp only [List.mem_cons, List.not_mem_nil, or_false] at hs
      rcases hs with rfl | rfl
      · exact ⟨good_literal _ rfl, by decide⟩
      · exact ⟨(valueText_spec h.type hne h.default).1, (valueText_spec h.type hne h.default).2.1⟩
    · cases hg
  · split at hg
    · rename_i hne
      rw [List.mem_singleton] at hg; subst hg
      simp only [List.mem_cons, List.not_mem_nil, or_false] at hs
      rcases hs with rfl | rfl | rfl
      · exact ⟨good_literal _ rfl, by decide⟩
      · exact ⟨good_literal _ rfl, by decide⟩
      · exact ⟨(valueText_spec h.type hne h.onUpdate).1, (valueText_spec h.type hne h.onUpdate).2.1⟩
    · cases hg
  · split at hg
    · rw [List.mem_singleton] at hg; subst hg
      simp only [List.mem_cons, List.not_mem_nil, or_false] at hs
      rcases hs with rfl | rfl
      · exact ⟨good_literal _ rfl, by decide⟩
      · exact ⟨good_single h.description, by simp⟩
    · cases hg

theorem readOptions_optTokens {c : Column} (h : PlainColumn c) (d : DdlColumn)
    (hd : d = { name := d.name, type := d.type }) :
    readOptions (optTokens c).flatten d = some { ddlColumn (fun _ => d.type) c with name := d.name } := by
  have s1 : ∀ (b : Bool) (r : List Str) (d : DdlColumn), d.notNull = false →
      readOptions ((if b then [["NOT"ₛ, "NULL"ₛ]] else []).flatten ++ r) d = readOptions r { d with notNull := b } := by
    intro b r d h
    cases b
    · obtain ⟨⟩ := d; simp only at h; subst h; rfl
    · show readOptions ("NOT"ₛ :: "NULL"ₛ :: r) d = _
      rw [readOptions.eq_def]; dsimp only
      rw [if_neg (by decide), if_pos (by decide), h]; rfl
  have s2 : ∀ (b : Bool) (r : List Str) (d : DdlColumn), d.autoIncrement = false →
      readOptions ((if b then [["AUTO_INCREMENT"ₛ]] else []).flatten ++ r) d =
        readOptions r { d with autoIncrement := b } := by
    intro b r d h
    cases b
    · obtain ⟨⟩ := d; simp only at h; subst h; rfl
    · show readOptions ("AUTO_INCREMENT"ₛ :: r) d = _
      rw [readOptions.eq_def]; dsimp only
      rw [if_pos rfl, h]; rfl
  have s3 : ∀ (r : List Str) (d : DdlColumn), d.default = none →
      readOptions ((if c.defaultValue ≠ [] then [["DEFAULT"ₛ, Mysql.valueText c.type c.getDefaultValue]] else []).flatten ++ r) d =
        readOptions r { d with default := if c.defaultValue = [] then none else some (valueMeaning c.type c.defaultValue) } := by
    intro r d h'
    by_cases hv : c.defaultValue = []
    · rw [if_neg (not_not.2 hv), if_pos hv]; obtain ⟨⟩ := d; simp only at h'; subst h'; rfl
    · rw [if_pos hv, if_neg hv]
      show readOptions ("DEFAULT"ₛ :: Mysql.valueText c.type c.getDefaultValue :: r) d = _
      have := (valueText_spec h.type hv h.default).2.2
      rw [readOptions.eq_def]; dsimp only
      rw [if_neg (by decide), if_neg (fun e => absurd e.1 (by decide)), if_pos rfl, h']
      simp only [Option.isSome_none, Bool.false_eq_true, if_false, Column.getDefaultValue, this]
  have s4 : ∀ (r : List Str) (d : DdlColumn), d.onUpdate = none →
      readOptions ((if c.onUpdate ≠ [] then [["ON"ₛ, "UPDATE"ₛ, Mysql.valueText c.type c.getOnUpdate]] else []).flatten ++ r) d =
        readOptions r { d with onUpdate := if c.onUpdate = [] then none else some (valueMeaning c.type c.onUpdate) } := by
    intro r d h'
    by_cases hv : c.onUpdate = []
    · rw [if_neg (not_not.2 hv), if_pos hv]; obtain ⟨⟩ := d; simp only at h'; subst h'; rfl
    · rw [if_pos hv, if_neg hv]
      show readOptions ("ON"ₛ :: "UPDATE"ₛ :: Mysql.valueText c.type c.getOnUpdate :: r) d = _
      have := (valueText_spec h.type hv h.onUpdate).2.2
      rw [readOptions.eq_def]; dsimp only
      rw [if_neg (by decide), if_neg (by decide), if_neg (by decide), if_neg (by decide),
        if_pos ⟨rfl, rfl⟩, h']
      simp only [Option.isSome_none, Bool.false_eq_true, if_false, Column.getOnUpdate, this]
  have s5 : ∀ (d : DdlColumn), d.comment = none →
      readOptions (if c.description ≠ [] then [["COMMENT"ₛ, "'"ₛ ++ c.description ++ "'"ₛ]] else []).flatten d =
        some { d with comment := if c.description = [] then none else some c.description } := by
    intro d h'
    by_cases hv : c.description = []
    · rw [if_neg (not_not.2 hv), if_pos hv]; obtain ⟨⟩ := d; simp only at h'; subst h'; rfl
    · rw [if_pos hv, if_neg hv]
      show readOptions ["COMMENT"ₛ, "'"ₛ ++ c.description ++ "'"ₛ] d = _
      have hu : unwrap '\'' '\'' ("'"ₛ ++ c.description ++ "'"ₛ) = some c.description := unwrap_wrap _ _ _
      rw [readOptions.eq_def]; dsimp only
      rw [if_neg (by decide), if_neg (fun e => absurd e.1 (by decide)), if_neg (by decide), if_pos rfl, h']
      simp only [Option.isSome_none, Bool.false_eq_true, if_false, hu]
      rfl
  rw [hd]
  rw [optTokens]
  rw [List.flatten_append, List.flatten_append, List.flatten_append, List.flatten_append,
    List.append_assoc, List.append_assoc, List.append_assoc]
  rw [s1 _ _ _ rfl, s2 _ _ _ rfl, s3 _ _ rfl, s4 _ _ rfl, s5 _ rfl]
  rfl

/-! ## Definitions -/

/-- A definition text given by its tokens. -/
structure DefText (d : Str) (toks : List Str) : Prop where
  eq : d = join " "ₛ toks
  good : ∀ s ∈ toks, Good sqlSep s ∧ s ≠ []

theorem DefText.goodDefs {d : Str} {toks : List Str} (h : DefText d toks) : Good defSep d := by
  rw [h.eq]
  exact good_join (.char ' ' rfl rfl (by decide) (by decide)) fun s hs => Good.defs (h.good s hs).1

theorem DefText.tokens {d : Str} {toks : List Str} (h : DefText d toks) : tokens d = toks := by
  rw [h.eq]; exact tokens_join fun s hs => ⟨Good.blank (h.good s hs).1, (h.good s hs).2⟩

theorem DefText.tokens_end {d : Str} {toks : List Str} (h : DefText d toks) : Spec.tokens (d ++ ['\n']) = toks := by
  rw [h.eq]; exact tokens_join_end (fun s hs => ⟨Good.blank (h.good s hs).1, (h.good s hs).2⟩) rfl

theorem column_defText {c : Column} (h : PlainColumn c) :
    ∃ toks, DefText (Mysql.columnDefinition c) toks ∧
      readDef toks = some (.column (ddlColumn Mysql.toMysqlColumnType c)) := by
  obtain ⟨h1, h2, h3, h4⟩ := good_mysqlType h.type h.values
  refine ⟨_, ⟨columnDefinition_eq c, ?_⟩, ?_⟩
  · intro s hs
    simp only [List.mem_cons] at hs
    rcases hs with rfl | rfl | hs
    · exact ⟨good_word h.name, h.name.1⟩
    · exact ⟨h1, h2⟩
    · exact good_optTokens h s hs
  · rw [readDef.eq_def]; dsimp only
    rw [if_neg (fun e => h3 e.2), if_neg (fun e => h3 e.2), if_neg (fun e => h4 e.2),
      readOptions_optTokens h _ rfl]
    rfl

theorem mapM_unwrap (l : List Str) : (l.map Mysql.backQuote).mapM (unwrap '`' '`') = some l := by
  induction l with
  | nil => rfl
  | cons n l ih =>
    have : unwrap '`' '`' (Mysql.backQuote n) = some n := unwrap_wrap _ _ _
    simp only [List.map_cons, List.mapM_cons, this, ih]
    rfl

theorem quotedNames_eq {l : List Str} (h : ∀ n ∈ l, UnescapedName n) :
    quotedNames (argText ", "ₛ (l.map Mysql.backQuote)) = some l ∧
    Good sqlSep (argText ", "ₛ (l.map Mysql.backQuote)) := by
  constructor
  · refine parenList_args _ _ (Or.inr rfl) _ _ ?_ (mapM_unwrap l)
    intro a ha
    obtain ⟨n, hn, rfl⟩ := List.mem_map.1 ha
    exact ⟨good_back (h n hn), by simp [Mysql.backQuote]⟩
  · refine good_argText (Or.inr rfl) ?_
    intro a ha
    obtain ⟨n, hn, rfl⟩ := List.mem_map.1 ha
    exact good_back (h n hn)

theorem unescapedName_word {s : Str} (h : Word s) : UnescapedName s := by
  intro hm
  have := (h.2 _ hm).2.1
  revert this; decide

theorem primary_defText {l : List Str} (h : ∀ n ∈ l, UnescapedName n) :
    ∃ toks, DefText ("PRIMARY KEY ("ₛ ++ join ", "ₛ (l.map Mysql.backQuote) ++ ")"ₛ) toks ∧
      readDef toks = some (.primaryKey l) := by
  obtain ⟨h1, h2⟩ := quotedNames_eq h
  refine ⟨["PRIMARY"ₛ, "KEY"ₛ, argText ", "ₛ (l.map Mysql.backQuote)], ⟨?_, ?_⟩, ?_⟩
  · simp [join, argText]
  · intro s hs
    simp only [List.mem_cons, List.not_mem_nil, or_false] at hs
    rcases hs with rfl | rfl | rfl
    · exact ⟨good_literal _ rfl, by decide⟩
    · exact ⟨good_literal _ rfl, by decide⟩
    · exact ⟨h2, by simp [argText]⟩
  · rw [readDef, if_pos ⟨rfl, rfl⟩]
    simp only [h1, Option.map_some]

theorem unique_defText {k : Str} {l : List Str} (hk : UnescapedName k) (h : ∀ n ∈ l, UnescapedName n) :
    ∃ toks, DefText ("UNIQUE KEY "ₛ ++ Mysql.backQuote k ++ " ("ₛ ++ join ", "ₛ (l.map Mysql.backQuote) ++ ")"ₛ) toks ∧
      readDef toks = some (.unique k l) := by
  obtain ⟨h1, h2⟩ := quotedNames_eq h
  refine ⟨["UNIQUE"ₛ, "KEY"ₛ, Mysql.backQuote k, argText ", "ₛ (l.map Mysql.backQuote)], ⟨?_, ?_⟩, ?_⟩
  · simp [join, argText]
  · intro s hs
    simp only [List.mem_cons, List.not_mem_nil, or_false] at hs
    rcases hs with rfl | rfl | rfl | rfl
    · exact ⟨good_literal _ rfl, by decide⟩
    · exact ⟨good_literal _ rfl, by decide⟩
    · exact ⟨good_back hk, by simp [Mysql.backQuote]⟩
    · exact ⟨h2, by simp [argText]⟩
  · have hu : unwrap '`' '`' (Mysql.backQuote k) = some k := unwrap_wrap _ _ _
    rw [readDef, if_neg (by decide), if_pos ⟨rfl, rfl⟩]
    simp only [h1, hu, Option.bind_eq_bind, Option.bind_some]

theorem index_defText {k : Str} {l : List Str} (hk : UnescapedName k) (h : ∀ n ∈ l, UnescapedName n) :
    ∃ toks, DefText ("INDEX "ₛ ++ Mysql.backQuote k ++ " ("ₛ ++ quoteAndJoin l "`"ₛ ", "ₛ ++ ")"ₛ) toks ∧
      readDef toks = some (.index k l) := by
  obtain ⟨h1, h2⟩ := quotedNames_eq h
  refine ⟨["INDEX"ₛ, Mysql.backQuote k, argText ", "ₛ (l.map Mysql.backQuote)], ⟨?_, ?_⟩, ?_⟩
  · have : quoteAndJoin l "`"ₛ ", "ₛ = join ", "ₛ (l.map Mysql.backQuote) := rfl
    rw [this]
    simp [join, argText]
  · intro s hs
    simp only [List.mem_cons, List.not_mem_nil, or_false] at hs
    rcases hs with rfl | rfl | rfl
    · exact ⟨good_literal _ rfl, by decide⟩
    · exact ⟨good_back hk, by simp [Mysql.backQuote]⟩
    · exact ⟨h2, by simp [argText]⟩
  · have hu : unwrap '`' '`' (Mysql.backQuote k) = some k := unwrap_wrap _ _ _
    rw [readDef, if_neg (fun e => absurd e.1 (by decide)), if_neg (fun e => absurd e.1 (by decide)),
      if_pos ⟨rfl, rfl⟩]
    simp only [h1, hu, Option.bind_eq_bind, Option.bind_some]

/-- The definitions of a table read back one by one. -/
theorem definitions_read {suffix : Str} (hsuf : UnescapedName suffix) {t : Table} (h : PlainTable t) :
    List.Forall₂ (fun d r => ∃ toks, DefText d toks ∧ readDef toks = some r) (Mysql.definitions suffix t)
      (ddlTable Mysql.toMysqlColumnType suffix t).defs := by
  have hn : ∀ p : Column → Bool, ∀ n ∈ (t.columns.filter p).map (·.name), UnescapedName n := by
    intro p n hn
    obtain ⟨c, hc, rfl⟩ := List.mem_map.1 hn
    exact unescapedName_word (h.columns c (List.mem_filter.1 hc).1).name
  have hmm : ∀ p : Column → Bool, (t.columns.filter p).map (fun c => Mysql.backQuote c.name) =
      ((t.columns.filter p).map (·.name)).map Mysql.backQuote := by
    intro p; rw [List.map_map]; rfl
  simp only [Mysql.definitions, ddlTable]
  refine List.rel_append (List.rel_append (List.rel_append ?_ ?_) ?_) ?_
  · rw [List.forall₂_map_left_iff, List.forall₂_map_right_iff, List.forall₂_same]
    exact fun c hc => column_defText (h.columns c hc)
  · cases hf : t.columns.filter (·.primaryKey) with
    | nil => simp
    | cons c r =>
      have := primary_defText (hn (·.primaryKey))
      rw [← hmm, hf] at this
      simp only [List.map_cons, List.length_cons, gt_iff_lt, Nat.zero_lt_succ, if_true] at this ⊢
      exact .cons this .nil
  · cases hf : t.columns.filter (·.uniqueKey) with
    | nil => simp
    | cons c r =>
      have hk : UnescapedName (t.name ++ suffix) := by
        intro hm
        rcases List.mem_append.1 hm with hm | hm
        · exact unescapedName_word h.name hm
        · exact hsuf hm
      have := unique_defText hk (hn (·.uniqueKey))
      rw [← hmm, hf] at this
      simp only [List.map_cons, List.length_cons, gt_iff_lt, Nat.zero_lt_succ, if_true] at this ⊢
      exact .cons this .nil
  · rw [List.forall₂_map_left_iff, List.forall₂_map_right_iff, List.forall₂_same]
    exact fun i hi => index_defText (h.indices i hi).1 (h.indices i hi).2

/-! ## Tables and scripts -/

/-- The text between the parentheses of `CREATE TABLE`. -/
def bodyText (defs : List Str) : Str :=
  "\n"ₛ ++ (Mysql.withCommas defs).flatMap (fun d => "  "ₛ ++ d ++ "\n"ₛ)

theorem good_newline : Good defSep ['\n'] := .char _ rfl rfl (by decide) (by decide)
theorem good_space : Good defSep [' '] := .char _ rfl rfl (by decide) (by decide)

theorem good_body {defs : List Str} (h : ∀ d ∈ defs, Good defSep d) : Good (fun _ => false) (bodyText defs) := by
  have key : ∀ defs : List Str, (∀ d ∈ defs, Good defSep d) →
      Good (fun _ => false) ((Mysql.withCommas defs).flatMap (fun d => "  "ₛ ++ d ++ "\n"ₛ)) := by
    have hsp : Good (fun _ => false) "  "ₛ := Good.none (.append [' '] [' '] good_space good_space)
    intro defs
    induction defs with
    | nil => intro _; exact .nil
    | cons d l ih =>
      intro h
      cases l with
      | nil =>
        simp only [Mysql.withCommas, List.flatMap_cons, List.flatMap_nil, List.append_nil]
        exact .append _ _ (.append _ _ hsp (Good.none (h d (by simp)))) (Good.none good_newline)
      | cons e r =>
        rw [Mysql.withCommas, List.flatMap_cons]
        refine .append _ _ (.append _ _ (.append _ _ hsp (.append _ _ (Good.none (h d (by simp)))
          (.char ',' rfl rfl (by decide) (by decide)))) (Good.none good_newline)) (ih fun x hx => h x (by simp [hx]))
  exact .append _ _ (Good.none good_newline) (key defs h)

theorem tokens_indent (s : Str) : tokens ("\n"ₛ ++ ("  "ₛ ++ s)) = tokens s := by
  show tokens ('\n' :: ' ' :: ' ' :: s) = _
  rw [tokens_blank rfl, tokens_blank rfl, tokens_blank rfl]

theorem parts_body {defs : List Str} (hne : defs ≠ []) (h : ∀ d ∈ defs, ∃ toks, DefText d toks) :
    (parts (· == ',') (bodyText defs)).map tokens = defs.map tokens := by
  induction defs with
  | nil => exact absurd rfl hne
  | cons d l ih =>
    obtain ⟨toks, hd⟩ := h d (by simp)
    have hgd := Good.comma hd.goodDefs
    have hind : Good (· == ',') ("\n"ₛ ++ ("  "ₛ ++ d)) :=
      .append _ _ (Good.comma good_newline) (.append _ _ (.append [' '] [' '] (Good.comma good_space)
        (Good.comma good_space)) hgd)
    cases l with
    | nil =>
      have e : bodyText [d] = "\n"ₛ ++ ("  "ₛ ++ d) ++ "\n"ₛ := by
        simp [bodyText, Mysql.withCommas]
      rw [e, parts_single (.append _ "\n"ₛ hind (Good.comma good_newline))]
      simp only [List.map_cons, List.map_nil]
      rw [List.append_assoc, List.append_assoc, tokens_indent, hd.tokens]
      rw [show ("\n"ₛ : Str) = ['\n'] from rfl, hd.tokens_end]
    | cons e r =>
      have eq : bodyText (d :: e :: r) = "\n"ₛ ++ ("  "ₛ ++ d) ++ ',' :: bodyText (e :: r) := by
        simp [bodyText, Mysql.withCommas]
      rw [eq, parts_cons hind rfl, List.map_cons, ih (by simp) (fun x hx => h x (by simp [hx])), tokens_indent]
      rfl

theorem tokens_body_ne {defs : List Str} (hne : defs ≠ []) (h : ∀ d ∈ defs, ∃ toks, DefText d toks ∧ toks ≠ []) :
    (tokens (bodyText defs)).isEmpty = false := by
  -- the first definition contributes a token
  cases defs with
  | nil => exact absurd rfl hne
  | cons d l =>
    obtain ⟨toks, hd, htne⟩ := h d (by simp)
    obtain ⟨r, hr⟩ : ∃ r, bodyText (d :: l) = "\n"ₛ ++ ("  "ₛ ++ (d ++ r)) := by
      cases l with
      | nil => exact ⟨"\n"ₛ, by simp [bodyText, Mysql.withCommas]⟩
      | cons e l => exact ⟨",\n"ₛ ++ (Mysql.withCommas (e :: l)).flatMap (fun d => "  "ₛ ++ d ++ "\n"ₛ), by
          simp [bodyText, Mysql.withCommas]⟩
    rw [hr, tokens_indent]
    have key : ∀ (rest cur : Str) (m : Mode) (d : Nat), cur ≠ [] →
        (splitTop isBlank m d cur rest).filter (fun t => !t.isEmpty) ≠ [] := by
      intro rest
      induction rest with
      | nil =>
        intro cur m d hc
        cases m <;> simp [splitTop, hc]
      | cons x rest ih =>
        intro cur m d hc
        cases m with
        | plain =>
          simp only [splitTop]
          split
          · rw [List.filter_cons_of_pos (by simpa using hc)]; simp
          · exact ih _ _ _ (by simp)
        | quoted q => exact ih _ _ _ (by simp)
        | escaped q => exact ih _ _ _ (by simp)
    obtain ⟨a, ts, rfl⟩ := List.exists_cons_of_ne_nil htne
    obtain ⟨ha1, ha2⟩ := hd.good a (by simp)
    obtain ⟨r', hr'⟩ : ∃ r', d ++ r = a ++ r' := by
      rw [hd.eq]
      cases ts with
      | nil => exact ⟨r, rfl⟩
      | cons b ts => exact ⟨_, by rw [join_cons_cons, List.append_assoc, List.append_assoc]⟩
    have : tokens (d ++ r) ≠ [] := by
      rw [hr', tokens, parts, (Good.blank ha1).splitTop isBlank 0 (fun _ _ h => h)]
      exact key _ _ _ _ (by simpa using ha2)
    cases h : tokens (d ++ r) with
    | nil => exact absurd h this
    | cons x l => rfl

/-- The statement of a table without its final semicolon. -/
def statementText (suffix : Str) (t : Table) : Str :=
  join " "ₛ ["CREATE"ₛ, "TABLE"ₛ, "IF"ₛ, "NOT"ₛ, "EXISTS"ₛ, t.name, "("ₛ ++ bodyText (Mysql.definitions suffix t) ++ ")"ₛ]

theorem exportTable_eq (suffix : Str) (t : Table) :
    Mysql.exportTable suffix t = statementText suffix t ++ ";\n"ₛ := by
  have e1 : "CREATE TABLE IF NOT EXISTS "ₛ =
      "CREATE"ₛ ++ " "ₛ ++ ("TABLE"ₛ ++ " "ₛ ++ ("IF"ₛ ++ " "ₛ ++ ("NOT"ₛ ++ " "ₛ ++ ("EXISTS"ₛ ++ " "ₛ)))) := by
    decide +kernel
  have e2 : " (\n"ₛ = " "ₛ ++ ("("ₛ ++ "\n"ₛ) := by decide
  have e3 : ");\n"ₛ = ")"ₛ ++ ";\n"ₛ := by decide
  unfold Mysql.exportTable statementText bodyText
  generalize List.flatMap _ _ = X
  rw [e1, e2, e3]
  simp only [join]
  generalize t.name = n
  generalize "CREATE"ₛ = a1, "TABLE"ₛ = a2, "IF"ₛ = a3, "NOT"ₛ = a4, "EXISTS"ₛ = a5, " "ₛ = a6, "("ₛ = a7,
    ")"ₛ = a8, "\n"ₛ = a9, ";\n"ₛ = a10
  simp only [List.append_assoc]

theorem mapM_readDef {l : List Str} {r : List DdlDef}
    (h : List.Forall₂ (fun d r => ∃ toks, DefText d toks ∧ readDef toks = some r) l r) :
    (l.map tokens).mapM readDef = some r := by
  induction h with
  | nil => rfl
  | cons h _ ih =>
    obtain ⟨toks, h1, h2⟩ := h
    simp only [List.map_cons, List.mapM_cons, h1.tokens, h2, ih]
    rfl

theorem forall₂_left {α β : Type} {R : α → β → Prop} {l : List α} {r : List β} (h : List.Forall₂ R l r) :
    ∀ a ∈ l, ∃ b, R a b := by
  induction h with
  | nil => simp
  | cons h _ ih =>
    intro a ha
    rcases List.mem_cons.1 ha with rfl | ha
    · exact ⟨_, h⟩
    · exact ih a ha

theorem statement_read {suffix : Str} (hsuf : UnescapedName suffix) {t : Table} (h : PlainTable t) :
    Good (· == ';') (statementText suffix t) ∧
    tokens (statementText suffix t) = ["CREATE"ₛ, "TABLE"ₛ, "IF"ₛ, "NOT"ₛ, "EXISTS"ₛ, t.name,
      "("ₛ ++ bodyText (Mysql.definitions suffix t) ++ ")"ₛ] ∧
    ∀ s, tokens s = tokens (statementText suffix t) →
      readCreateTable s = some (ddlTable Mysql.toMysqlColumnType suffix t) := by
  have hread := definitions_read hsuf h
  have hdef : ∀ d ∈ Mysql.definitions suffix t, ∃ toks, DefText d toks ∧ toks ≠ [] := by
    intro d hd
    obtain ⟨r, toks, h1, h2⟩ := forall₂_left hread d hd
    exact ⟨toks, h1, by rintro rfl; cases h2⟩
  have hgood : ∀ d ∈ Mysql.definitions suffix t, Good defSep d := fun d hd => by
    obtain ⟨toks, h1, _⟩ := hdef d hd
    exact h1.goodDefs
  have hbody : Good sqlSep ("("ₛ ++ bodyText (Mysql.definitions suffix t) ++ ")"ₛ) :=
    .paren _ rfl (good_body hgood)
  have hall : ∀ s ∈ ["CREATE"ₛ, "TABLE"ₛ, "IF"ₛ, "NOT"ₛ, "EXISTS"ₛ, t.name,
      "("ₛ ++ bodyText (Mysql.definitions suffix t) ++ ")"ₛ], Good sqlSep s ∧ s ≠ [] := by
    intro s hs
    simp only [List.mem_cons, List.not_mem_nil, or_false] at hs
    rcases hs with rfl | rfl | rfl | rfl | rfl | rfl | rfl
    · exact ⟨good_literal _ rfl, by decide⟩
    · exact ⟨good_literal _ rfl, by decide⟩
    · exact ⟨good_literal _ rfl, by decide⟩
    · exact ⟨good_literal _ rfl, by decide⟩
    · exact ⟨good_literal _ rfl, by decide⟩
    · exact ⟨good_word h.name, h.name.1⟩
    · exact ⟨hbody, by simp⟩
  have htok : tokens (statementText suffix t) = ["CREATE"ₛ, "TABLE"ₛ, "IF"ₛ, "NOT"ₛ, "EXISTS"ₛ, t.name,
      "("ₛ ++ bodyText (Mysql.definitions suffix t) ++ ")"ₛ] :=
    tokens_join fun s hs => ⟨Good.blank (hall s hs).1, (hall s hs).2⟩
  refine ⟨?_, htok, ?_⟩
  · refine good_join (.char ' ' rfl rfl (by decide) (by decide)) fun s hs => (hall s hs).1.mono ?_
    intro c hc
    simp only [sqlSep, Bool.or_eq_true]; exact Or.inr hc
  · intro s hs
    have hu : unwrap '(' ')' ("("ₛ ++ bodyText (Mysql.definitions suffix t) ++ ")"ₛ) =
      some (bodyText (Mysql.definitions suffix t)) := unwrap_wrap _ _ _
    rw [readCreateTable, hs, htok]
    simp only [if_true, hu, Option.bind_eq_bind, Option.bind_some]
    by_cases hne : Mysql.definitions suffix t = []
    · have : (ddlTable Mysql.toMysqlColumnType suffix t).defs = [] := by
        rw [hne] at hread; exact List.forall₂_nil_left_iff.1 hread
      have e : ddlTable Mysql.toMysqlColumnType suffix t = ⟨t.name, []⟩ := by
        rw [← this]; rfl
      rw [e, hne]
      rfl
    · have hm : (parts (· == ',') (bodyText (Mysql.definitions suffix t))).mapM (fun p => readDef (tokens p)) =
          some (ddlTable Mysql.toMysqlColumnType suffix t).defs := by
        rw [← mapM_readDef hread, ← parts_body hne fun d hd => (hdef d hd).imp fun _ h => h.1]
        generalize parts (· == ',') (bodyText (Mysql.definitions suffix t)) = l
        induction l with
        | nil => rfl
        | cons a l ih => simp only [List.map_cons, List.mapM_cons, ih]
      simp only [tokens_body_ne hne hdef, Bool.false_eq_true, if_false, hm, Option.bind_some]
      rfl

theorem readDdl_export {suffix : Str} (hsuf : UnescapedName suffix) (ts : List Table) (h : ∀ t ∈ ts, PlainTable t) :
    readDdl (ts.flatMap (Mysql.exportTable suffix)) = some (ts.map (ddlTable Mysql.toMysqlColumnType suffix)) := by
  have key : ∀ (ts : List Table) (p : Str), (p = [] ∨ p = "\n"ₛ) → (∀ t ∈ ts, PlainTable t) →
      readDdl (p ++ ts.flatMap (Mysql.exportTable suffix)) = some (ts.map (ddlTable Mysql.toMysqlColumnType suffix)) := by
    intro ts
    induction ts with
    | nil =>
      intro p hp _
      rcases hp with rfl | rfl <;> rfl
    | cons t ts ih =>
      intro p hp h
      obtain ⟨h1, h2, h3⟩ := statement_read hsuf (h t (by simp))
      have hg : Good (· == ';') p := by
        rcases hp with rfl | rfl
        · exact .nil
        · exact .char _ rfl rfl (by decide) (by decide)
      have htp : tokens (p ++ statementText suffix t) = tokens (statementText suffix t) := by
        rcases hp with rfl | rfl
        · rfl
        · exact tokens_blank rfl _
      have e : p ++ (t :: ts).flatMap (Mysql.exportTable suffix) =
          (p ++ statementText suffix t) ++ ';' :: ("\n"ₛ ++ ts.flatMap (Mysql.exportTable suffix)) := by
        rw [List.flatMap_cons, exportTable_eq]; simp
      have hih := ih "\n"ₛ (Or.inr rfl) fun t ht => h t (by simp [ht])
      rw [readDdl, statements] at hih ⊢
      rw [e, parts_cons (.append _ _ hg h1) rfl, List.filter_cons_of_pos (by rw [htp, h2]; rfl), List.mapM_cons,
        h3 _ htp, hih]
      rfl
  exact key ts [] (Or.inl rfl) h

end Octo
