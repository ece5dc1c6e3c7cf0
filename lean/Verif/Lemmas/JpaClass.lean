import Verif.Lemmas.JpaText

/-! The Kotlin reader on the files of the JPA generator. -/

namespace Octo.Jpa
open Spec
open Protobuf (LineWord lineWord_ident lineWord_literal)

theorem after_short {p l : Str} (x : Str) (h : l.length ≤ p.length) (hne : p.take l.length ≠ l) : after p (l ++ x) = none := by
  unfold after
  rw [if_neg]
  intro e
  apply hne
  rw [← e, List.take_take, Nat.min_eq_left h, List.take_left]

theorem after_mem {p s r : Str} (h : after p s = some r) : ∀ c ∈ p, c ∈ s := by
  unfold after at h
  split at h
  · rename_i e
    intro c hc
    rw [← e] at hc
    exact List.mem_of_mem_take hc
  · cases h

theorem after_not_mem {p s : Str} {c : Char} (hp : c ∈ p) (hs : c ∉ s) : after p s = none := by
  cases e : after p s with
  | none => rfl
  | some r => exact absurd (after_mem e c hp) hs

theorem read_top (h : KtHead) (f : KtFile) (l : Str) : readKtLine (.top h, f) l = readKtTopLine h f l := rfl

/-! ### Classes -/

/-- The first line of a class. -/
def openLine (n : Str) : Str := "data class "ₛ ++ n ++ "("ₛ

/-- The last line of a class. -/
def closeLine : Option Str → Str
  | none => ")"ₛ
  | some s => "): "ₛ ++ s

theorem read_open (h : KtHead) (f : KtFile) (n : Str) : readKtLine (.top h, f) (openLine n) =
    if KtName n then some (.body ⟨h, n, [], none⟩ [] true, f) else none := by
  rw [read_top]
  unfold readKtTopLine openLine
  rw [List.append_assoc, after_append]
  dsimp only
  rw [ktBefore_append]
  rfl

theorem read_close (d : KtClass) (m : Bool) (f : KtFile) (s : Option Str) : readKtLine (.body d [] m, f) (closeLine s) =
    some (.top noHead, { f with classes := f.classes ++ [{ d with super := s }] }) := by
  show readKtBody d [] m f _ = _
  unfold readKtBody
  cases s with
  | none => rw [closeLine, if_pos rfl]; rfl
  | some s =>
    rw [if_neg (by intro e; exact absurd (congrArg List.length e) (by simp [closeLine]))]
    rw [closeLine, after_append]
    rfl

/-- The lines of a class. -/
def classLines (gap : Bool) (n : Str) (ps : List (KtProperty × Bool)) (s : Option Str) : List Str :=
  openLine n :: (ps.flatMap (propertyLines gap) ++ [closeLine s])

/-- A comma stands after each property that is followed by another one. -/
def Separated (ps : List (KtProperty × Bool)) : Prop := ∀ l p r, ps = l ++ p :: r → r ≠ [] → p.2 = true

theorem read_class (gap : Bool) (h : KtHead) (f : KtFile) (n : Str) {ps : List (KtProperty × Bool)} (s : Option Str)
    (hp : ∀ p ∈ ps, PlainProperty p.1) (hs : Separated ps) : (classLines gap n ps s).foldlM readKtLine (.top h, f) =
      if KtName n ∧ ∀ p ∈ ps, ValidProperty p.1 then
        some (.top noHead, { f with classes := f.classes ++ [⟨h, n, ps.map Prod.fst, s⟩] })
      else none := by
  unfold classLines
  rw [List.foldlM_cons, read_open]
  by_cases hn : KtName n
  · rw [if_pos hn]
    show List.foldlM readKtLine _ _ = _
    rw [List.foldlM_append]
    have := read_properties gap f ps ⟨h, n, [], none⟩ hp hs
    by_cases hv : ∀ p ∈ ps, ValidProperty p.1
    · obtain ⟨m, e⟩ := this.1 hv
      rw [if_pos ⟨hn, hv⟩, e]
      show List.foldlM readKtLine _ [_] = _
      rw [List.foldlM_cons, read_close]
      rfl
    · rw [if_neg fun h => hv h.2, this.2 hv]
      rfl
  · rw [if_neg hn, if_neg fun h => hn h.1]
    rfl

/-! ### Heads -/

theorem read_package {p : Str} (hp : Word p) : readKtLine (.top noHead, ⟨none, [], [], []⟩) ("package "ₛ ++ p) =
    some (.top noHead, ⟨some p, [], [], []⟩) := by
  rw [read_top]
  unfold readKtTopLine
  rw [after_short p (by decide) (by decide), after_short p (by decide) (by decide), after_short p (by decide) (by decide),
    after_short p (by decide) (by decide)]
  dsimp only
  rw [if_neg (by show ¬(some 'p' = some '@'); decide), show "package "ₛ ++ p = "package"ₛ ++ ' ' :: p by
    rw [show "package "ₛ = "package"ₛ ++ [' '] from rfl, List.append_assoc]; rfl,
    tokens_cons (good_chars (by decide)) (by decide) rfl, tokens_single (Good.blank (good_word hp)) hp.1]
  unfold readKtTop
  exact if_pos ⟨rfl, rfl, rfl⟩

theorem read_import {i : Str} (h : LineWord i) {f : KtFile} (h1 : f.classes = []) (h2 : f.repositories = []) :
    readKtLine (.top noHead, f) ("import "ₛ ++ i) = some (.top noHead, { f with imports := f.imports ++ [i] }) := by
  rw [read_top]
  unfold readKtTopLine
  rw [after_short i (by decide) (by decide), after_short i (by decide) (by decide), after_short i (by decide) (by decide),
    after_short i (by decide) (by decide)]
  dsimp only
  rw [if_neg (by show ¬(some 'i' = some '@'); decide), show "import "ₛ ++ i = "import"ₛ ++ ' ' :: i by
    rw [show "import "ₛ = "import"ₛ ++ [' '] from rfl, List.append_assoc]; rfl,
    tokens_cons (good_chars (by decide)) (by decide) rfl, tokens_single (Good.blank h.good) h.ne]
  unfold readKtTop
  dsimp only
  rw [if_neg (by intro h; exact absurd h.1 (by decide)), if_pos ⟨rfl, h1, h2, rfl⟩]

theorem read_top_blank (h : KtHead) (f : KtFile) : readKtLine (.top h, f) [] = some (.top h, f) := rfl

theorem read_imports : ∀ (is : List Str) (f : KtFile), (∀ i ∈ is, LineWord i) → f.classes = [] → f.repositories = [] →
    (is.map ("import "ₛ ++ ·)).foldlM readKtLine (.top noHead, f) = some (.top noHead, { f with imports := f.imports ++ is }) := by
  intro is
  induction is with
  | nil => intro f _ _ _; rw [List.append_nil]; rfl
  | cons i is ih =>
    intro f h h1 h2
    rw [List.map_cons, List.foldlM_cons, read_import (h i (by simp)) h1 h2]
    show List.foldlM readKtLine _ _ = _
    rw [ih { f with imports := f.imports ++ [i] } (fun x hx => h x (by simp [hx])) h1 h2]
    simp

/-- The lines before the annotations of a class. -/
def headerLines (p : Str) (is js : List Str) : List Str :=
  ("package "ₛ ++ p) :: [] :: (is.map ("import "ₛ ++ ·) ++ [] :: (js.map ("import "ₛ ++ ·) ++ [[]]))

theorem read_header {p : Str} {is js : List Str} (hp : Word p) (hi : ∀ i ∈ is, LineWord i) (hj : ∀ i ∈ js, LineWord i) :
    (headerLines p is js).foldlM readKtLine (.top noHead, ⟨none, [], [], []⟩) =
      some (.top noHead, ⟨some p, is ++ js, [], []⟩) := by
  unfold headerLines
  rw [List.foldlM_cons, read_package hp]
  show List.foldlM readKtLine _ _ = _
  rw [List.foldlM_cons, read_top_blank]
  show List.foldlM readKtLine _ _ = _
  rw [List.foldlM_append, read_imports is _ hi rfl rfl]
  show List.foldlM readKtLine _ _ = _
  rw [List.foldlM_cons, read_top_blank]
  show List.foldlM readKtLine _ _ = _
  rw [List.foldlM_append, read_imports js _ hj rfl rfl]
  rfl

/-- The annotations that a line of annotations stands for. -/
def otherLine (a : Str) : List Str := if a = [] then [] else [a]

theorem read_other {a : Str} (ha : a = [] ∨ a.head? = some '@' ∧ '(' ∉ a) (h : KtHead) (f : KtFile) :
    readKtLine (.top h, f) a = some (.top { h with others := h.others ++ otherLine a }, f) := by
  rcases ha with rfl | ⟨h1, h2⟩
  · rw [read_top_blank]
    show _ = some (KtMode.top { h with others := h.others ++ [] }, f)
    rw [List.append_nil]
  · rw [read_top]
    unfold readKtTopLine
    have hd : after "data class "ₛ a = none := by
      cases a with
      | nil => rfl
      | cons x r =>
        rw [List.head?_cons, Option.some.injEq] at h1
        rw [h1]
        exact after_head (by decide)
    rw [hd, after_not_mem (c := '(') (by decide) h2, after_not_mem (c := '(') (by decide) h2, after_not_mem (c := '(') (by decide) h2]
    dsimp only
    rw [if_pos h1]
    unfold otherLine
    rw [if_neg (by intro e; rw [e] at h1; cases h1)]

/-- The lines of `@Table`. -/
def tableLines (n : Str) : Option (Str × List Str) → List Str
  | none => ["@Table(name = "ₛ ++ (ktQuoted n ++ ")"ₛ)]
  | some u => ["@Table(name="ₛ ++ (ktQuoted n ++ ", uniqueConstraints = ["ₛ),
      "    UniqueConstraint(name = "ₛ ++ (ktQuoted u.1 ++ ", columnNames = ["ₛ ++ join ", "ₛ (u.2.map ktQuoted) ++ "])"ₛ), "])"ₛ]

theorem unquote_ktQuoted {s : Str} (h : PlainQuoted '"' s) : unquote '"' (ktQuoted s) = some s := unquote_wrap h.1 h.2.1

theorem good_ktQuoted {s : Str} (h : PlainQuoted '"' s) {sep : Char → Bool} (hs : sep '"' = false) : Good sep (ktQuoted s) :=
  .quoted '"' s rfl hs h.1 (.inr h.2.1)

theorem read_constraint {u : Str × List Str} (h1 : PlainQuoted '"' u.1) (h2 : ∀ c ∈ u.2, PlainQuoted '"' c) (hne : u.2 ≠ []) :
    readConstraint ("    UniqueConstraint(name = "ₛ ++ (ktQuoted u.1 ++ ", columnNames = ["ₛ ++ join ", "ₛ (u.2.map ktQuoted) ++ "])"ₛ)) =
      some u := by
  obtain ⟨n, cs⟩ := u
  cases cs with
  | nil => exact absurd rfl hne
  | cons c cs =>
    unfold readConstraint
    dsimp only at h1 h2 ⊢
    rw [after_append, Option.bind_some, ktBefore_append, Option.bind_some]
    have e : ktQuoted n ++ ", columnNames = ["ₛ ++ join ", "ₛ ((c :: cs).map ktQuoted) =
        join (',' :: " "ₛ) (ktQuoted n :: ("columnNames = ["ₛ ++ ktQuoted c) :: cs.map ktQuoted) := by
      rw [join_cons_cons, show ',' :: " "ₛ = ", "ₛ from rfl, show ", columnNames = ["ₛ = ", "ₛ ++ "columnNames = ["ₛ from rfl, List.map_cons]
      cases cs with
      | nil => simp only [List.map_nil, join, List.append_assoc]
      | cons y cs => simp only [List.map_cons, join_cons_cons, List.append_assoc]
    have hg : ∀ s ∈ (ktQuoted n :: ("columnNames = ["ₛ ++ ktQuoted c) :: cs.map ktQuoted), Good (· == ',') s := by
      intro s hs
      rcases List.mem_cons.1 hs with rfl | hs
      · exact good_ktQuoted h1 rfl
      · rcases List.mem_cons.1 hs with rfl | hs
        · exact .append _ _ (good_chars (by decide)) (good_ktQuoted (h2 c (by simp)) rfl)
        · obtain ⟨y, hy, rfl⟩ := List.mem_map.1 hs
          exact good_ktQuoted (h2 y (by simp [hy])) rfl
    rw [e, parts_join (by rfl) (good_chars (by decide)) hg, List.map_cons]
    dsimp only
    rw [unquote_ktQuoted h1, Option.bind_some, show " "ₛ ++ ("columnNames = ["ₛ ++ ktQuoted c) = " columnNames = ["ₛ ++ ktQuoted c by
      rw [← List.append_assoc]; rfl, after_append, Option.bind_some, unquote_ktQuoted (h2 c (by simp)), Option.bind_some, List.map_map,
      mapM_all (g := (fun x => " "ₛ ++ x) ∘ ktQuoted) (l := cs)]
    · rfl
    · intro y hy
      show (after " "ₛ (" "ₛ ++ ktQuoted y)).bind _ = _
      rw [after_append, Option.bind_some, unquote_ktQuoted (h2 y (by simp [hy]))]

theorem read_table {n : Str} {u : Option (Str × List Str)} (hn : PlainQuoted '"' n)
    (hu : ∀ x ∈ u, PlainQuoted '"' x.1 ∧ (∀ c ∈ x.2, PlainQuoted '"' c) ∧ x.2 ≠ []) (h : KtHead) (hh : h.unique = none) (f : KtFile) :
    (tableLines n u).foldlM readKtLine (.top h, f) = some (.top { h with table := some n, unique := u }, f) := by
  cases u with
  | none =>
    have e : readKtLine (.top h, f) ("@Table(name = "ₛ ++ (ktQuoted n ++ ")"ₛ)) = some (.top { h with table := some n }, f) := by
      rw [read_top]
      unfold readKtTopLine
      rw [after_long _ (by decide) (by decide), after_long _ (by decide) (by decide), after_append]
      dsimp only
      rw [ktBefore_append, Option.bind_some, unquote_ktQuoted hn]
      rfl
    unfold tableLines
    rw [List.foldlM_cons, e, ← hh]
    rfl
  | some u =>
    have e : readKtLine (.top h, f) ("@Table(name="ₛ ++ (ktQuoted n ++ ", uniqueConstraints = ["ₛ)) = some (.table h n, f) := by
      rw [read_top]
      unfold readKtTopLine
      rw [after_long _ (by decide) (by decide), after_append]
      dsimp only
      rw [ktBefore_append, Option.bind_some, unquote_ktQuoted hn]
      rfl
    obtain ⟨h1, h2, h3⟩ := hu u rfl
    have e2 : readKtLine (.table h n, f) ("    UniqueConstraint(name = "ₛ ++ (ktQuoted u.1 ++ ", columnNames = ["ₛ ++
        join ", "ₛ (u.2.map ktQuoted) ++ "])"ₛ)) = some (.tableEnd { h with table := some n, unique := some u }, f) := by
      show (readConstraint _).map _ = _
      rw [read_constraint h1 h2 h3]
      rfl
    unfold tableLines
    rw [List.foldlM_cons, e]
    show List.foldlM readKtLine _ _ = _
    rw [List.foldlM_cons, e2]
    rfl

/-- The line of `@IdClass`. -/
def idClassLines : Option Str → List Str
  | none => []
  | some n => ["@IdClass("ₛ ++ (n ++ "::class)"ₛ)]

theorem read_idClass (n : Option Str) (h : KtHead) (hh : h.idClass = none) (f : KtFile) :
    (idClassLines n).foldlM readKtLine (.top h, f) = some (.top { h with idClass := n }, f) := by
  cases n with
  | none => rw [show (none : Option Str) = h.idClass from hh.symm, hh]; exact (congrArg (fun x => some (KtMode.top { h with idClass := x }, f)) hh)
  | some n =>
    have e : readKtLine (.top h, f) ("@IdClass("ₛ ++ (n ++ "::class)"ₛ)) = some (.top { h with idClass := some n }, f) := by
      rw [read_top]
      unfold readKtTopLine
      rw [after_short _ (by decide) (by decide), after_short _ (by decide) (by decide), after_short _ (by decide) (by decide), after_append]
      dsimp only
      rw [ktBefore_append]
      rfl
    unfold idClassLines
    rw [List.foldlM_cons, e]
    rfl

/-! ### Files -/

/-- The parts of a file. -/
structure EntityParts where
  package : Str
  imports : List Str
  javaImports : List Str
  annotations : Str
  table : Str
  unique : Option (Str × List Str)
  name : Str
  properties : List (KtProperty × Bool)
  super : Option Str
  key : Option (Str × List (KtProperty × Bool))

/-- The parts of a file, as they can be written. -/
structure PlainParts (e : EntityParts) : Prop where
  package : Word e.package
  imports : ∀ i ∈ e.imports, LineWord i
  javaImports : ∀ i ∈ e.javaImports, LineWord i
  annotations : (e.annotations = [] ∨ e.annotations.head? = some '@' ∧ '(' ∉ e.annotations) ∧ '\n' ∉ e.annotations
  table : PlainQuoted '"' e.table
  unique : ∀ x ∈ e.unique, PlainQuoted '"' x.1 ∧ (∀ c ∈ x.2, PlainQuoted '"' c) ∧ x.2 ≠ []
  name : Ident e.name
  properties : ∀ p ∈ e.properties, PlainProperty p.1
  separated : Separated e.properties
  super : ∀ x ∈ e.super, '\n' ∉ x
  key : ∀ x ∈ e.key, Ident x.1 ∧ (∀ p ∈ x.2, PlainProperty p.1) ∧ Separated x.2

/-- The lines of the class of the key. -/
def keyLines : Option (Str × List (KtProperty × Bool)) → List Str
  | none => []
  | some k => classLines false k.1 k.2 (some "Serializable"ₛ)

/-- The lines of a file. -/
def entityLines (e : EntityParts) : List Str :=
  headerLines e.package e.imports e.javaImports ++ (e.annotations :: "@Entity"ₛ :: (tableLines e.table e.unique ++
    (idClassLines (e.key.map Prod.fst) ++ (classLines true e.name e.properties e.super ++ keyLines e.key))))

/-- What stands before the entity. -/
def entityHead (e : EntityParts) : KtHead :=
  ⟨some e.table, e.unique, e.key.map Prod.fst, otherLine e.annotations ++ ["@Entity"ₛ]⟩

/-- The class of the key. -/
def keyClasses : Option (Str × List (KtProperty × Bool)) → List KtClass
  | none => []
  | some k => [⟨noHead, k.1, k.2.map Prod.fst, some "Serializable"ₛ⟩]

/-- The file that is read. -/
def partsFile (e : EntityParts) : KtFile :=
  ⟨some e.package, e.imports ++ e.javaImports, ⟨entityHead e, e.name, e.properties.map Prod.fst, e.super⟩ :: keyClasses e.key, []⟩

/-- The parts are valid in Kotlin. -/
def ValidParts (e : EntityParts) : Prop :=
  (KtName e.name ∧ ∀ p ∈ e.properties, ValidProperty p.1) ∧ ∀ k ∈ e.key, KtName k.1 ∧ ∀ p ∈ k.2, ValidProperty p.1

theorem read_key {k : Option (Str × List (KtProperty × Bool))}
    (h : ∀ x ∈ k, Ident x.1 ∧ (∀ p ∈ x.2, PlainProperty p.1) ∧ Separated x.2) (f : KtFile) :
    ((∀ x ∈ k, KtName x.1 ∧ ∀ p ∈ x.2, ValidProperty p.1) → (keyLines k).foldlM readKtLine (.top noHead, f) =
      some (.top noHead, { f with classes := f.classes ++ keyClasses k })) ∧
    ((¬∀ x ∈ k, KtName x.1 ∧ ∀ p ∈ x.2, ValidProperty p.1) → (keyLines k).foldlM readKtLine (.top noHead, f) = none) := by
  cases k with
  | none =>
    refine ⟨fun _ => ?_, fun h => absurd (by intro x hx; cases hx) h⟩
    unfold keyClasses
    rw [List.append_nil]; rfl
  | some k =>
    obtain ⟨_, h2, h3⟩ := h k rfl
    unfold keyLines
    dsimp only
    rw [read_class false noHead f k.1 (some "Serializable"ₛ) h2 h3]
    refine ⟨fun hv => by rw [if_pos (hv k rfl)]; rfl, fun hv => ?_⟩
    rw [if_neg]
    intro g
    exact hv fun x hx => by cases hx; exact g

theorem read_head {e : EntityParts} (h : PlainParts e) (f : KtFile) (rest : List Str) :
    (e.annotations :: "@Entity"ₛ :: (tableLines e.table e.unique ++ (idClassLines (e.key.map Prod.fst) ++ rest))).foldlM readKtLine
      (.top noHead, f) = rest.foldlM readKtLine (.top (entityHead e), f) := by
  have hE : ∀ h, readKtLine (.top h, f) "@Entity"ₛ = some (.top { h with others := h.others ++ ["@Entity"ₛ] }, f) :=
    fun h => read_other (.inr ⟨by decide, by decide⟩) h f
  rw [List.foldlM_cons, read_other h.annotations.1]
  show List.foldlM readKtLine _ _ = _
  rw [List.foldlM_cons, hE]
  show List.foldlM readKtLine _ _ = _
  rw [List.foldlM_append, read_table h.table h.unique _ rfl]
  show List.foldlM readKtLine _ _ = _
  rw [List.foldlM_append, read_idClass _ _ rfl]
  rfl

theorem newline_property {p : KtProperty × Bool} (h : PlainProperty p.1) (gap : Bool) : ∀ x ∈ propertyLines gap p, '\n' ∉ x := by
  intro x hx
  unfold propertyLines at hx
  rcases List.mem_append.1 hx with hx | hx
  · rcases List.mem_append.1 hx with hx | hx
    · obtain ⟨a, ha, rfl⟩ := List.mem_map.1 hx
      exact newline_append (by decide) (good_annoStr (h.annotations a ha)).newline
    · rw [List.mem_singleton.1 hx]
      refine newline_append (by decide) (newline_append ?_ (newline_comma _))
      unfold declStr
      refine newline_append (newline_append (newline_append (newline_append (newline_append ?_ (by decide)) (newline_ident h.name))
        (by decide)) h.type.1.newline) ?_
      · split <;> decide
      · unfold defaultStr
        have hd := h.default
        cases e : p.1.default with
        | none => simp
        | some y =>
          refine newline_append (by decide) ?_
          rcases (hd y e).1 with rfl | hy
          · simp
          · exact hy.newline
  · cases gap with
    | true => rw [List.mem_singleton.1 hx]; simp
    | false => cases hx

theorem newline_class {gap : Bool} {n : Str} {ps : List (KtProperty × Bool)} {s : Option Str} (hn : Ident n)
    (hp : ∀ p ∈ ps, PlainProperty p.1) (hs : ∀ x ∈ s, '\n' ∉ x) : ∀ x ∈ classLines gap n ps s, '\n' ∉ x := by
  intro x hx
  unfold classLines at hx
  rcases List.mem_cons.1 hx with rfl | hx
  · exact newline_append (newline_append (by decide) (newline_ident hn)) (by decide)
  · rcases List.mem_append.1 hx with hx | hx
    · obtain ⟨p, hp', hx⟩ := List.mem_flatMap.1 hx
      exact newline_property (hp p hp') gap x hx
    · rw [List.mem_singleton.1 hx]
      cases s with
      | none => decide
      | some s => exact newline_append (by decide) (hs s rfl)

theorem newline_ktQuoted {s : Str} (h : PlainQuoted '"' s) : '\n' ∉ ktQuoted s :=
  newline_append (a := ['"'] ++ s) (newline_append (by decide) h.2.2) (by decide)

theorem newline_lines {e : EntityParts} (h : PlainParts e) : ∀ x ∈ entityLines e, '\n' ∉ x := by
  intro x hx
  unfold entityLines at hx
  rcases List.mem_append.1 hx with hx | hx
  · unfold headerLines at hx
    rcases List.mem_cons.1 hx with rfl | hx
    · exact newline_append (by decide) (fun hm => absurd (h.package.2 _ hm).1 (by decide))
    · rcases List.mem_cons.1 hx with rfl | hx
      · simp
      · rcases List.mem_append.1 hx with hx | hx
        · obtain ⟨i, hi, rfl⟩ := List.mem_map.1 hx
          exact newline_append (by decide) (h.imports i hi).newline
        · rcases List.mem_cons.1 hx with rfl | hx
          · simp
          · rcases List.mem_append.1 hx with hx | hx
            · obtain ⟨i, hi, rfl⟩ := List.mem_map.1 hx
              exact newline_append (by decide) (h.javaImports i hi).newline
            · rw [List.mem_singleton.1 hx]; simp
  · rcases List.mem_cons.1 hx with rfl | hx
    · exact h.annotations.2
    · rcases List.mem_cons.1 hx with rfl | hx
      · decide
      · rcases List.mem_append.1 hx with hx | hx
        · have hu := h.unique
          cases e' : e.unique with
          | none =>
            rw [e'] at hx
            rw [List.mem_singleton.1 hx]
            exact newline_append (by decide) (newline_append (newline_ktQuoted h.table) (by decide))
          | some u =>
            rw [e'] at hx
            obtain ⟨u1, u2, _⟩ := hu u e'
            rcases List.mem_cons.1 hx with rfl | hx
            · exact newline_append (by decide) (newline_append (newline_ktQuoted h.table) (by decide))
            · rcases List.mem_cons.1 hx with rfl | hx
              · refine newline_append (by decide) (newline_append (newline_append (newline_append (newline_ktQuoted u1) (by decide))
                  (newline_join (by decide) ?_)) (by decide))
                intro y hy
                obtain ⟨c, hc, rfl⟩ := List.mem_map.1 hy
                exact newline_ktQuoted (u2 c hc)
              · rw [List.mem_singleton.1 hx]; decide
        · rcases List.mem_append.1 hx with hx | hx
          · cases e' : e.key with
            | none => rw [e'] at hx; cases hx
            | some k =>
              rw [e'] at hx
              rw [List.mem_singleton.1 hx]
              exact newline_append (by decide) (newline_append (newline_ident (h.key k e').1) (by decide))
          · rcases List.mem_append.1 hx with hx | hx
            · exact newline_class h.name h.properties h.super x hx
            · cases e' : e.key with
              | none => rw [e'] at hx; cases hx
              | some k =>
                rw [e'] at hx
                exact newline_class (h.key k e').1 (h.key k e').2.1 (by intro x hx; cases hx; decide) x hx

/-- A file as lines is read as its parts, when these are valid in Kotlin, and not at all otherwise. -/
theorem read_entity {e : EntityParts} (h : PlainParts e) :
    (ValidParts e → readKt (unlines (entityLines e)) = some (partsFile e)) ∧
    (¬ValidParts e → readKt (unlines (entityLines e)) = none) := by
  have hc := read_class true (entityHead e) ⟨some e.package, e.imports ++ e.javaImports, [], []⟩ e.name e.super h.properties h.separated
  have hk := read_key h.key ⟨some e.package, e.imports ++ e.javaImports,
    [⟨entityHead e, e.name, e.properties.map Prod.fst, e.super⟩], []⟩
  unfold readKt
  rw [split_unlines (newline_lines h), List.foldlM_append]
  have e1 : List.foldlM readKtLine (.top noHead, ⟨none, [], [], []⟩) (entityLines e) =
      (List.foldlM readKtLine (.top (entityHead e), ⟨some e.package, e.imports ++ e.javaImports, [], []⟩)
        (classLines true e.name e.properties e.super)).bind fun st => (keyLines e.key).foldlM readKtLine st := by
    unfold entityLines
    rw [List.foldlM_append, read_header h.package h.imports h.javaImports]
    show List.foldlM readKtLine _ _ = _
    rw [read_head h, List.foldlM_append]
    rfl
  rw [e1, hc]
  constructor
  · intro hv
    rw [if_pos hv.1, Option.bind_some]
    show ((List.foldlM readKtLine (KtMode.top noHead, ⟨some e.package, e.imports ++ e.javaImports,
      [⟨entityHead e, e.name, e.properties.map Prod.fst, e.super⟩], []⟩) (keyLines e.key)).bind _).bind ktDone = _
    rw [hk.1 hv.2]
    rfl
  · intro hv
    by_cases h1 : KtName e.name ∧ ∀ p ∈ e.properties, ValidProperty p.1
    · rw [if_pos h1, Option.bind_some]
      show ((List.foldlM readKtLine (KtMode.top noHead, ⟨some e.package, e.imports ++ e.javaImports,
      [⟨entityHead e, e.name, e.properties.map Prod.fst, e.super⟩], []⟩) (keyLines e.key)).bind _).bind ktDone = _
      rw [hk.2 fun g => hv ⟨h1, g⟩]
      rfl
    · rw [if_neg h1]
      rfl

end Octo.Jpa
