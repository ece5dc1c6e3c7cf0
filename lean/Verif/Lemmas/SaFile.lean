import Verif.Lemmas.SaClass

/-! Lemmas about the files that the SQLAlchemy generator writes. -/

namespace Octo.Sqlalchemy
open Spec Protobuf Jpa

/-! ### Imports -/

theorem read_names {l : List Str} (hne : l ≠ []) (h : ∀ n ∈ l, PyName n) : readPyNames (tokens (join ", "ₛ l)) = some l := by
  induction l with
  | nil => exact absurd rfl hne
  | cons a l ih =>
    cases l with
    | nil =>
      rw [show join ", "ₛ [a] = a from rfl, tokens_single (Good.blank (good_ident (h a (by simp)).1)) (h a (by simp)).1.1]
      exact if_pos (h a (by simp))
    | cons b l =>
      have ih := ih (by simp) fun n hn => h n (by simp [hn])
      have ha := h a (by simp)
      rw [join_cons_cons, show a ++ ", "ₛ ++ join ", "ₛ (b :: l) = (a ++ ","ₛ) ++ ' ' :: join ", "ₛ (b :: l) by
          rw [show ", "ₛ = ","ₛ ++ [' '] from rfl]; simp only [List.append_assoc, List.cons_append, List.nil_append],
        tokens_cons (.append _ _ (Good.blank (good_ident ha.1)) (good_chars (by decide))) (by simp) rfl]
      cases ht : tokens (join ", "ₛ (b :: l)) with
      | nil => rw [ht] at ih; cases ih
      | cons m r =>
        rw [ht] at ih
        show ((ktBefore ","ₛ (a ++ ","ₛ)).bind fun n => if PyName n then (readPyNames (m :: r)).map (n :: ·) else none) = _
        rw [ktBefore_append, Option.bind_some, if_pos ha, ih]
        rfl

theorem read_import {m : Str} {ns : List Str} (hm : PyDotted m) (hg : LineWord m) (h : ∀ n ∈ ns, PyName n) (f : PyFile) :
    readPyLine (none, f) ("from "ₛ ++ m ++ " import "ₛ ++ join ", "ₛ ns) = if ns = [] then none else some (none, f ++ [.imports m ns]) := by
  have e : "from "ₛ ++ m ++ " import "ₛ ++ join ", "ₛ ns = "from "ₛ ++ (m ++ (" import "ₛ ++ join ", "ₛ ns)) := by
    simp only [List.append_assoc]
  unfold readPyLine readPyText
  rw [e, if_neg (by simp), show after "    "ₛ ("from "ₛ ++ (m ++ (" import "ₛ ++ join ", "ₛ ns))) = none from after_head (by decide)]
  dsimp only
  rw [show closePyClass (none, f) = some f from rfl, Option.bind_some,
    show after "class "ₛ ("from "ₛ ++ (m ++ (" import "ₛ ++ join ", "ₛ ns))) = none from after_head (by decide)]
  dsimp only
  have e2 : "from "ₛ ++ (m ++ (" import "ₛ ++ join ", "ₛ ns)) = "from"ₛ ++ ' ' :: (m ++ ' ' :: ("import"ₛ ++ ' ' :: join ", "ₛ ns)) := by
    rw [show "from "ₛ = "from"ₛ ++ [' '] from rfl, show " import "ₛ = ' ' :: ("import"ₛ ++ [' ']) from rfl]
    simp only [List.append_assoc, List.cons_append, List.nil_append]
  rw [e2, tokens_cons (good_chars (by decide)) (by decide) rfl, tokens_cons (Good.blank hg.good) hg.ne rfl,
    tokens_cons (good_chars (by decide)) (by decide) rfl]
  unfold readPyTop
  dsimp only
  rw [if_pos rfl, if_pos ⟨rfl, hm⟩]
  by_cases hn : ns = []
  · subst hn
    rw [if_pos rfl]; rfl
  · rw [if_neg hn, read_names hn h]; rfl

/-- The two imports that stand at the top. -/
def timeImports : List Str := ["from datetime import datetime"ₛ, "from datetime import timezone"ₛ]

/-- The statement of such an import. -/
def importStmt (l : Str) : PyStmt := .imports "datetime"ₛ [l.drop 21]

theorem read_timeImport {l : Str} (h : l ∈ timeImports) (f : PyFile) : readPyLine (none, f) l = some (none, f ++ [importStmt l]) := by
  have hm : PyDotted "datetime"ₛ ∧ LineWord "datetime"ₛ := ⟨by decide +kernel, lineWord_literal "datetime"ₛ (by decide) (by decide)⟩
  have e : ∀ l ∈ timeImports, l = "from "ₛ ++ "datetime"ₛ ++ " import "ₛ ++ join ", "ₛ [l.drop 21] ∧ PyName (l.drop 21) := by decide +kernel
  obtain ⟨e1, e2⟩ := e l h
  unfold importStmt
  conv_lhs => rw [e1]
  rw [read_import hm.1 hm.2 (by intro n hn; rw [List.mem_singleton.1 hn]; exact e2), if_neg (by simp)]

theorem read_timeImports : ∀ (ls : List Str) (f : PyFile), (∀ l ∈ ls, l ∈ timeImports) →
    ls.foldlM readPyLine (none, f) = some (none, f ++ ls.map importStmt) := by
  intro ls
  induction ls with
  | nil => intro f _; rw [List.map_nil, List.append_nil]; rfl
  | cons l ls ih =>
    intro f h
    rw [List.foldlM_cons, read_timeImport (h l (by simp))]
    show List.foldlM readPyLine _ _ = _
    rw [ih _ fun x hx => h x (by simp [hx]), List.map_cons, List.append_assoc]
    rfl

/-- The statements of the header after the imports at its top. -/
def headerRest (sa : List Str) : PyFile :=
  [.imports "sqlalchemy"ₛ sa, .imports "sqlalchemy.ext.declarative"ₛ ["declarative_base"ₛ], .imports "sqlalchemy_repr"ₛ ["RepresentableBase"ₛ],
   .assign "Base"ₛ (.call "declarative_base"ₛ [(some "cls"ₛ, .atom "RepresentableBase"ₛ)])]

/-- The statements of the header. -/
def headerFile (imports sa : List Str) : PyFile := imports.map importStmt ++ headerRest sa

theorem read_base (f : PyFile) : readPyLine (none, f) "Base = declarative_base(cls=RepresentableBase)"ₛ =
    some (none, f ++ [.assign "Base"ₛ (.call "declarative_base"ₛ [(some "cls"ₛ, .atom "RepresentableBase"ₛ)])]) := by
  have e1 : after "    "ₛ "Base = declarative_base(cls=RepresentableBase)"ₛ = none := by decide +kernel
  have e2 : after "class "ₛ "Base = declarative_base(cls=RepresentableBase)"ₛ = none := by decide +kernel
  have e3 : tokens "Base = declarative_base(cls=RepresentableBase)"ₛ = ["Base"ₛ, "="ₛ, "declarative_base(cls=RepresentableBase)"ₛ] := by
    decide +kernel
  have e4 : readPyExpr "declarative_base(cls=RepresentableBase)"ₛ =
      some (.call "declarative_base"ₛ [(some "cls"ₛ, .atom "RepresentableBase"ₛ)]) := by decide +kernel
  unfold readPyLine readPyText
  rw [if_neg (by decide), e1]
  dsimp only
  rw [show closePyClass (none, f) = some f from rfl, Option.bind_some, e2]
  dsimp only
  rw [e3]
  unfold readPyTop
  dsimp only
  rw [if_neg (by decide), if_pos ⟨rfl, rfl, by decide⟩, e4]
  rfl

theorem read_header {imports sa : List Str} (hi : ∀ l ∈ imports, l ∈ timeImports) (hs : ∀ n ∈ sa, PyName n) :
    (headerLines imports sa).foldlM readPyLine (none, []) = if sa = [] then none else some (none, headerFile imports sa) := by
  have h1 : (if imports.length > 0 then imports ++ [[]] else []).foldlM readPyLine (none, []) = some (none, imports.map importStmt) := by
    by_cases hl : imports.length > 0
    · rw [if_pos hl, List.foldlM_append, read_timeImports _ _ hi]; rfl
    · rw [if_neg hl]
      have : imports = [] := by cases imports with
        | nil => rfl
        | cons a l => exact absurd (Nat.succ_pos _) hl
      rw [this]; rfl
  unfold headerLines
  rw [List.foldlM_append, h1]
  show List.foldlM readPyLine _ _ = _
  have e : "from sqlalchemy import "ₛ ++ join ", "ₛ sa = "from "ₛ ++ "sqlalchemy"ₛ ++ " import "ₛ ++ join ", "ₛ sa := rfl
  rw [List.foldlM_cons, e, read_import (by decide +kernel) (lineWord_literal "sqlalchemy"ₛ (by decide) (by decide)) hs]
  by_cases hn : sa = []
  · rw [if_pos hn, if_pos hn]; rfl
  · rw [if_neg hn, if_neg hn]
    rw [Option.bind_eq_bind, Option.bind_some]
    have e1 : ∀ f : PyFile, readPyLine (none, f) "from sqlalchemy.ext.declarative import declarative_base"ₛ =
        some (none, f ++ [.imports "sqlalchemy.ext.declarative"ₛ ["declarative_base"ₛ]]) := by
      intro f
      have := read_import (m := "sqlalchemy.ext.declarative"ₛ) (ns := ["declarative_base"ₛ]) (by decide +kernel)
        (lineWord_literal "sqlalchemy.ext.declarative"ₛ (by decide) (by decide)) (by decide +kernel) f
      rw [if_neg (by simp)] at this
      exact this
    have e2 : ∀ f : PyFile, readPyLine (none, f) "from sqlalchemy_repr import RepresentableBase"ₛ =
        some (none, f ++ [.imports "sqlalchemy_repr"ₛ ["RepresentableBase"ₛ]]) := by
      intro f
      have := read_import (m := "sqlalchemy_repr"ₛ) (ns := ["RepresentableBase"ₛ]) (by decide +kernel)
        (lineWord_literal "sqlalchemy_repr"ₛ (by decide) (by decide)) (by decide +kernel) f
      rw [if_neg (by simp)] at this
      exact this
    rw [List.foldlM_cons, e1]
    rw [Option.bind_eq_bind, Option.bind_some]
    rw [List.foldlM_cons, e2]
    rw [Option.bind_eq_bind, Option.bind_some]
    have e3 : ∀ f : PyFile, readPyLine (none, f) [] = some (none, f) := fun _ => rfl
    rw [List.foldlM_cons, e3]
    rw [Option.bind_eq_bind, Option.bind_some]
    rw [List.foldlM_cons, read_base]
    rw [Option.bind_eq_bind, Option.bind_some]
    rw [List.foldlM_nil]
    unfold headerFile headerRest
    rw [List.append_assoc, List.append_assoc, List.append_assoc]
    rfl

/-! ### The class for times -/

/-- The class `TZDateTime`. -/
def tzClass : PyClass :=
  ⟨"TZDateTime"ₛ, "TypeDecorator"ₛ, [.assign "impl"ₛ (.atom "DateTime"ₛ),
    .code "def process_bind_param(self, value, dialect):"ₛ, .code "    if value is not None:"ₛ, .code "        if not value.tzinfo:"ₛ,
    .code "            raise TypeError(\"tzinfo is required\")"ₛ,
    .code "        value = value.astimezone(timezone.utc).replace(tzinfo=None)"ₛ, .code "    return value"ₛ,
    .code "def process_result_value(self, value, dialect):"ₛ, .code "    if value is not None:"ₛ,
    .code "        value = value.replace(tzinfo=timezone.utc)"ₛ, .code "    return value"ₛ]⟩

theorem read_file (l : Str) (h : l = [] ∨ ∃ r, l = "    "ₛ ++ r) (k : PyClass) (f : PyFile) :
    ∀ st, readPyLine (some k, []) l = some st → readPyLine (some k, f) l = some (st.1, f) ∧ st.1.isSome = true := by
  intro st hst
  rcases h with rfl | ⟨r, rfl⟩
  · cases hst; exact ⟨rfl, rfl⟩
  · rw [readPyLine_member] at hst ⊢
    cases hm : readPyMember k r with
    | none => rw [hm] at hst; cases hst
    | some m => rw [hm] at hst; cases hst; exact ⟨rfl, rfl⟩

theorem read_file_all : ∀ (ls : List Str) (k : PyClass) (f : PyFile) (st : Option PyClass × PyFile),
    (∀ l ∈ ls, l = [] ∨ ∃ r, l = "    "ₛ ++ r) → ls.foldlM readPyLine (some k, []) = some st →
    ls.foldlM readPyLine (some k, f) = some (st.1, f) := by
  intro ls
  induction ls with
  | nil => intro k f st _ h; cases h; rfl
  | cons l ls ih =>
    intro k f st hl h
    rw [List.foldlM_cons] at h ⊢
    cases hr : readPyLine (some k, []) l with
    | none => rw [hr] at h; cases h
    | some st' =>
      obtain ⟨h1, h2⟩ := read_file l (hl l (by simp)) k f st' hr
      obtain ⟨k', hk⟩ := Option.isSome_iff_exists.1 h2
      obtain ⟨a, b⟩ := st'
      dsimp only at hk h1
      subst hk
      rw [h1]
      rw [hr] at h
      have hb : b = [] := by
        rcases hl l (by simp) with rfl | ⟨r, rfl⟩
        · cases hr; rfl
        · rw [readPyLine_member] at hr
          cases hm : readPyMember k r with
          | none => rw [hm] at hr; cases hr
          | some m => rw [hm] at hr; cases hr; rfl
      subst hb
      exact ih k' f st (fun x hx => hl x (by simp [hx])) h

theorem read_tz {st : Option PyClass × PyFile} {f : PyFile} (h : closePyClass st = some f) :
    tzLines.foldlM readPyLine st = some (some tzClass, f) := by
  have hhead : readPyLine st "class TZDateTime(TypeDecorator):"ₛ = some (some ⟨"TZDateTime"ₛ, "TypeDecorator"ₛ, []⟩, f) := by
    have e1 : after "    "ₛ "class TZDateTime(TypeDecorator):"ₛ = none := by decide +kernel
    have e2 : (after "class "ₛ "class TZDateTime(TypeDecorator):"ₛ).bind readPyClassHead = some ⟨"TZDateTime"ₛ, "TypeDecorator"ₛ, []⟩ := by
      decide +kernel
    unfold readPyLine readPyText
    rw [if_neg (by decide), e1]
    dsimp only
    rw [h, Option.bind_some]
    cases ha : after "class "ₛ "class TZDateTime(TypeDecorator):"ₛ with
    | none => rw [ha] at e2; cases e2
    | some r =>
      rw [ha, Option.bind_some] at e2
      dsimp only
      rw [e2]; rfl
  show (tzLines.drop 2).foldlM readPyLine st = _
  have hd : tzLines.drop 2 = "class TZDateTime(TypeDecorator):"ₛ :: tzLines.drop 3 := rfl
  rw [hd, List.foldlM_cons, hhead]
  have h1 : ∀ l ∈ tzLines.drop 3, l = [] ∨ ∃ r, l = "    "ₛ ++ r := by
    have : ∀ l ∈ tzLines.drop 3, l = [] ∨ l = "    "ₛ ++ l.drop 4 := by decide +kernel
    intro l hl
    exact (this l hl).imp id fun e => ⟨_, e⟩
  have h2 : (tzLines.drop 3).foldlM readPyLine (some ⟨"TZDateTime"ₛ, "TypeDecorator"ₛ, []⟩, []) = some (some tzClass, []) := by
    decide +kernel
  exact read_file_all _ _ _ _ h1 h2

/-! ### Lines without line ends -/

theorem newline_header {imports sa : List Str} (hi : ∀ l ∈ imports, l ∈ timeImports) (hs : ∀ n ∈ sa, PyName n) :
    ∀ l ∈ headerLines imports sa, '\n' ∉ l := by
  have ht : ∀ l ∈ timeImports, '\n' ∉ l := by decide +kernel
  intro l hl
  unfold headerLines at hl
  rcases List.mem_append.1 hl with hl | hl
  · split at hl
    · rcases List.mem_append.1 hl with hl | hl
      · exact ht l (hi l hl)
      · rw [List.mem_singleton.1 hl]; simp
    · cases hl
  · rcases List.mem_cons.1 hl with rfl | hl
    · exact newline_append (by decide) (newline_join (by decide) fun n hn => newline_ident (hs n hn).1)
    · have : ∀ l ∈ ["from sqlalchemy.ext.declarative import declarative_base"ₛ, "from sqlalchemy_repr import RepresentableBase"ₛ, [],
          "Base = declarative_base(cls=RepresentableBase)"ₛ], '\n' ∉ l := by decide +kernel
      exact this l hl

theorem newline_class {sc : Strcase} {o : SaOption} {s : Schema} (hc : CleanCase sc) (hp : PlainSa sc o s) {t : Table} (ht : t ∈ s.tables) :
    ∀ l ∈ classLines o (newClass sc o t), '\n' ∉ l := by
  intro l hl
  unfold classLines at hl
  rcases List.mem_append.1 hl with hl | hl
  · rcases List.mem_append.1 hl with hl | hl
    · rcases List.mem_append.1 hl with hl | hl
      · rcases List.mem_cons.1 hl with rfl | hl
        · simp
        rcases List.mem_cons.1 hl with rfl | hl
        · simp
        rcases List.mem_cons.1 hl with rfl | hl
        · rw [show (newClass sc o t).name = saClassName sc o t from className_eq sc o t]
          exact newline_append (newline_append (by decide) (newline_ident (ident_saClassName hc hp ht))) (by decide)
        · rw [List.mem_singleton.1 hl]
          exact newline_append (newline_append (by decide) (hp.tables t ht).1.2.2) (by decide)
      · split at hl
        · rename_i hu
          rw [uniqueFields_eq, List.length_map] at hu
          rw [List.mem_singleton.1 hl]
          refine newline_append (newline_append (newline_append (newline_append (by decide) (newline_join (by decide) ?_)) (by decide))
            (newline_append (hp.tables t ht).1.2.2 hp.suffix.2.2)) (by decide)
          intro x hx
          obtain ⟨f, hf, rfl⟩ := List.mem_map.1 hx
          rw [uniqueFields_eq] at hf
          obtain ⟨c, hc', rfl⟩ := List.mem_map.1 hf
          rw [newField_name]
          exact newline_append (newline_append (by decide)
            (newline_ident (ident_attribute (hp.columns t ht c (List.mem_filter.1 hc').1).2))) (by decide)
        · cases hl
    · rw [List.mem_singleton.1 hl]; simp
  · obtain ⟨f, hf, rfl⟩ := List.mem_map.1 hl
    obtain ⟨c, hc', rfl⟩ := List.mem_map.1 hf
    obtain ⟨h1, h2⟩ := hp.columns t ht c hc'
    have := (lineWord_columnCall o.useUTC (sc := sc) h1).newline
    have e : columnLine o.useUTC (newField sc c) =
        "    "ₛ ++ (newField sc c).name ++ " = "ₛ ++ ("Column("ₛ ++ join ", "ₛ (attributes o.useUTC (newField sc c)) ++ ")"ₛ) := by
      unfold columnLine
      rw [show " = Column("ₛ = " = "ₛ ++ "Column("ₛ from rfl]
      simp only [List.append_assoc]
    rw [e, newField_name]
    exact newline_append (newline_append (newline_append (by decide) (newline_ident (ident_attribute h2))) (by decide)) this

/-! ### Files -/

theorem readPy_lines {ls : List Str} (h : ∀ l ∈ ls, '\n' ∉ l) :
    readPy (join "\n"ₛ (ls ++ [[]])) = (ls.foldlM readPyLine (none, [])).bind closePyClass := by
  unfold readPy
  rw [show "\n"ₛ = ['\n'] from rfl, split_join (by simp) ?_, List.foldlM_append]
  · cases ls.foldlM readPyLine (none, []) <;> rfl
  · intro l hl
    rcases List.mem_append.1 hl with hl | hl
    · exact h l hl
    · rw [List.mem_singleton.1 hl]; simp

/-- A file: the header, the class for times when it is wanted, and classes. -/
def fileOf (imports sa : List Str) (tz : Bool) (ks : List PyClass) : PyFile :=
  headerFile imports sa ++ (if tz then [.cls tzClass] else []) ++ ks.map .cls

theorem read_whole {sc : Strcase} {o : SaOption} {s : Schema} (hc : CleanCase sc) (hp : PlainSa sc o s) {imports sa : List Str}
    (hi : ∀ l ∈ imports, l ∈ timeImports) (hs : ∀ n ∈ sa, PyName n) (tz : Bool) {ts : List Table} (hts : ∀ t ∈ ts, t ∈ s.tables) :
    readPy (join "\n"ₛ (headerLines imports sa ++ (if tz then tzLines else []) ++ (ts.map (newClass sc o)).flatMap (classLines o) ++ [[]])) =
      if sa ≠ [] ∧ ∀ t ∈ ts, PyTable sc o t then some (fileOf imports sa tz (ts.map (pyClassOf sc o))) else none := by
  have htz : ∀ l ∈ tzLines, '\n' ∉ l := by decide +kernel
  rw [readPy_lines, List.foldlM_append, List.foldlM_append, read_header hi hs]
  · by_cases hn : sa = []
    · rw [if_pos hn, if_neg (c := sa ≠ [] ∧ _) (fun e => e.1 hn)]; rfl
    · rw [if_neg hn]
      show ((List.foldlM readPyLine _ _) >>= _).bind _ = _
      have h1 : ∃ st, (if tz then tzLines else []).foldlM readPyLine (none, headerFile imports sa) = some st ∧
          closePyClass st = some (headerFile imports sa ++ if tz then [.cls tzClass] else []) := by
        cases tz
        · exact ⟨_, rfl, by rw [if_neg (by simp), List.append_nil]; rfl⟩
        · refine ⟨_, (read_tz rfl : tzLines.foldlM readPyLine _ = _), rfl⟩
      obtain ⟨st, h2, h3⟩ := h1
      rw [h2]
      show (List.foldlM readPyLine st _).bind closePyClass = _
      rw [read_classes hc hp ts hts st _ h3]
      unfold fileOf
      rw [List.map_map]
      by_cases ht : ∀ t ∈ ts, PyTable sc o t
      · rw [if_pos ht, if_pos (c := sa ≠ [] ∧ _) ⟨hn, ht⟩]; rfl
      · rw [if_neg ht, if_neg (c := sa ≠ [] ∧ _) (fun e => ht e.2)]
  · intro l hl
    rcases List.mem_append.1 hl with hl | hl
    · rcases List.mem_append.1 hl with hl | hl
      · exact newline_header hi hs l hl
      · split at hl
        · exact htz l hl
        · cases hl
    · obtain ⟨k, hk, hl⟩ := List.mem_flatMap.1 hl
      obtain ⟨t, ht, rfl⟩ := List.mem_map.1 hk
      exact newline_class hc hp (hts t ht) l hl

end Octo.Sqlalchemy
