import Verif.Lemmas.GormFile
import Verif.Spec.Jpa

/-! The Kotlin reader on the lines of the JPA generator. -/

namespace Octo.Jpa
open Spec
open Protobuf (LineWord lineWord_ident lineWord_literal)

/-! ### Prefixes and suffixes -/

theorem after_append (p s : Str) : after p (p ++ s) = some s := by
  unfold after
  rw [if_pos List.take_left, List.drop_left]

theorem ktBefore_append (p s : Str) : ktBefore p (s ++ p) = some s := by
  unfold ktBefore
  rw [List.reverse_append, after_append]
  simp

theorem after_long {p l : Str} (x : Str) (h : p.length ≤ l.length) (hne : l.take p.length ≠ p) : after p (l ++ x) = none := by
  unfold after
  rw [if_neg]
  rwa [List.take_append_of_le_length h]

theorem after_head {a b : Char} {p s : Str} (h : a ≠ b) : after (a :: p) (b :: s) = none := by
  unfold after
  rw [if_neg]
  intro e
  rw [List.length_cons, List.take_succ_cons, List.cons.injEq] at e
  exact h e.1.symm

theorem ktBefore_not_mem {c : Char} {s : Str} (h : c ∉ s) : ktBefore [c] s = none := by
  unfold ktBefore
  rw [show ([c] : Str).reverse = [c] from rfl]
  cases e : s.reverse with
  | nil => rfl
  | cons x r =>
    have hx : x ∈ s := by
      rw [← List.mem_reverse, e]; simp
    rw [after_head (show c ≠ x from fun e => h (e ▸ hx))]
    rfl

theorem endComma_comma (s : Str) : endComma (s ++ ","ₛ) = (s, true) := by
  unfold endComma
  rw [ktBefore_append]

theorem endComma_none {s : Str} (h : ',' ∉ s) : endComma s = (s, false) := by
  unfold endComma
  rw [show ","ₛ = [','] from rfl, ktBefore_not_mem h]

theorem endComma_eq {s : Str} (h : ',' ∉ s) (b : Bool) : endComma (s ++ comma b) = (s, b) := by
  cases b with
  | true => exact endComma_comma s
  | false =>
    show endComma (s ++ []) = _
    rw [List.append_nil, endComma_none h]

theorem good_comma {s : Str} (h : Good isBlank s) (b : Bool) : Good isBlank (s ++ comma b) := by
  cases b with
  | true => exact .append _ _ h (good_chars (by decide))
  | false => show Good isBlank (s ++ []); rwa [List.append_nil]

theorem newline_comma (b : Bool) : '\n' ∉ comma b := by cases b <;> decide

/-! ### Annotations -/

/-- An argument as it is written. -/
def argStr (p : Str × Str) : Str := p.1 ++ " = "ₛ ++ p.2

/-- An annotation as it is written. -/
def annoStr (a : KtAnnotation) : Str :=
  "@"ₛ ++ a.1 ++ if a.2 = [] then [] else "("ₛ ++ join ", "ₛ (a.2.map argStr) ++ ")"ₛ

/-- An annotation that can be written. -/
structure PlainAnnotation (a : KtAnnotation) : Prop where
  name : Ident a.1
  args : ∀ p ∈ a.2, LineWord p.1 ∧ LineWord p.2

theorem argStr_eq (p : Str × Str) : argStr p = p.1 ++ ' ' :: ("="ₛ ++ ' ' :: p.2) := by
  unfold argStr
  rw [show " = "ₛ = ' ' :: ("="ₛ ++ [' ']) from rfl]
  simp only [List.append_assoc, List.cons_append, List.nil_append]

theorem good_argStr {p : Str × Str} (h : LineWord p.1 ∧ LineWord p.2) : Good (· == ',') (argStr p) := by
  have hc : ∀ {s : Str}, Good sqlSep s → Good (· == ',') s := fun hs => Good.comma (Good.defs hs)
  exact .append _ _ (.append _ _ (hc h.1.good) (good_chars (by decide))) (hc h.2.good)

theorem tokens_argStr {p : Str × Str} (h : LineWord p.1 ∧ LineWord p.2) : tokens (argStr p) = [p.1, "="ₛ, p.2] := by
  rw [argStr_eq, tokens_cons (Good.blank h.1.good) h.1.ne rfl, tokens_cons (good_chars (by decide)) (by decide) rfl,
    tokens_single (Good.blank h.2.good) h.2.ne]

theorem read_arg {p : Str × Str} (h : LineWord p.1 ∧ LineWord p.2) : readKtArg (argStr p) = some p := by
  unfold readKtArg
  rw [tokens_argStr h]
  exact if_pos rfl

theorem read_arg_blank {p : Str × Str} (h : LineWord p.1 ∧ LineWord p.2) : readKtArg (" "ₛ ++ argStr p) = some p := by
  unfold readKtArg
  rw [show " "ₛ ++ argStr p = ' ' :: argStr p from rfl, tokens_blank rfl, tokens_argStr h]
  exact if_pos rfl

theorem mapM_all {α β : Type} {f : α → Option β} {g : β → α} {l : List β} (h : ∀ b ∈ l, f (g b) = some b) :
    (l.map g).mapM f = some l := by
  induction l with
  | nil => rfl
  | cons b l ih =>
    rw [List.map_cons, List.mapM_cons, h b (by simp), ih fun x hx => h x (by simp [hx])]
    rfl

theorem good_none_comma {s : Str} (h : Good (· == ',') s) : Good (fun _ => false) s := h.mono fun _ h => by cases h

theorem read_args {as : List (Str × Str)} (hne : as ≠ []) (h : ∀ p ∈ as, LineWord p.1 ∧ LineWord p.2) :
    (parts (· == ',') (join ", "ₛ (as.map argStr))).mapM readKtArg = some as := by
  cases as with
  | nil => exact absurd rfl hne
  | cons a as =>
    have e := parts_join (sep := (· == ',')) (c := ',') (by rfl) (m := " "ₛ) (good_chars (by decide)) (x := argStr a) (l := as.map argStr) (by
      intro s hs
      rw [← List.map_cons] at hs
      obtain ⟨p, hp, rfl⟩ := List.mem_map.1 hs
      exact good_argStr (h p hp))
    rw [show ", "ₛ = ',' :: " "ₛ from rfl, List.map_cons, e, List.mapM_cons, read_arg (h a (by simp)), List.map_map,
      mapM_all (g := (fun x => " "ₛ ++ x) ∘ argStr) (l := as) (fun p hp => read_arg_blank (h p (by simp [hp])))]
    rfl

theorem good_annoStr {a : KtAnnotation} (h : PlainAnnotation a) : LineWord (annoStr a) := by
  have h1 : LineWord ("@"ₛ ++ a.1) := (lineWord_literal "@"ₛ (by decide) (by decide)).append (lineWord_ident h.name)
  unfold annoStr
  split
  · rw [List.append_nil]; exact h1
  · refine h1.append ⟨.paren _ rfl (good_join (good_chars (by decide)) ?_), by simp, ?_⟩
    · intro s hs
      obtain ⟨p, hp, rfl⟩ := List.mem_map.1 hs
      exact good_none_comma (good_argStr (h.args p hp))
    · refine newline_append (newline_append (by decide) (newline_join (by decide) ?_)) (by decide)
      intro s hs
      obtain ⟨p, hp, rfl⟩ := List.mem_map.1 hs
      exact newline_append (newline_append (h.args p hp).1.newline (by decide)) (h.args p hp).2.newline

theorem read_annotation {a : KtAnnotation} (h : PlainAnnotation a) : readKtAnnotation (annoStr a) = some a := by
  obtain ⟨n, as⟩ := a
  unfold readKtAnnotation annoStr
  dsimp only
  rw [List.append_assoc, after_append, Option.bind_some]
  by_cases hne : as = []
  · subst hne
    rw [if_pos rfl, List.append_nil, splitN2_no_sep (ident_not (by decide) h.name)]
  · rw [if_neg hne, show n ++ ("("ₛ ++ join ", "ₛ (as.map argStr) ++ ")"ₛ) = n ++ '(' :: (join ", "ₛ (as.map argStr) ++ ")"ₛ) by simp,
      splitN2_append_sep (ident_not (by decide) h.name)]
    dsimp only
    rw [ktBefore_append, Option.bind_some, read_args hne h.args]
    rfl

/-! ### Lines of a class -/

/-- The indentation of properties. -/
def indent : Str := "        "ₛ

theorem body_indent (d : KtClass) (as : List KtAnnotation) (more : Bool) (f : KtFile) (x : Str) :
    readKtBody d as more f (indent ++ x) = readKtTokens d as more f (tokens x) := by
  unfold readKtBody
  rw [if_neg (by intro e; exact absurd (congrArg List.head? e) (by show ¬some ' ' = some ')'; decide)), after_long x (by decide) (by decide)]
  dsimp only
  congr 1

theorem read_anno_line {a : KtAnnotation} (h : PlainAnnotation a) (d : KtClass) (as : List KtAnnotation) (more : Bool) (f : KtFile) :
    readKtBody d as more f (indent ++ annoStr a) = some (.body d (as ++ [a]) more, f) := by
  rw [body_indent, tokens_single (Good.blank (good_annoStr h).good) (good_annoStr h).ne]
  unfold readKtTokens
  dsimp only
  rw [read_annotation h]
  rfl

theorem read_blank_line (d : KtClass) (as : List KtAnnotation) (more : Bool) (f : KtFile) :
    readKtBody d as more f [] = some (.body d as more, f) := rfl

/-- A property that can be written. -/
structure PlainProperty (p : KtProperty) : Prop where
  name : Ident p.name
  type : LineWord p.type ∧ ',' ∉ p.type
  default : ∀ x ∈ p.default, (x = [] ∨ LineWord x) ∧ ',' ∉ x
  annotations : ∀ a ∈ p.annotations, PlainAnnotation a

/-- The default value as it is written. -/
def defaultStr (p : KtProperty) : Str := match p.default with
  | none => []
  | some x => " = "ₛ ++ x

/-- The declaration of a property. -/
def declStr (p : KtProperty) : Str :=
  (if p.overrides then "override "ₛ else []) ++ "var "ₛ ++ p.name ++ ": "ₛ ++ p.type ++ defaultStr p

/-- A property that is valid in Kotlin. -/
def ValidProperty (p : KtProperty) : Prop := KtName p.name ∧ p.default ≠ some []

instance (p : KtProperty) : Decidable (ValidProperty p) := inferInstanceAs (Decidable (_ ∧ _))

theorem addProperty_eq (d : KtClass) (as : List KtAnnotation) (f : KtFile) (o : Bool) {n t : Str} (x : Option Str) (b : Bool)
    (ht : t ≠ []) : addProperty d as true f o (n ++ ":"ₛ) t x b =
      if KtName n ∧ x ≠ some [] then some (.body { d with properties := d.properties ++ [⟨n, t, x, o, as⟩] } [] b, f) else none := by
  unfold addProperty
  rw [ktBefore_append, Option.bind_some]
  by_cases h : KtName n ∧ x ≠ some []
  · rw [if_pos h, if_pos ⟨rfl, h.1, ht, h.2⟩]
  · rw [if_neg h, if_neg fun g => h ⟨g.2.1, g.2.2.2⟩]

theorem read_decl {p : KtProperty} (h : PlainProperty p) (d : KtClass) (f : KtFile) (b : Bool) :
    readKtBody d p.annotations true f (indent ++ (declStr p ++ comma b)) =
      if ValidProperty p then some (.body { d with properties := d.properties ++ [p] } [] b, f) else none := by
  obtain ⟨n, t, x, o, as⟩ := p
  obtain ⟨hn, ⟨ht, htc⟩, hx, _⟩ := h
  dsimp only at hn ht htc hx
  have hnw : LineWord (n ++ ":"ₛ) := (lineWord_ident hn).append (lineWord_literal _ (by decide) (by decide))
  have hv : Good isBlank "var"ₛ := good_chars (by decide)
  have ho : Good isBlank "override"ₛ := good_chars (by decide)
  have he : Good isBlank "="ₛ := good_chars (by decide)
  rw [body_indent]
  unfold declStr defaultStr
  dsimp only
  -- the tokens before the type
  have pre : ∀ r : Str, tokens ((if o = true then "override "ₛ else []) ++ "var "ₛ ++ n ++ ": "ₛ ++ r) =
      (if o = true then ["override"ₛ, "var"ₛ, n ++ ":"ₛ] else ["var"ₛ, n ++ ":"ₛ]) ++ tokens r := by
    intro r
    have e : "var "ₛ ++ n ++ ": "ₛ ++ r = "var"ₛ ++ ' ' :: (n ++ ":"ₛ ++ ' ' :: r) := by
      rw [show "var "ₛ = "var"ₛ ++ [' '] from rfl, show ": "ₛ = ":"ₛ ++ [' '] from rfl]
      simp only [List.append_assoc, List.cons_append, List.nil_append]
    cases o with
    | true =>
      rw [if_pos rfl, if_pos rfl, List.append_assoc, List.append_assoc, List.append_assoc, ← List.append_assoc n,
        ← List.append_assoc "var "ₛ, ← List.append_assoc "var "ₛ, e, show "override "ₛ = "override"ₛ ++ [' '] from rfl, List.append_assoc]
      show tokens ("override"ₛ ++ ' ' :: ("var"ₛ ++ ' ' :: (n ++ ":"ₛ ++ ' ' :: r))) = _
      rw [tokens_cons ho (by decide) rfl, tokens_cons hv (by decide) rfl, tokens_cons (Good.blank hnw.good) hnw.ne rfl]
      rfl
    | false =>
      rw [if_neg (by decide), if_neg (by decide), List.nil_append, e,
        tokens_cons hv (by decide) rfl, tokens_cons (Good.blank hnw.good) hnw.ne rfl]
      rfl
  cases x with
  | none =>
    dsimp only
    rw [List.append_nil, List.append_assoc, pre,
      tokens_single (good_comma (Good.blank ht.good) b) (fun e => ht.ne (List.append_eq_nil_iff.1 e).1)]
    have key : ∀ o : Bool, readKtTokens d as true f ((if o = true then ["override"ₛ, "var"ₛ, n ++ ":"ₛ] else ["var"ₛ, n ++ ":"ₛ]) ++
        [t ++ comma b]) = addProperty d as true f o (n ++ ":"ₛ) (endComma (t ++ comma b)).1 none (endComma (t ++ comma b)).2 := by
      intro o
      cases o with
      | true => unfold readKtTokens; exact if_pos ⟨rfl, rfl⟩
      | false => unfold readKtTokens; exact if_pos rfl
    rw [key, endComma_eq htc, addProperty_eq d as f o none b ht.ne]
    exact if_congr Iff.rfl rfl rfl
  | some x =>
    dsimp only
    obtain ⟨hx1, hx2⟩ := hx x rfl
    rw [List.append_assoc, List.append_assoc, pre]
    have e : t ++ (" = "ₛ ++ x ++ comma b) = t ++ ' ' :: ("="ₛ ++ ' ' :: (x ++ comma b)) := by
      rw [show " = "ₛ = ' ' :: ("="ₛ ++ [' ']) from rfl]
      simp only [List.append_assoc, List.cons_append, List.nil_append]
    rw [e, tokens_cons (Good.blank ht.good) ht.ne rfl, tokens_cons he (by decide) rfl]
    by_cases hxb : x ++ comma b = []
    · rw [hxb]
      have hx0 : x = [] := (List.append_eq_nil_iff.1 hxb).1
      rw [if_neg (c := ValidProperty ⟨n, t, some x, o, as⟩) (by rw [hx0]; exact fun h => h.2 rfl)]
      cases o with
      | true =>
        show readKtTokens d as true f ["override"ₛ, "var"ₛ, n ++ ":"ₛ, t, "="ₛ] = none
        unfold readKtTokens
        exact if_neg (by intro h; exact absurd h.1 (by decide))
      | false =>
        show readKtTokens d as true f ["var"ₛ, n ++ ":"ₛ, t, "="ₛ] = none
        unfold readKtTokens
        exact if_neg (by intro h; exact absurd h.1 (by decide))
    · have hg : Good isBlank (x ++ comma b) := by
        rcases hx1 with rfl | hx1
        · exact good_comma .nil b
        · exact good_comma (Good.blank hx1.good) b
      rw [tokens_single hg hxb]
      have key : ∀ o : Bool, readKtTokens d as true f ((if o = true then ["override"ₛ, "var"ₛ, n ++ ":"ₛ] else ["var"ₛ, n ++ ":"ₛ]) ++
          [t, "="ₛ, x ++ comma b]) =
          addProperty d as true f o (n ++ ":"ₛ) t (some (endComma (x ++ comma b)).1) (endComma (x ++ comma b)).2 := by
        intro o
        cases o with
        | true => unfold readKtTokens; exact if_pos ⟨rfl, rfl, rfl⟩
        | false => unfold readKtTokens; exact if_pos ⟨rfl, rfl⟩
      rw [key, endComma_eq hx2, addProperty_eq d as f o (some x) b ht.ne]
      exact if_congr Iff.rfl rfl rfl

/-- The lines of a property, with a blank line after it if `gap`. -/
def propertyLines (gap : Bool) (p : KtProperty × Bool) : List Str :=
  p.1.annotations.map (fun a => indent ++ annoStr a) ++ [indent ++ (declStr p.1 ++ comma p.2)] ++ if gap then [[]] else []

theorem read_annos (d : KtClass) (f : KtFile) : ∀ (as acc : List KtAnnotation), (∀ a ∈ as, PlainAnnotation a) →
    (as.map (fun a => indent ++ annoStr a)).foldlM readKtLine (.body d acc true, f) = some (.body d (acc ++ as) true, f) := by
  intro as
  induction as with
  | nil => intro acc _; rw [List.append_nil]; rfl
  | cons a as ih =>
    intro acc h
    have e : readKtLine (.body d acc true, f) (indent ++ annoStr a) = some (.body d (acc ++ [a]) true, f) :=
      read_anno_line (h a (by simp)) d acc true f
    rw [List.map_cons, List.foldlM_cons, e]
    show List.foldlM readKtLine _ _ = _
    rw [ih _ fun x hx => h x (by simp [hx])]
    simp

theorem read_property {p : KtProperty} (h : PlainProperty p) (gap : Bool) (d : KtClass) (f : KtFile) (b : Bool) :
    (propertyLines gap (p, b)).foldlM readKtLine (.body d [] true, f) =
      if ValidProperty p then some (.body { d with properties := d.properties ++ [p] } [] b, f) else none := by
  unfold propertyLines
  rw [List.foldlM_append, List.foldlM_append, read_annos d f _ _ h.annotations]
  show ((List.foldlM readKtLine (.body d ([] ++ p.annotations) true, f) [_]).bind fun x => List.foldlM readKtLine x _) = _
  have e : readKtLine (.body d p.annotations true, f) (indent ++ (declStr p ++ comma b)) = _ := read_decl h d f b
  rw [List.foldlM_cons, List.nil_append, e]
  by_cases hv : ValidProperty p
  · rw [if_pos hv]
    cases gap <;> rfl
  · rw [if_neg hv]
    rfl

theorem read_properties (gap : Bool) (f : KtFile) : ∀ (ps : List (KtProperty × Bool)) (d : KtClass),
    (∀ p ∈ ps, PlainProperty p.1) → (∀ l p r, ps = l ++ p :: r → r ≠ [] → p.2 = true) →
    ((∀ p ∈ ps, ValidProperty p.1) → ∃ m, (ps.flatMap (propertyLines gap)).foldlM readKtLine (.body d [] true, f) =
      some (.body { d with properties := d.properties ++ ps.map Prod.fst } [] m, f)) ∧
    ((¬∀ p ∈ ps, ValidProperty p.1) → (ps.flatMap (propertyLines gap)).foldlM readKtLine (.body d [] true, f) = none) := by
  intro ps
  induction ps with
  | nil => intro d _ _; exact ⟨fun _ => ⟨true, by rw [List.map_nil, List.append_nil]; rfl⟩, fun h => absurd (by simp) h⟩
  | cons p ps ih =>
    intro d hp hn
    have e : (propertyLines gap p).foldlM readKtLine (.body d [] true, f) = _ := read_property (hp p (by simp)) gap d f p.2
    rw [List.flatMap_cons, List.foldlM_append, e]
    by_cases hv : ValidProperty p.1
    · rw [if_pos hv]
      cases hps : ps with
      | nil =>
        refine ⟨fun _ => ⟨p.2, rfl⟩, fun h => absurd ?_ h⟩
        intro q hq
        rw [List.mem_singleton.1 hq]; exact hv
      | cons q qs =>
        rw [← hps]
        have hp2 : p.2 = true := hn [] p ps rfl (by rw [hps]; simp)
        rw [hp2]
        have := ih { d with properties := d.properties ++ [p.1] } (fun x hx => hp x (by simp [hx]))
          (fun l x r e hr => hn (p :: l) x r (by rw [e]; rfl) hr)
        show (_ → ∃ m, List.foldlM readKtLine _ _ = _) ∧ (_ → List.foldlM readKtLine _ _ = _)
        refine ⟨fun h => ?_, fun h => this.2 fun g => h ?_⟩
        · obtain ⟨m, hm⟩ := this.1 fun x hx => h x (by simp [hx])
          refine ⟨m, ?_⟩
          rw [hm]
          simp
        · intro x hx
          rcases List.mem_cons.1 hx with rfl | hx
          · exact hv
          · exact g x hx
    · rw [if_neg hv]
      exact ⟨fun h => absurd (h p (by simp)) hv, fun _ => rfl⟩

end Octo.Jpa
