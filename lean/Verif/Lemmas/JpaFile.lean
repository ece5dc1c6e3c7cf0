import Verif.Lemmas.JpaField

/-! The files of the JPA generator. -/

namespace Octo.Jpa
open Spec
open Protobuf (LineWord lineWord_ident lineWord_literal)

/-! ### Lists with commas -/

theorem withNext_map {α β : Type} (f : α → β) : ∀ l : List α, withNext (l.map f) = (withNext l).map fun p => (f p.1, p.2)
  | [] => rfl
  | [_] => rfl
  | x :: y :: r => by
    show (f x, true) :: withNext ((y :: r).map f) = _
    rw [withNext_map f (y :: r)]
    rfl

theorem withNext_fst {α : Type} : ∀ l : List α, (withNext l).map Prod.fst = l
  | [] => rfl
  | [_] => rfl
  | x :: y :: r => by
    show x :: (withNext (y :: r)).map Prod.fst = _
    rw [withNext_fst (y :: r)]

theorem separated_withNext {α : Type} (f : α → KtProperty) (g : α × Bool → Bool) (hg : ∀ a, g (a, true) = true) :
    ∀ l : List α, Separated ((withNext l).map fun p => (f p.1, g p))
  | [] => by intro l p r h; simp [withNext] at h
  | [x] => by
    intro l p r h hr
    cases l with
    | nil =>
      obtain ⟨_, h⟩ := List.cons.inj h
      exact absurd h.symm hr
    | cons a l =>
      obtain ⟨_, h⟩ := List.cons.inj h
      simp at h
  | x :: y :: r => by
    intro l p r' h hr
    cases l with
    | nil =>
      obtain ⟨h, _⟩ := List.cons.inj h
      rw [← h]
      exact hg x
    | cons a l =>
      obtain ⟨_, h⟩ := List.cons.inj h
      exact separated_withNext f g hg (y :: r) l p r' h hr

/-! ### Parts -/

/-- The property of a column. -/
def columnProperty (sc : Strcase) (o : KtOption) (s : Schema) (t : Table) (c : Column) : KtProperty :=
  ⟨sc.toLowerCamel c.name, ktTypeOf c, if c.notNull then some ((ktDefault c.type).getD []) else none,
    decide (Implements sc o t) && (c.notNull && c.primaryKey), annoList sc o s c⟩

/-- The property of a column in the class of the key. -/
def keyProperty (sc : Strcase) (c : Column) : KtProperty :=
  ⟨sc.toLowerCamel c.name, ktTypeOf c, some (if c.notNull then (ktDefault c.type).getD [] else []), false, []⟩

/-- The properties of an entity. -/
def entityProperties (sc : Strcase) (o : KtOption) (s : Schema) (t : Table) : List (KtProperty × Bool) :=
  (withNext t.columns).map fun p => (columnProperty sc o s t p.1, (columnProperty sc o s t p.1).overrides || p.2)

/-- The type of the interface. -/
def superType (o : KtOption) (t : Table) : Str :=
  o.idEntity ++ "<"ₛ ++ ((keyColumns t).head?.map ktTypeOf).getD [] ++ ">"ₛ

/-- The parts of the file of a table. -/
def entityParts (sc : Strcase) (o : KtOption) (s : Schema) (t : Table) : EntityParts where
  package := o.package
  imports := imports (newClass sc o t)
  javaImports := javaImports (newClass sc o t)
  annotations := (o.annoMapper.getAnnotations t.group).flatten
  table := t.name
  unique := if uniqueColumns t = [] then none
    else some (t.name ++ o.uniqueNameSuffix, (uniqueColumns t).map fun c => sc.toLowerCamel c.name)
  name := ktClassName sc o t
  properties := entityProperties sc o s t
  super := if Implements sc o t then some (superType o t) else none
  key := if 2 ≤ (keyColumns t).length then
      some (ktClassName sc o t ++ "PK"ₛ, (withNext (keyColumns t)).map fun p => (keyProperty sc p.1, p.2))
    else none

/-! ### Text -/

/-- Lines, each after a line break. -/
def nl (l : List Str) : Str := l.flatMap ("\n"ₛ ++ ·)

theorem nl_append (a b : List Str) : nl (a ++ b) = nl a ++ nl b := List.flatMap_append

theorem nl_cons (a : Str) (l : List Str) : nl (a :: l) = "\n"ₛ ++ a ++ nl l := rfl

theorem nl_nil : nl [] = [] := rfl

theorem pkFields_eq (sc : Strcase) (o : KtOption) (t : Table) : (newClass sc o t).pkFields = (keyColumns t).map (newField sc) := by
  show ((t.columns.map (newField sc)).filter (·.column.primaryKey)) = _
  rw [List.filter_map]
  rfl

theorem uniqueFields_eq (sc : Strcase) (o : KtOption) (t : Table) :
    (newClass sc o t).uniqueFields = (uniqueColumns t).map (newField sc) := by
  show ((t.columns.map (newField sc)).filter (·.column.uniqueKey)) = _
  rw [List.filter_map]
  rfl

theorem hasIdEntity_eq (sc : Strcase) (o : KtOption) (t : Table) : hasIdEntity o (newClass sc o t) = decide (Implements sc o t) := by
  rw [Bool.eq_iff_iff, decide_eq_true_eq]
  unfold hasIdEntity Implements
  rw [pkFields_eq, Bool.and_eq_true, Bool.and_eq_true, decide_eq_true_eq, beq_iff_eq, beq_iff_eq]
  rcases keyColumns t with _ | ⟨a, _ | ⟨b, l⟩⟩
  · simp
  · rw [and_assoc]
    refine and_congr_right fun _ => ?_
    show 1 = 1 ∧ some (sc.toLowerCamel a.name) = some "id"ₛ ↔ [sc.toLowerCamel a.name] = ["id"ₛ]
    rw [Option.some.injEq, List.cons.injEq]
    exact ⟨fun h => ⟨h.2, rfl⟩, fun h => ⟨rfl, h.1⟩⟩
  · simp

theorem tableText_eq (sc : Strcase) (o : KtOption) (s : Schema) (t : Table) :
    tableText o (newClass sc o t) = nl (tableLines t.name (entityParts sc o s t).unique) := by
  unfold tableText
  rw [uniqueFields_eq]
  show _ = nl (tableLines t.name (if uniqueColumns t = [] then none else _))
  by_cases h : uniqueColumns t = []
  · rw [if_pos h, if_pos (List.map_eq_nil_iff.2 h)]
    unfold tableLines nl
    simp only [List.flatMap_cons, List.flatMap_nil, ktQuoted, List.append_assoc, List.cons_append, List.nil_append, List.append_nil]
    rfl
  · rw [if_neg h, if_neg (fun e => h (List.map_eq_nil_iff.1 e))]
    unfold tableLines nl
    rw [List.map_map]
    have e : ((uniqueColumns t).map ((fun f => "\""ₛ ++ f.name ++ "\""ₛ) ∘ newField sc)) =
        ((uniqueColumns t).map fun c => sc.toLowerCamel c.name).map ktQuoted := by
      rw [List.map_map]; rfl
    rw [e]
    simp only [List.flatMap_cons, List.flatMap_nil, List.append_nil]
    rw [show ktQuoted t.name = "\""ₛ ++ t.name ++ "\""ₛ from rfl,
      show ktQuoted (t.name ++ o.uniqueNameSuffix) = "\""ₛ ++ (t.name ++ o.uniqueNameSuffix) ++ "\""ₛ from rfl]
    simp only [List.append_assoc]
    rfl

theorem idClassName_eq (sc : Strcase) (o : KtOption) (t : Table) : idClassName (newClass sc o t) =
    if 2 ≤ (keyColumns t).length then ktClassName sc o t ++ "PK"ₛ else [] := by
  unfold idClassName
  rw [pkFields_eq, List.length_map]
  rw [show (newClass sc o t).name = className sc o t from rfl, className_eq]
  exact if_congr Iff.rfl rfl rfl

theorem append_ne_nil {a b : Str} (h : b ≠ []) : a ++ b ≠ [] := fun e => h (List.append_eq_nil_iff.1 e).2

theorem idClassAnno_eq (sc : Strcase) (o : KtOption) (s : Schema) (t : Table) :
    (if idClassName (newClass sc o t) = [] then [] else "\n@IdClass("ₛ ++ idClassName (newClass sc o t) ++ "::class)"ₛ) =
      nl (idClassLines ((entityParts sc o s t).key.map Prod.fst)) := by
  rw [idClassName_eq]
  show _ = nl (idClassLines ((if 2 ≤ (keyColumns t).length then some (ktClassName sc o t ++ "PK"ₛ, _) else none).map Prod.fst))
  by_cases h : 2 ≤ (keyColumns t).length
  · rw [if_pos h, if_pos h, if_neg (append_ne_nil (by decide))]
    show _ = nl ["@IdClass("ₛ ++ ((ktClassName sc o t ++ "PK"ₛ) ++ "::class)"ₛ)]
    rw [nl_cons, nl_nil, List.append_nil]
    simp only [List.append_assoc]
    rfl
  · rw [if_neg h, if_neg h, if_pos rfl]
    rfl

theorem nl_property (gap : Bool) (p : KtProperty × Bool) : nl (propertyLines gap p) =
    (p.1.annotations.map annoStr).flatMap (fun a => "\n        "ₛ ++ a) ++ ("\n        "ₛ ++ (declStr p.1 ++ comma p.2)) ++
      if gap then "\n"ₛ else [] := by
  unfold propertyLines
  rw [nl_append, nl_append]
  congr 1
  · congr 1
    · unfold nl
      rw [List.flatMap_map, List.flatMap_map]
      rfl
    · rw [nl_cons, nl_nil, List.append_nil]; rfl
  · cases gap <;> rfl

theorem fieldText_eq (sc : Strcase) (o : KtOption) (s : Schema) (t : Table) (c : Column) (b : Bool) :
    fieldText (hasIdEntity o (newClass sc o t)) ((annoList sc o s c).map annoStr) (newField sc c) b =
      nl (propertyLines true (columnProperty sc o s t c, (columnProperty sc o s t c).overrides || b)) := by
  rw [nl_property]
  unfold fieldText
  rw [hasIdEntity_eq, field_type, field_default]
  congr 1
  show List.flatMap _ _ ++ _ = List.flatMap _ _ ++ _
  congr 1
  show (if c.notNull then if (decide (Implements sc o t) && c.primaryKey) then _ else _ else _) = _
  unfold columnProperty declStr defaultStr
  dsimp only
  rw [show (newField sc c).name = sc.toLowerCamel c.name from rfl]
  by_cases hn : c.notNull = true
  · rw [if_pos hn, if_pos hn, if_pos hn, hn, Bool.true_and]
    by_cases hi : (decide (Implements sc o t) && c.primaryKey) = true
    · rw [if_pos hi, hi, Bool.true_or, if_pos rfl]
      simp only [List.append_assoc]
      rfl
    · rw [if_neg hi, Bool.not_eq_true _ |>.mp hi, Bool.false_or, if_neg (by decide)]
      simp only [List.append_assoc]
      rfl
  · rw [if_neg hn, if_neg hn, Bool.not_eq_true _ |>.mp hn, Bool.false_and, Bool.and_false, Bool.false_or, if_neg (by decide)]
    simp only [List.append_assoc]
    rfl

theorem endText_eq (sc : Strcase) (o : KtOption) (t : Table) : endText o (newClass sc o t) =
    nl [closeLine (if Implements sc o t then some (superType o t) else none)] := by
  unfold endText
  rw [hasIdEntity_eq, pkFields_eq]
  by_cases h : Implements sc o t
  · rw [if_pos h, if_pos (decide_eq_true h)]
    unfold superType closeLine
    rw [nl_cons, nl_nil, List.append_nil]
    have : (((keyColumns t).map (newField sc)).head?.map (·.type)) = (keyColumns t).head?.map ktTypeOf := by
      rw [List.head?_map, Option.map_map]
      congr 1
      funext c
      exact field_type sc c
    rw [this]
    simp only [List.append_assoc]
    rfl
  · rw [if_neg h, if_neg (by simpa using h)]
    rfl

theorem keyText_eq (sc : Strcase) (o : KtOption) (s : Schema) (t : Table) :
    idClassText (newClass sc o t) = nl (keyLines (entityParts sc o s t).key) := by
  unfold idClassText
  rw [idClassName_eq, pkFields_eq]
  show _ = nl (keyLines (if 2 ≤ (keyColumns t).length then some (ktClassName sc o t ++ "PK"ₛ, _) else none))
  by_cases h : 2 ≤ (keyColumns t).length
  · rw [if_pos h, if_pos h, if_neg (append_ne_nil (by decide))]
    unfold keyLines classLines
    dsimp only
    rw [nl_cons, nl_append]
    have e : (withNext ((keyColumns t).map (newField sc))).flatMap (fun p =>
        "\n        var "ₛ ++ p.1.name ++ ": "ₛ ++ p.1.type ++ " = "ₛ ++ p.1.defaultValue ++ comma p.2) =
        nl (((withNext (keyColumns t)).map fun p => (keyProperty sc p.1, p.2)).flatMap (propertyLines false)) := by
      rw [withNext_map, List.flatMap_map, List.flatMap_map]
      unfold nl
      rw [List.flatMap_assoc]
      apply List.flatMap_congr
      intro p _
      show _ = nl _
      rw [nl_property, field_type, field_default]
      unfold keyProperty declStr defaultStr
      dsimp only
      rw [if_neg (show ¬false = true by decide), if_neg (show ¬false = true by decide)]
      simp only [List.append_assoc, List.map_nil, List.flatMap_nil, List.nil_append, List.append_nil]
      rfl
    rw [e]
    unfold openLine
    simp only [List.append_assoc]
    rfl
  · rw [if_neg h, if_neg h, if_pos rfl]
    rfl

theorem mapM_ite {α β : Type} (p : α → Prop) [DecidablePred p] (f : α → β) (l : List α) :
    l.mapM (fun a => if p a then some (f a) else none) = if ∀ a ∈ l, p a then some (l.map f) else none := by
  induction l with
  | nil => rw [if_pos (by intro a h; cases h)]; rfl
  | cons a l ih =>
    rw [List.mapM_cons, ih]
    by_cases h : p a
    · rw [if_pos h]
      by_cases hl : ∀ a ∈ l, p a
      · rw [if_pos hl, if_pos (by intro x hx; rcases List.mem_cons.1 hx with rfl | hx; exacts [h, hl x hx])]
        rfl
      · rw [if_neg hl, if_neg fun e => hl fun x hx => e x (List.mem_cons_of_mem _ hx)]
        rfl
    · have hne : ¬∀ x ∈ a :: l, p x := fun e => h (e a List.mem_cons_self)
      rw [if_neg h, if_neg hne]
      rfl

theorem header_eq (p : Str) (is js : List Str) (r : Str) :
    "package "ₛ ++ (p ++ ("\n\n"ₛ ++ (is.flatMap (fun i => "import "ₛ ++ (i ++ "\n"ₛ)) ++ ("\n"ₛ ++
      (js.flatMap (fun i => "import "ₛ ++ (i ++ "\n"ₛ)) ++ ("\n"ₛ ++ r)))))) = unlines (headerLines p is js) ++ r := by
  have hf : ∀ l : List Str, unlines (l.map ("import "ₛ ++ ·)) = l.flatMap (fun i => "import "ₛ ++ (i ++ "\n"ₛ)) := by
    intro l
    unfold unlines
    rw [List.flatMap_map]
    simp only [List.append_assoc]
  unfold headerLines
  rw [unlines_cons, unlines_cons, unlines_append, unlines_cons, unlines_append, hf, hf]
  simp only [List.append_assoc]
  rfl

theorem entityText_eq {sc : Strcase} {o : KtOption} {s : Schema} (hc : CleanCase sc) (hp : PlainJpa o s) (t : Table) :
    entityText sc o (newClasses sc o s) (newClass sc o t) =
      if ∀ c ∈ t.columns, Related sc o s c then some (unlines (entityLines (entityParts sc o s t))) else none := by
  unfold entityText
  rw [show (newClass sc o t).fields = t.columns.map (newField sc) from rfl, List.mapM_map]
  have e : ((fun f => (fieldAnnotations sc o (newClasses sc o s) f).map fun as => (f, as)) ∘ newField sc) = fun c : Column =>
      if Related sc o s c then some (newField sc c, (annoList sc o s c).map annoStr) else none := by
    funext c
    show (fieldAnnotations sc o (newClasses sc o s) (newField sc c)).map _ = _
    rw [fieldAnnotations_eq hc hp]
    split <;> rfl
  rw [e, mapM_ite]
  by_cases h : ∀ c ∈ t.columns, Related sc o s c
  · rw [if_pos h, if_pos h, Option.map_some, Option.some.injEq, withNext_map, List.flatMap_map]
    rw [tableText_eq sc o s, idClassAnno_eq sc o s, endText_eq, keyText_eq sc o s]
    simp only [fieldText_eq]
    unfold entityLines
    rw [unlines_append, ← unlines_before]
    show _ = _ ++ (_ ++ nl _ ++ "\n"ₛ)
    simp only [List.append_assoc]
    rw [header_eq]
    congr 1
    show _ ++ _ = (o.annoMapper.getAnnotations t.group).flatten ++ _
    congr 1
    rw [nl_cons "@Entity"ₛ, nl_append, nl_append, nl_append]
    unfold classLines
    rw [nl_cons (openLine _), nl_append]
    have e2 : (withNext t.columns).flatMap (fun p =>
        nl (propertyLines true (columnProperty sc o s t p.1, (columnProperty sc o s t p.1).overrides || p.2))) =
        nl ((entityParts sc o s t).properties.flatMap (propertyLines true)) := by
      show _ = nl ((entityProperties sc o s t).flatMap _)
      unfold nl entityProperties
      rw [List.flatMap_map, List.flatMap_assoc]
    rw [← e2]
    unfold openLine
    rw [show (newClass sc o t).name = className sc o t from rfl, className_eq]
    simp only [List.append_assoc]
    rfl
  · rw [if_neg h, if_neg h]; rfl

end Octo.Jpa
