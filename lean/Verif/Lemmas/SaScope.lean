import Verif.Lemmas.SaFile

/-! Lemmas about the names in the files that the SQLAlchemy generator writes. -/

namespace Octo.Sqlalchemy
open Spec Protobuf Jpa

/-! ### What is collected -/

/-- The names that the class of a table needs from SQLAlchemy, apart from `Column`. -/
def SaNeeds (o : SaOption) (t : Table) (n : Str) : Prop :=
  n = "UniqueConstraint"ₛ ∧ (uniques t).length > 1 ∨ ∃ c ∈ t.columns, saType c = some n ∨ n = "TypeDecorator"ₛ ∧ Converted o c

/-- The imports of times that the class of a table needs. -/
def TimeNeeds (o : SaOption) (t : Table) (l : Str) : Prop :=
  ∃ c ∈ t.columns, lower c.type = "datetime"ₛ ∧ l = "from datetime import datetime"ₛ ∨ Converted o c ∧ l = "from datetime import timezone"ₛ

theorem mem_newField_imports {sc : Strcase} {c : Column} {n : Str} : n ∈ (newField sc c).imports ↔ saType c = some n := by
  have e : (newField sc c).imports = (if fieldType c ≠ [] then StringSet.empty.add (fieldType c) else StringSet.empty).slice := rfl
  rw [e, mem_slice]
  by_cases h : fieldType c = []
  · rw [if_neg (not_not_intro h), (fieldType_nil c).1 h]
    constructor
    · intro h; cases h
    · intro h; cases h
  · rw [if_pos h, StringSet.mem_add]
    have h1 : saType c ≠ none := fun e => h ((fieldType_nil c).2 e)
    obtain ⟨t, ht⟩ := Option.ne_none_iff_exists'.1 h1
    rw [fieldType_eq, ht]
    constructor
    · rintro (h | h)
      · rw [h]; rfl
      · cases h
    · intro h; cases h; exact Or.inl rfl

theorem or_yes {a b c d : Prop} (h : d) : (b ∨ a) ∨ c ↔ a ∨ c ∨ b ∧ d :=
  ⟨fun e => e.elim (fun e => e.elim (fun e => .inr (.inr ⟨e, h⟩)) .inl) fun e => .inr (.inl e),
    fun e => e.elim (fun e => .inl (.inr e)) fun e => e.elim .inr fun e => .inl (.inl e.1)⟩

theorem or_no {a b c d : Prop} (h : ¬ d) : a ∨ c ↔ a ∨ c ∨ b ∧ d :=
  ⟨fun e => e.elim .inl fun e => .inr (.inl e), fun e => e.elim .inl fun e => e.elim .inr fun e => absurd e.2 h⟩

theorem addField_eq (sc : Strcase) (o : SaOption) (st : State) (c : Column) :
    (∀ n, n ∈ (addField o.useUTC st (newField sc c)).saImports.keys ↔
      n ∈ st.saImports.keys ∨ saType c = some n ∨ n = "TypeDecorator"ₛ ∧ Converted o c) ∧
    (∀ l, l ∈ (addField o.useUTC st (newField sc c)).imports.keys ↔ l ∈ st.imports.keys ∨
      lower c.type = "datetime"ₛ ∧ l = "from datetime import datetime"ₛ ∨ Converted o c ∧ l = "from datetime import timezone"ₛ) ∧
    ((addField o.useUTC st (newField sc c)).useTZ = true ↔ st.useTZ = true ∨ Converted o c) := by
  have e1 : (newField sc c).column = c := rfl
  unfold addField
  dsimp only
  rw [e1]
  by_cases hd : lower c.type = "datetime"ₛ
  · rw [if_pos hd]
    by_cases hc : c.name ≠ "created_at"ₛ ∧ c.name ≠ "updated_at"ₛ ∧ o.useUTC = true
    · have hC : Converted o c := ⟨hc.2.2, hd, hc.1, hc.2.1⟩
      rw [if_pos hc]
      refine ⟨fun n => ?_, fun l => ?_, ?_⟩
      · rw [mem_addAll, StringSet.mem_add, mem_newField_imports]; exact or_yes hC
      · rw [StringSet.mem_add, StringSet.mem_add]
        exact ⟨fun e => e.elim (fun e => .inr (.inl ⟨hd, e⟩)) fun e => e.elim (fun e => .inr (.inr ⟨hC, e⟩)) .inl,
          fun e => e.elim (fun e => .inr (.inr e)) fun e => e.elim (fun e => .inl e.2) fun e => .inr (.inl e.2)⟩
      · simp [hC]
    · have hC : ¬ Converted o c := fun h => hc ⟨h.2.2.1, h.2.2.2, h.1⟩
      rw [if_neg hc]
      refine ⟨fun n => ?_, fun l => ?_, ?_⟩
      · rw [mem_addAll, mem_newField_imports]; exact or_no hC
      · rw [StringSet.mem_add]
        exact ⟨fun e => e.elim (fun e => .inr (.inl ⟨hd, e⟩)) .inl,
          fun e => e.elim .inr fun e => e.elim (fun e => .inl e.2) fun e => absurd e.1 hC⟩
      · simp [hC]
  · have hC : ¬ Converted o c := fun h => hd h.2.1
    rw [if_neg hd]
    refine ⟨fun n => ?_, fun l => ?_, ?_⟩
    · rw [mem_addAll, mem_newField_imports]; exact or_no hC
    · exact ⟨.inl, fun e => e.elim id fun e => e.elim (fun e => absurd e.1 hd) fun e => absurd e.1 hC⟩
    · simp [hC]

theorem addFields_eq (sc : Strcase) (o : SaOption) : ∀ (cs : List Column) (st : State),
    (∀ n, n ∈ ((cs.map (newField sc)).foldl (addField o.useUTC) st).saImports.keys ↔
      n ∈ st.saImports.keys ∨ ∃ c ∈ cs, saType c = some n ∨ n = "TypeDecorator"ₛ ∧ Converted o c) ∧
    (∀ l, l ∈ ((cs.map (newField sc)).foldl (addField o.useUTC) st).imports.keys ↔ l ∈ st.imports.keys ∨
      ∃ c ∈ cs, lower c.type = "datetime"ₛ ∧ l = "from datetime import datetime"ₛ ∨ Converted o c ∧ l = "from datetime import timezone"ₛ) ∧
    (((cs.map (newField sc)).foldl (addField o.useUTC) st).useTZ = true ↔ st.useTZ = true ∨ ∃ c ∈ cs, Converted o c) := by
  intro cs
  induction cs with
  | nil => intro st; simp
  | cons c cs ih =>
    intro st
    rw [List.map_cons, List.foldl_cons]
    obtain ⟨h1, h2, h3⟩ := ih (addField o.useUTC st (newField sc c))
    obtain ⟨g1, g2, g3⟩ := addField_eq sc o st c
    refine ⟨fun n => ?_, fun l => ?_, ?_⟩
    · rw [h1, g1, List.exists_mem_cons_iff, or_assoc]
    · rw [h2, g2, List.exists_mem_cons_iff, or_assoc]
    · rw [h3, g3, List.exists_mem_cons_iff, or_assoc]

theorem addClass_eq (sc : Strcase) (o : SaOption) (t : Table) (st : State) :
    (∀ n, n ∈ (addClass o.useUTC st (newClass sc o t)).saImports.keys ↔ n ∈ st.saImports.keys ∨ SaNeeds o t n) ∧
    (∀ l, l ∈ (addClass o.useUTC st (newClass sc o t)).imports.keys ↔ l ∈ st.imports.keys ∨ TimeNeeds o t l) ∧
    ((addClass o.useUTC st (newClass sc o t)).useTZ = true ↔ st.useTZ = true ∨ ∃ c ∈ t.columns, Converted o c) := by
  have hlen : (newClass sc o t).uniqueFields.length = (uniques t).length := by rw [uniqueFields_eq, List.length_map]
  unfold addClass SaNeeds TimeNeeds
  rw [show (newClass sc o t).fields = t.columns.map (newField sc) from rfl, hlen]
  obtain ⟨h1, h2, h3⟩ := addFields_eq sc o t.columns
    (if (uniques t).length > 1 then { st with saImports := st.saImports.add "UniqueConstraint"ₛ } else st)
  by_cases hu : (uniques t).length > 1
  · rw [if_pos hu] at h1 h2 h3 ⊢
    refine ⟨fun n => ?_, h2, h3⟩
    rw [h1, StringSet.mem_add]
    exact (or_yes hu).trans (or_congr Iff.rfl or_comm)
  · rw [if_neg hu] at h1 h2 h3 ⊢
    refine ⟨fun n => ?_, h2, h3⟩
    rw [h1]
    exact (or_no hu).trans (or_congr Iff.rfl or_comm)

theorem addClasses_eq (sc : Strcase) (o : SaOption) : ∀ (ts : List Table) (st : State),
    (∀ n, n ∈ ((ts.map (newClass sc o)).foldl (addClass o.useUTC) st).saImports.keys ↔ n ∈ st.saImports.keys ∨ ∃ t ∈ ts, SaNeeds o t n) ∧
    (∀ l, l ∈ ((ts.map (newClass sc o)).foldl (addClass o.useUTC) st).imports.keys ↔ l ∈ st.imports.keys ∨ ∃ t ∈ ts, TimeNeeds o t l) ∧
    (((ts.map (newClass sc o)).foldl (addClass o.useUTC) st).useTZ = true ↔ st.useTZ = true ∨ ∃ t ∈ ts, ∃ c ∈ t.columns, Converted o c) := by
  intro ts
  induction ts with
  | nil => intro st; simp
  | cons t ts ih =>
    intro st
    rw [List.map_cons, List.foldl_cons]
    obtain ⟨h1, h2, h3⟩ := ih (addClass o.useUTC st (newClass sc o t))
    obtain ⟨g1, g2, g3⟩ := addClass_eq sc o t st
    refine ⟨fun n => ?_, fun l => ?_, ?_⟩
    · rw [h1, g1, List.exists_mem_cons_iff, or_assoc]
    · rw [h2, g2, List.exists_mem_cons_iff, or_assoc]
    · rw [h3, g3, List.exists_mem_cons_iff, or_assoc]

/-- The names that can be imported from SQLAlchemy. -/
def saImportable : List Str := "Column"ₛ :: "UniqueConstraint"ₛ :: "TypeDecorator"ₛ :: "Boolean"ₛ :: saTypes.map Prod.snd

theorem needs_importable {o : SaOption} {t : Table} {n : Str} (h : SaNeeds o t n) : n ∈ saImportable := by
  unfold saImportable
  rcases h with ⟨rfl, _⟩ | ⟨c, _, h | ⟨rfl, _⟩⟩
  · simp
  · exact List.mem_cons_of_mem _ (List.mem_cons_of_mem _ (List.mem_cons_of_mem _ (saType_mem h)))
  · simp

theorem needs_time {o : SaOption} {t : Table} {l : Str} (h : TimeNeeds o t l) : l ∈ timeImports := by
  unfold timeImports
  obtain ⟨c, _, ⟨_, rfl⟩ | ⟨_, rfl⟩⟩ := h <;> simp

theorem importable_name : ∀ n ∈ saImportable, PyName n := by decide +kernel

/-! ### Scopes -/

/-- The scope after some statements of a class. -/
def memberScope (s : PyScope) (ms : List PyMember) : PyScope := ms.foldl (fun s m => memberBinds m ++ s) s

/-- The scope after some statements of a file. -/
def fileScope (s : PyScope) (f : PyFile) : PyScope := f.foldl (fun s st => stmtBinds st ++ s) s

theorem mem_memberNames {n : Str} {r : Option PyOrigin} : ∀ (ms : List PyMember) (s : PyScope), (n, r) ∈ memberNames s ms ↔
    ∃ a m b, ms = a ++ m :: b ∧ n ∈ memberUses m ∧ r = (memberScope s a).lookup n := by
  intro ms
  induction ms with
  | nil =>
    intro s
    constructor
    · intro h; cases h
    · rintro ⟨a, m, b, h, _⟩; simp at h
  | cons m ms ih =>
    intro s
    unfold memberNames
    rw [List.mem_append, ih]
    constructor
    · rintro (h | ⟨a, m', b, rfl, h1, h2⟩)
      · obtain ⟨x, hx, e⟩ := List.mem_map.1 h
        cases e
        exact ⟨[], m, ms, rfl, hx, rfl⟩
      · exact ⟨m :: a, m', b, rfl, h1, h2⟩
    · rintro ⟨a, m', b, h, h1, h2⟩
      cases a with
      | nil =>
        cases h
        exact Or.inl (List.mem_map.2 ⟨n, h1, by rw [h2]; rfl⟩)
      | cons x a =>
        cases h
        exact Or.inr ⟨a, m', b, rfl, h1, h2⟩

theorem fileNames_append : ∀ (f g : PyFile) (s : PyScope), fileNames s (f ++ g) = fileNames s f ++ fileNames (fileScope s f) g := by
  intro f
  induction f with
  | nil => intro g s; rfl
  | cons x f ih =>
    intro g s
    show stmtNames s x ++ fileNames (stmtBinds x ++ s) (f ++ g) = stmtNames s x ++ fileNames (stmtBinds x ++ s) f ++ _
    rw [ih, List.append_assoc]
    rfl

theorem fileScope_append (s : PyScope) (f g : PyFile) : fileScope s (f ++ g) = fileScope (fileScope s f) g := List.foldl_append

theorem mem_classNames {n : Str} {r : Option PyOrigin} : ∀ (ks : List PyClass) (s : PyScope), (n, r) ∈ fileNames s (ks.map .cls) ↔
    ∃ a k b, ks = a ++ k :: b ∧ (n, r) ∈ stmtNames (fileScope s (a.map .cls)) (.cls k) := by
  intro ks
  induction ks with
  | nil =>
    intro s
    constructor
    · intro h; cases h
    · rintro ⟨a, m, b, h, _⟩; simp at h
  | cons k ks ih =>
    intro s
    show (n, r) ∈ stmtNames s (.cls k) ++ fileNames (stmtBinds (.cls k) ++ s) (ks.map .cls) ↔ _
    rw [List.mem_append, ih]
    constructor
    · rintro (h | ⟨a, m', b, rfl, h1⟩)
      · exact ⟨[], k, ks, rfl, h⟩
      · exact ⟨k :: a, m', b, rfl, h1⟩
    · rintro ⟨a, m', b, h, h1⟩
      cases a with
      | nil => cases h; exact Or.inl h1
      | cons x a => cases h; exact Or.inr ⟨a, m', b, rfl, h1⟩

/-- The names that the statements of a class bind. -/
def boundNames (ms : List PyMember) : List Str := ms.flatMap fun m => (memberBinds m).map Prod.fst

theorem lookup_skip {s b : PyScope} {n : Str} (h : n ∉ b.map Prod.fst) : (b ++ s).lookup n = s.lookup n := by
  rw [List.lookup_append, List.lookup_eq_none_iff.2 fun p hp => bne_iff_ne.2 fun e => h (List.mem_map.2 ⟨p, hp, e.symm⟩)]
  rfl

theorem lookup_more {s b : PyScope} {n : Str} (h : s.lookup n ≠ none) : (b ++ s).lookup n ≠ none := by
  rw [List.lookup_append]
  cases hb : b.lookup n with
  | none => exact h
  | some _ => exact fun e => by cases e

theorem memberScope_skip {n : Str} : ∀ (ms : List PyMember) (s : PyScope), n ∉ boundNames ms → (memberScope s ms).lookup n = s.lookup n := by
  intro ms
  induction ms with
  | nil => intro s _; rfl
  | cons m ms ih =>
    intro s h
    unfold boundNames at h
    rw [List.flatMap_cons, List.mem_append, not_or] at h
    show (memberScope (memberBinds m ++ s) ms).lookup n = _
    rw [ih _ h.2, lookup_skip h.1]

theorem memberScope_more {n : Str} : ∀ (ms : List PyMember) (s : PyScope), s.lookup n ≠ none → (memberScope s ms).lookup n ≠ none := by
  intro ms
  induction ms with
  | nil => intro s h; exact h
  | cons m ms ih => intro s h; exact ih _ (lookup_more h)

theorem classScope_skip {n : Str} : ∀ (ks : List PyClass) (s : PyScope), (∀ k ∈ ks, k.name ≠ n) →
    (fileScope s (ks.map .cls)).lookup n = s.lookup n := by
  intro ks
  induction ks with
  | nil => intro s _; rfl
  | cons k ks ih =>
    intro s h
    show (fileScope (stmtBinds (.cls k) ++ s) (ks.map .cls)).lookup n = _
    rw [ih _ fun x hx => h x (by simp [hx]), lookup_skip]
    intro e
    rw [show (stmtBinds (.cls k)).map Prod.fst = [k.name] from rfl, List.mem_singleton] at e
    exact h k (by simp) e.symm

theorem fileScope_more {n : Str} : ∀ (f : PyFile) (s : PyScope), s.lookup n ≠ none → (fileScope s f).lookup n ≠ none := by
  intro f
  induction f with
  | nil => intro s h; exact h
  | cons m ms ih => intro s h; exact ih _ (lookup_more h)

/-- A class refers to a name. -/
def ClassUses (k : PyClass) (n : Str) : Prop := n = k.base ∨ ∃ m ∈ k.members, n ∈ memberUses m

theorem stmtNames_uses {s : PyScope} {k : PyClass} {n : Str} {r : Option PyOrigin} (h : (n, r) ∈ stmtNames s (.cls k)) :
    ClassUses k n ∧ (s.lookup n ≠ none → r ≠ none) ∧ (n ∉ boundNames k.members → r = s.lookup n) := by
  unfold stmtNames at h
  rcases List.mem_cons.1 h with h | h
  · cases h
    exact ⟨Or.inl rfl, fun h => h, fun _ => rfl⟩
  · obtain ⟨a, m, b, e, h1, rfl⟩ := (mem_memberNames _ _).1 h
    refine ⟨Or.inr ⟨m, e ▸ by simp, h1⟩, memberScope_more _ _, fun hn => memberScope_skip _ _ fun ha => hn ?_⟩
    rw [e]
    unfold boundNames at ha ⊢
    rw [List.flatMap_append]
    exact List.mem_append_left _ ha

/-! ### The header -/

/-- The scope after the header. -/
def headerScope (imports sa : List Str) : PyScope := fileScope [] (headerFile imports sa)

theorem lookup_const {l : List Str} {v : PyOrigin} {n : Str} : List.lookup n (l.map fun x => (x, v)) = if n ∈ l then some v else none := by
  induction l with
  | nil => rfl
  | cons a l ih =>
    rw [List.map_cons, List.lookup_cons, ih]
    by_cases h : n = a
    · subst h
      rw [if_pos (c := n ∈ n :: l) List.mem_cons_self]; simp
    · rw [show (n == a) = false from beq_eq_false_iff_ne.2 h]
      exact if_congr (by simp [h]) rfl rfl

theorem lookup_imports {n : Str} : ∀ (ls : List Str) (s : PyScope), (∀ l ∈ ls, l ∈ timeImports) →
    (fileScope s (ls.map importStmt)).lookup n =
      if "from datetime import "ₛ ++ n ∈ ls then some (.module "datetime"ₛ) else s.lookup n := by
  have ht : ∀ l ∈ timeImports, l = "from datetime import "ₛ ++ l.drop 21 := by decide +kernel
  intro ls
  induction ls with
  | nil => intro s _; rfl
  | cons l ls ih =>
    intro s h
    show (fileScope (stmtBinds (importStmt l) ++ s) (ls.map importStmt)).lookup n = _
    rw [ih _ fun x hx => h x (by simp [hx])]
    by_cases h1 : "from datetime import "ₛ ++ n ∈ ls
    · rw [if_pos h1, if_pos (List.mem_cons_of_mem _ h1)]
    · rw [if_neg h1]
      show List.lookup n ((l.drop 21, PyOrigin.module "datetime"ₛ) :: s) = _
      rw [List.lookup_cons]
      have e := ht l (h l (by simp))
      by_cases h2 : n = l.drop 21
      · rw [if_pos (by rw [h2, ← e]; exact List.mem_cons_self), h2]; simp
      · rw [if_neg, show (n == l.drop 21) = false from beq_eq_false_iff_ne.2 h2]
        intro hm
        rcases List.mem_cons.1 hm with hm | hm
        · rw [e] at hm
          exact h2 (List.append_cancel_left hm)
        · exact h1 hm

theorem header_lookup {imports sa : List Str} (hi : ∀ l ∈ imports, l ∈ timeImports) (n : Str) : (headerScope imports sa).lookup n =
    if n = "Base"ₛ then some .value else if n = "RepresentableBase"ₛ then some (.module "sqlalchemy_repr"ₛ)
    else if n = "declarative_base"ₛ then some (.module "sqlalchemy.ext.declarative"ₛ)
    else if n ∈ sa then some (.module "sqlalchemy"ₛ)
    else if "from datetime import "ₛ ++ n ∈ imports then some (.module "datetime"ₛ) else none := by
  unfold headerScope headerFile
  rw [fileScope_append]
  have hl : (fileScope [] (imports.map importStmt)).lookup n =
      if "from datetime import "ₛ ++ n ∈ imports then some (.module "datetime"ₛ) else none := lookup_imports imports [] hi
  generalize fileScope [] (imports.map importStmt) = S at hl
  show List.lookup n (("Base"ₛ, PyOrigin.value) :: ("RepresentableBase"ₛ, .module "sqlalchemy_repr"ₛ) ::
    ("declarative_base"ₛ, .module "sqlalchemy.ext.declarative"ₛ) :: ((sa.map fun n => (n, PyOrigin.module "sqlalchemy"ₛ)) ++ S)) = _
  rw [List.lookup_cons, List.lookup_cons, List.lookup_cons, List.lookup_append, lookup_const, hl]
  by_cases h1 : n = "Base"ₛ
  · rw [if_pos h1, show (n == "Base"ₛ) = true from beq_iff_eq.2 h1]
  rw [if_neg h1, show (n == "Base"ₛ) = false from beq_eq_false_iff_ne.2 h1]
  by_cases h2 : n = "RepresentableBase"ₛ
  · rw [if_pos h2, show (n == "RepresentableBase"ₛ) = true from beq_iff_eq.2 h2]
  rw [if_neg h2, show (n == "RepresentableBase"ₛ) = false from beq_eq_false_iff_ne.2 h2]
  by_cases h3 : n = "declarative_base"ₛ
  · rw [if_pos h3, show (n == "declarative_base"ₛ) = true from beq_iff_eq.2 h3]
  rw [if_neg h3, show (n == "declarative_base"ₛ) = false from beq_eq_false_iff_ne.2 h3]
  dsimp only
  by_cases h4 : n ∈ sa
  · rw [if_pos h4, if_pos h4]; rfl
  · rw [if_neg h4, if_neg h4]; rfl

theorem importNames : ∀ (ls : List Str) (s : PyScope), fileNames s (ls.map importStmt) = [] := by
  intro ls
  induction ls with
  | nil => intro s; rfl
  | cons l ls ih => intro s; exact ih _

theorem headerNames (imports sa : List Str) : pyNames (headerFile imports sa) =
    [("declarative_base"ₛ, some (.module "sqlalchemy.ext.declarative"ₛ)), ("RepresentableBase"ₛ, some (.module "sqlalchemy_repr"ₛ))] := by
  unfold pyNames headerFile
  rw [fileNames_append, importNames, List.nil_append]
  generalize fileScope [] (imports.map importStmt) = S
  have e : exprUses (.call "declarative_base"ₛ [(some "cls"ₛ, .atom "RepresentableBase"ₛ)]) = ["declarative_base"ₛ, "RepresentableBase"ₛ] := by
    decide +kernel
  unfold headerRest
  simp only [fileNames, stmtNames, List.nil_append, List.append_nil, e]
  rfl

/-! ### The class for times -/

theorem tz_uses {n : Str} (h : ClassUses tzClass n) : n ∈ ["TypeDecorator"ₛ, "DateTime"ₛ, "timezone"ₛ] := by
  rcases h with rfl | ⟨m, hm, h⟩
  · decide
  · have : ∀ m ∈ tzClass.members, ∀ n ∈ memberUses m, n ∈ ["TypeDecorator"ₛ, "DateTime"ₛ, "timezone"ₛ] := by decide +kernel
    exact this m hm n h

theorem tz_bound : boundNames tzClass.members = ["impl"ₛ] := by decide +kernel

/-! ### The class of a table -/

theorem atomUses_quoted {s : Str} (h : PlainQuoted '\'' s) : atomUses (pyQuoted s) = [] := by
  unfold atomUses
  exact if_pos (Or.inr (Or.inl (by rw [unquote_pyQuoted h]; rfl)))

theorem atomUses_itoa (n : Nat) : atomUses (itoa n) = [] := by
  unfold atomUses
  refine if_pos (Or.inl ?_)
  unfold isDigits
  rw [Bool.and_eq_true, List.all_eq_true]
  exact ⟨by simpa using itoa_ne_nil n, fun c hc => itoa_digits n c hc⟩

theorem typeTerm_uses {o : SaOption} {c : Column} {n : Str} (h : saTypeName o c = some n) : termUses (typeTerm o.useUTC c) = [n] := by
  have hu : ∀ n ∈ "Boolean"ₛ :: saTypes.map Prod.snd, atomUses n = [n] := by decide +kernel
  unfold saTypeName at h
  by_cases hC : Converted o c
  · rw [if_pos hC] at h
    cases h
    unfold typeTerm
    dsimp only
    rw [hC.2.1, if_neg (fun e => absurd e.1 (by decide)), if_neg (by decide), if_pos ⟨rfl, fun e => e.elim hC.2.2.1 hC.2.2.2, hC.1⟩]
    decide +kernel
  · rw [if_neg hC] at h
    have hf : fieldType c = n := by rw [fieldType_eq, h]; rfl
    have hn := hu n (saType_mem h)
    unfold typeTerm
    dsimp only
    rw [hf]
    split
    · show atomUses n ++ [(none, itoa c.size.toNat)].flatMap _ = _
      rw [hn, List.flatMap_cons, atomUses_itoa]
      rfl
    · split
      · show atomUses n ++ List.flatMap _ _ = _
        rw [hn, List.flatMap_eq_nil_iff.2]
        · rfl
        · intro a ha
          obtain ⟨p, hp, rfl⟩ := List.mem_map.1 ha
          replace hp := mem_present_entry hp
          obtain hp | hp := List.mem_cons.1 hp
          · have h2 := congrArg Prod.snd hp
            dsimp only at h2
            split at h2
            · rw [Option.some.inj h2]; exact atomUses_itoa _
            · cases h2
          · rw [List.mem_singleton] at hp
            have h2 := congrArg Prod.snd hp
            dsimp only at h2
            split at h2
            · rw [Option.some.inj h2]; exact atomUses_itoa _
            · cases h2
      · split
        · rename_i h3
          exact absurd ⟨h3.2.2, h3.1, fun e => h3.2.1 (Or.inl e), fun e => h3.2.1 (Or.inr e)⟩ hC
        · exact hn

/-- The time stamps that the database does not set. -/
def Stamped (c : Column) : Prop := lower c.type = "datetime"ₛ ∧ (c.name = "created_at"ₛ ∨ c.name = "updated_at"ₛ)

instance (c : Column) : Decidable (Stamped c) := inferInstanceAs (Decidable (_ ∧ _))

theorem now_uses (useUTC : Bool) : termUses (.atom (nowFn useUTC)) = ["datetime"ₛ] := by
  cases useUTC <;> decide +kernel

theorem flag_uses {c : Column} {p : Str × PyTerm} (h : p ∈ present (flagArgs c)) : termUses p.2 = [] := by
  have h1 : termUses (.atom "True"ₛ) = [] := by decide +kernel
  have h2 : termUses (.atom "False"ₛ) = [] := by decide +kernel
  have key : ∀ e ∈ flagArgs c, ∀ v, e.2 = some v → termUses v = [] := by
    intro e he v hv
    unfold flagArgs at he
    simp only [List.mem_cons, List.not_mem_nil, or_false] at he
    rcases he with rfl | rfl | rfl | rfl <;> (dsimp only at hv; split at hv <;> cases hv; assumption)
  exact key _ (mem_present_entry h) _ rfl

theorem named_uses (useUTC : Bool) (c : Column) (n : Str) : (∃ p ∈ namedArgs useUTC c, n ∈ termUses p.2) ↔ n = "datetime"ₛ ∧ Stamped c := by
  have e : namedArgs useUTC c =
      (if Stamped c then [("default"ₛ, PyNode.atom (nowFn useUTC))] else []) ++
      (if lower c.type = "datetime"ₛ ∧ c.name = "updated_at"ₛ then [("onupdate"ₛ, .atom (nowFn useUTC))] else []) ++ present (flagArgs c) := by
    unfold namedArgs
    rw [present_ite, present_ite, List.append_assoc]
    rfl
  rw [e]
  constructor
  · rintro ⟨p, hp, hn⟩
    rcases List.mem_append.1 hp with hp | hp
    · rcases List.mem_append.1 hp with hp | hp
      · split at hp
        · rename_i hs
          rw [List.mem_singleton.1 hp, now_uses, List.mem_singleton] at hn
          exact ⟨hn, hs⟩
        · cases hp
      · split at hp
        · rename_i hs
          rw [List.mem_singleton.1 hp, now_uses, List.mem_singleton] at hn
          exact ⟨hn, hs.1, Or.inr hs.2⟩
        · cases hp
    · rw [flag_uses hp] at hn
      cases hn
  · rintro ⟨hn, hs⟩
    refine ⟨("default"ₛ, .atom (nowFn useUTC)), ?_, ?_⟩
    · rw [if_pos hs]
      exact List.mem_append_left _ (List.mem_append_left _ (List.mem_singleton.2 rfl))
    · rw [now_uses, hn]; exact List.mem_singleton.2 rfl

theorem column_uses {sc : Strcase} {o : SaOption} {c : Column} (h : PlainQuoted '\'' c.name) (n : Str) :
    n ∈ memberUses (columnMember o.useUTC sc c) ↔ n = "Column"ₛ ∨ saTypeName o c = some n ∨ n = "datetime"ₛ ∧ Stamped c := by
  have hcol : atomUses "Column"ₛ = ["Column"ₛ] := by decide +kernel
  have htype : (∃ t ∈ (if fieldType c = [] then [] else [typeTerm o.useUTC c]), n ∈ termUses t) ↔ saTypeName o c = some n := by
    by_cases hf : fieldType c = []
    · rw [if_pos hf]
      have hs := (fieldType_nil c).1 hf
      have hC : ¬ Converted o c := by
        intro hC
        unfold saType at hs
        rw [hC.2.1, if_neg (fun e => absurd e.1 (by decide))] at hs
        exact absurd hs (by decide)
      unfold saTypeName
      rw [if_neg hC, hs]
      constructor
      · rintro ⟨t, ht, _⟩; cases ht
      · intro h; cases h
    · rw [if_neg hf]
      have hs : saTypeName o c ≠ none := by
        unfold saTypeName
        split
        · exact fun e => by cases e
        · exact fun e => hf ((fieldType_nil c).2 e)
      obtain ⟨m, hm⟩ := Option.ne_none_iff_exists'.1 hs
      rw [hm]
      constructor
      · rintro ⟨t, ht, hn⟩
        rw [List.mem_singleton.1 ht, typeTerm_uses hm, List.mem_singleton] at hn
        rw [hn]
      · intro hn
        cases hn
        exact ⟨_, List.mem_singleton.2 rfl, by rw [typeTerm_uses hm]; exact List.mem_singleton.2 rfl⟩
  have e : n ∈ memberUses (columnMember o.useUTC sc c) ↔
      n = "Column"ₛ ∨ (∃ t ∈ positionalArgs o.useUTC sc c, n ∈ termUses t) ∨ ∃ p ∈ namedArgs o.useUTC c, n ∈ termUses p.2 := by
    show n ∈ atomUses "Column"ₛ ++ (columnArgs o.useUTC sc c).flatMap _ ↔ _
    unfold columnArgs
    rw [hcol, List.mem_append, List.mem_singleton, List.flatMap_append, List.mem_append, List.mem_flatMap, List.mem_flatMap]
    refine or_congr Iff.rfl (or_congr ?_ ?_)
    · constructor
      · rintro ⟨a, ha, hn⟩
        obtain ⟨t, ht, rfl⟩ := List.mem_map.1 ha
        exact ⟨t, ht, hn⟩
      · rintro ⟨t, ht, hn⟩
        exact ⟨_, List.mem_map.2 ⟨t, ht, rfl⟩, hn⟩
    · constructor
      · rintro ⟨a, ha, hn⟩
        obtain ⟨t, ht, rfl⟩ := List.mem_map.1 ha
        exact ⟨t, ht, hn⟩
      · rintro ⟨t, ht, hn⟩
        exact ⟨_, List.mem_map.2 ⟨t, ht, rfl⟩, hn⟩
  rw [e, named_uses]
  refine or_congr Iff.rfl (or_congr (Iff.trans ?_ htype) Iff.rfl)
  unfold positionalArgs
  constructor
  · rintro ⟨t, ht, hn⟩
    rcases List.mem_append.1 ht with ht | ht
    · split at ht
      · rw [List.mem_singleton.1 ht, show termUses (.atom (pyQuoted c.name)) = [] from atomUses_quoted h] at hn
        cases hn
      · cases ht
    · exact ⟨t, ht, hn⟩
  · rintro ⟨t, ht, hn⟩
    exact ⟨t, List.mem_append_right _ ht, hn⟩

theorem class_uses {sc : Strcase} {o : SaOption} {s : Schema} (hp : PlainSa sc o s) {t : Table} (ht : t ∈ s.tables) (n : Str) :
    ClassUses (pyClassOf sc o t) n ↔ n = "Base"ₛ ∨ (n = "UniqueConstraint"ₛ ∧ (uniques t).length > 1) ∨
      ∃ c ∈ t.columns, n = "Column"ₛ ∨ saTypeName o c = some n ∨ n = "datetime"ₛ ∧ Stamped c := by
  have htab : memberUses (tableMember t) = [] := atomUses_quoted (hp.tables t ht).1
  have huse : memberUses (uniqueMember sc o t) = ["UniqueConstraint"ₛ] := by
    have e1 : atomUses "UniqueConstraint"ₛ = ["UniqueConstraint"ₛ] := by decide +kernel
    show atomUses "UniqueConstraint"ₛ ++ List.flatMap _ _ = _
    rw [e1, List.flatMap_eq_nil_iff.2]
    · rfl
    · intro a ha
      rcases List.mem_append.1 ha with ha | ha
      · obtain ⟨c, hc, rfl⟩ := List.mem_map.1 ha
        exact atomUses_quoted (plain_ident (by decide) (ident_attribute (hp.columns t ht c (List.mem_filter.1 hc).1).2))
      · rw [List.mem_singleton.1 ha]
        exact atomUses_quoted (plain_append (hp.tables t ht).1 hp.suffix)
  unfold ClassUses
  refine or_congr Iff.rfl ?_
  unfold pyClassOf
  dsimp only
  constructor
  · rintro ⟨m, hm, hn⟩
    rcases List.mem_append.1 hm with hm | hm
    · rcases List.mem_cons.1 hm with rfl | hm
      · rw [htab] at hn; cases hn
      · split at hm
        · rename_i hu
          rw [List.mem_singleton.1 hm, huse, List.mem_singleton] at hn
          exact Or.inl ⟨hn, hu⟩
        · cases hm
    · obtain ⟨c, hc, rfl⟩ := List.mem_map.1 hm
      exact Or.inr ⟨c, hc, (column_uses (hp.columns t ht c hc).1 n).1 hn⟩
  · rintro (⟨hn, hu⟩ | ⟨c, hc, hn⟩)
    · refine ⟨uniqueMember sc o t, ?_, by rw [huse, hn]; exact List.mem_singleton.2 rfl⟩
      rw [if_pos hu]
      exact List.mem_append_left _ (List.mem_cons_of_mem _ (List.mem_singleton.2 rfl))
    · exact ⟨_, List.mem_append_right _ (List.mem_map.2 ⟨c, hc, rfl⟩), (column_uses (hp.columns t ht c hc).1 n).2 hn⟩

theorem class_bound (sc : Strcase) (o : SaOption) (t : Table) :
    boundNames (pyClassOf sc o t).members = "__tablename__"ₛ :: t.columns.map fun c => saAttribute sc c.name := by
  have e : boundNames (t.columns.map (columnMember o.useUTC sc)) = t.columns.map fun c => saAttribute sc c.name := by
    unfold boundNames
    induction t.columns with
    | nil => rfl
    | cons c cs ih => rw [List.map_cons, List.flatMap_cons, ih]; rfl
  unfold pyClassOf boundNames at *
  dsimp only
  rw [List.flatMap_append, e]
  split <;> rfl

/-! ### The names of a file -/

theorem file_names {imports sa : List Str} {tz : Bool} {ks : List PyClass} {n : Str} {r : Option PyOrigin} :
    (n, r) ∈ pyNames (fileOf imports sa tz ks) ↔
      (n, r) ∈ [("declarative_base"ₛ, some (.module "sqlalchemy.ext.declarative"ₛ)),
        ("RepresentableBase"ₛ, some (PyOrigin.module "sqlalchemy_repr"ₛ))] ∨
      tz = true ∧ (n, r) ∈ stmtNames (headerScope imports sa) (.cls tzClass) ∨
      ∃ a k b, ks = a ++ k :: b ∧
        (n, r) ∈ stmtNames (fileScope (fileScope (headerScope imports sa) (if tz then [.cls tzClass] else [])) (a.map .cls)) (.cls k) := by
  have e : pyNames (fileOf imports sa tz ks) = pyNames (headerFile imports sa) ++
      (fileNames (headerScope imports sa) (if tz then [.cls tzClass] else []) ++
        fileNames (fileScope (headerScope imports sa) (if tz then [.cls tzClass] else [])) (ks.map .cls)) := by
    unfold fileOf pyNames headerScope
    rw [List.append_assoc, fileNames_append, fileNames_append]
  rw [e, List.mem_append, List.mem_append, headerNames, mem_classNames]
  refine or_congr Iff.rfl (or_congr ?_ Iff.rfl)
  cases tz
  · exact ⟨fun h => (by cases h), fun h => (by cases h.1)⟩
  · rw [if_pos rfl]
    show (n, r) ∈ stmtNames _ (.cls tzClass) ++ [] ↔ _
    rw [List.append_nil]
    exact ⟨fun h => ⟨rfl, h⟩, fun h => h.2⟩

/-! ### Files that are written -/

theorem read_single {sc : Strcase} {o : SaOption} {s : Schema} (hc : CleanCase sc) (hp : PlainSa sc o s) {ts : List Table}
    (hts : ∀ t ∈ ts, t ∈ s.tables) : ∃ imports sa tz,
    (∀ l, l ∈ imports ↔ ∃ t ∈ ts, TimeNeeds o t l) ∧ (∀ n, n ∈ sa ↔ n = "Column"ₛ ∨ ∃ t ∈ ts, SaNeeds o t n) ∧
    (tz = true ↔ ∃ t ∈ ts, ∃ c ∈ t.columns, Converted o c) ∧
    readPy (singleText o (ts.map (newClass sc o))) =
      if ∀ t ∈ ts, PyTable sc o t then some (fileOf imports sa tz (ts.map (pyClassOf sc o))) else none := by
  obtain ⟨h1, h2, h3⟩ := addClasses_eq sc o ts start
  have hi : ∀ l, l ∈ ((ts.map (newClass sc o)).foldl (addClass o.useUTC) start).imports.slice ↔ ∃ t ∈ ts, TimeNeeds o t l := by
    intro l
    rw [mem_slice, h2]
    exact ⟨fun h => h.elim (fun h => (by cases h)) id, Or.inr⟩
  have hs : ∀ n, n ∈ ((ts.map (newClass sc o)).foldl (addClass o.useUTC) start).saImports.slice ↔ n = "Column"ₛ ∨ ∃ t ∈ ts, SaNeeds o t n := by
    intro n
    rw [mem_slice, h1]
    refine or_congr ?_ Iff.rfl
    show n ∈ ["Column"ₛ] ↔ _
    exact List.mem_singleton
  refine ⟨_, _, ((ts.map (newClass sc o)).foldl (addClass o.useUTC) start).useTZ, hi, hs, ?_, ?_⟩
  · rw [h3]
    exact ⟨fun h => h.elim (fun h => (by cases h)) id, Or.inr⟩
  · unfold singleText
    dsimp only
    rw [read_whole hc hp ?_ ?_ _ hts]
    · refine if_congr (and_iff_right ?_) rfl rfl
      intro e
      have := (hs "Column"ₛ).2 (Or.inl rfl)
      rw [e] at this
      cases this
    · intro l hl
      obtain ⟨t, _, h⟩ := (hi l).1 hl
      exact needs_time h
    · intro n hn
      rcases (hs n).1 hn with rfl | ⟨t, _, h⟩
      · decide
      · exact importable_name n (needs_importable h)

/-- The path and the text of the file of a table; the first file imports `Column`. -/
def IsClassText (sc : Strcase) (o : SaOption) (dir : Str) (first : Prop) (t : Table) (w : List Str × Str) : Prop :=
  ∃ imports sa, (∀ l, l ∈ imports ↔ TimeNeeds o t l) ∧ (∀ n, n ∈ sa ↔ first ∧ n = "Column"ₛ ∨ SaNeeds o t n) ∧
    w = (Jpa.pathJoin [dir, t.name ++ ".py"ₛ], join "\n"ₛ (headerLines imports sa ++ classLines o (newClass sc o t) ++ [[]]))

theorem classFiles_eq (sc : Strcase) (o : SaOption) (dir : Str) : ∀ (ts : List Table) (st : State) (first : Prop),
    st.imports.keys = [] → (∀ n, n ∈ st.saImports.keys ↔ first ∧ n = "Column"ₛ) →
    (classFiles o dir st (ts.map (newClass sc o))).length = ts.length ∧
    ∀ (i : Nat) t w, ts[i]? = some t → (classFiles o dir st (ts.map (newClass sc o)))[i]? = some w →
      IsClassText sc o dir (i = 0 ∧ first) t w := by
  intro ts
  induction ts with
  | nil => intro st first _ _; exact ⟨rfl, fun i t w h => by cases h⟩
  | cons t ts ih =>
    intro st first hi hs
    obtain ⟨h1, h2, -⟩ := addClass_eq sc o t st
    rw [List.map_cons]
    unfold classFiles
    dsimp only
    obtain ⟨g1, g2⟩ := ih { addClass o.useUTC st (newClass sc o t) with
      saImports := (addClass o.useUTC st (newClass sc o t)).saImports.clear
      imports := (addClass o.useUTC st (newClass sc o t)).imports.clear } False rfl
      (fun n => ⟨fun h => (by cases h), fun h => h.1.elim⟩)
    refine ⟨by rw [List.length_cons, g1, List.length_cons], ?_⟩
    intro i t' w ht hw
    cases i with
    | zero =>
      cases ht
      cases hw
      refine ⟨_, _, fun l => ?_, fun n => ?_, rfl⟩
      · rw [mem_slice, h2, hi]
        exact ⟨fun h => h.elim (fun h => (by cases h)) id, Or.inr⟩
      · rw [mem_slice, h1, hs]
        exact or_congr (and_congr_left fun _ => (and_iff_right rfl).symm) Iff.rfl
    | succ i =>
      obtain ⟨imports, sa, e1, e2, e3⟩ := g2 i t' w ht hw
      refine ⟨imports, sa, e1, fun n => (e2 n).trans (or_congr ?_ Iff.rfl), e3⟩
      exact ⟨fun h => h.1.2.elim, fun h => (by cases h.1.1)⟩

theorem read_classText {sc : Strcase} {o : SaOption} {s : Schema} (hc : CleanCase sc) (hp : PlainSa sc o s) {t : Table}
    (ht : t ∈ s.tables) {imports sa : List Str} {first : Prop} (hi : ∀ l, l ∈ imports ↔ TimeNeeds o t l)
    (hs : ∀ n, n ∈ sa ↔ first ∧ n = "Column"ₛ ∨ SaNeeds o t n) :
    readPy (join "\n"ₛ (headerLines imports sa ++ classLines o (newClass sc o t) ++ [[]])) =
      if sa ≠ [] ∧ PyTable sc o t then some (fileOf imports sa false [pyClassOf sc o t]) else none := by
  have h := read_whole hc hp (imports := imports) (sa := sa) (fun l hl => needs_time ((hi l).1 hl)) ?_ false (ts := [t])
    (fun x hx => by rw [List.mem_singleton.1 hx]; exact ht)
  · rw [if_neg (c := false = true) (by simp), List.append_nil, List.map_cons, List.map_nil, List.flatMap_cons, List.flatMap_nil, List.append_nil,
      List.map_cons, List.map_nil] at h
    rw [h]
    refine if_congr (and_congr Iff.rfl ?_) rfl rfl
    simp
  · intro n hn
    rcases (hs n).1 hn with ⟨_, rfl⟩ | h
    · decide
    · exact importable_name n (needs_importable h)

end Octo.Sqlalchemy
