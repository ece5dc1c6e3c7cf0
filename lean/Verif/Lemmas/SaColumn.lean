import Verif.Lemmas.SaText

/-! Lemmas about the columns that the SQLAlchemy generator writes. -/

namespace Octo.Sqlalchemy
open Spec Protobuf Jpa

/-! ### Types and names -/

theorem lookup_saTypes (t : Str) : saTypes.lookup t = none ∧ t ∉ saTypes.map Prod.fst ∨ ∃ p ∈ saTypes, t = p.1 ∧ saTypes.lookup t = some p.2 := by
  by_cases h : t ∈ saTypes.map Prod.fst
  · right
    obtain ⟨p, hp, rfl⟩ := List.mem_map.1 h
    have key : ∀ p ∈ saTypes, saTypes.lookup p.1 = some p.2 := by decide +kernel
    exact ⟨p, hp, rfl, key p hp⟩
  · left
    refine ⟨?_, h⟩
    rw [List.lookup_eq_none_iff]
    intro p hp
    rw [bne_iff_ne]
    rintro rfl
    exact h (List.mem_map_of_mem hp)

theorem fieldType_eq (c : Column) : fieldType c = (saType c).getD [] := by
  unfold fieldType saType
  dsimp only
  generalize lower c.type = t
  rcases lookup_saTypes t with ⟨h, hn⟩ | ⟨p, hp, rfl, h⟩
  · have hn' : ∀ x ∈ saTypes.map Prod.fst, t ≠ x := fun x hx e => hn (e ▸ hx)
    rw [h]
    have hl : ∀ l : List Str, (∀ x ∈ l, x ∈ saTypes.map Prod.fst) → t ∉ l := fun l hl hm => hn (hl t hm)
    rw [if_neg (hl _ (by decide)), if_neg (hn' _ (by decide)), if_neg (hl _ (by decide)), if_neg (hn' _ (by decide)),
      if_neg (hn' _ (by decide)), if_neg (hn' _ (by decide)), if_neg (hn' _ (by decide)), if_neg (hn' _ (by decide)),
      if_neg (hn' _ (by decide)), if_neg (hn' _ (by decide)), if_neg (hl _ (by decide))]
    split <;> rfl
  · rw [h]
    revert p
    have hb : ∀ p ∈ saTypes, p.1 ≠ "bit"ₛ := by decide +kernel
    have key : ∀ p ∈ saTypes, (if p.1 ∈ ["char"ₛ, "varchar"ₛ, "text8"ₛ, "text16"ₛ, "text24"ₛ, "text32"ₛ] then "String"ₛ
        else if p.1 = "boolean"ₛ then "Boolean"ₛ
        else if p.1 ∈ ["int8"ₛ, "int16"ₛ, "int24"ₛ, "int32"ₛ] then "Integer"ₛ
        else if p.1 = "int64"ₛ then "BigInteger"ₛ
        else if p.1 = "decimal"ₛ then "Numeric"ₛ
        else if p.1 = "float"ₛ then "Float"ₛ
        else if p.1 = "double"ₛ then "Float"ₛ
        else if p.1 = "datetime"ₛ then "DateTime"ₛ
        else if p.1 = "date"ₛ then "Date"ₛ
        else if p.1 = "time"ₛ then "Time"ₛ
        else if p.1 ∈ ["blob8"ₛ, "blob16"ₛ, "blob24"ₛ, "blob32"ₛ] then "LargeBinary"ₛ
        else []) = p.2 := by decide +kernel
    intro p hp _
    rw [if_neg (c := p.1 = "bit"ₛ ∧ c.size = 1) (fun e => hb p hp e.1), if_neg (c := p.1 = "bit"ₛ ∧ c.size = 1) (fun e => hb p hp e.1)]
    exact key p hp

/-- The types that a file can mention. -/
def saTypeNames : List Str := "TZDateTime"ₛ :: "Boolean"ₛ :: saTypes.map Prod.snd

theorem saType_mem {c : Column} {t : Str} (h : saType c = some t) : t ∈ "Boolean"ₛ :: saTypes.map Prod.snd := by
  unfold saType at h
  split at h
  · cases h; exact List.mem_cons_self
  · exact List.mem_cons_of_mem _ (List.mem_map.2 ⟨_, Ojson.lookup_mem' h, rfl⟩)

theorem fieldType_nil (c : Column) : fieldType c = [] ↔ saType c = none := by
  rw [fieldType_eq]
  constructor
  · intro h
    by_contra hne
    obtain ⟨t, ht⟩ := Option.ne_none_iff_exists'.1 hne
    rw [ht] at h
    have : ∀ t ∈ "Boolean"ₛ :: saTypes.map Prod.snd, t ≠ [] := by decide +kernel
    exact this t (saType_mem ht) h
  · intro h; rw [h]; rfl

theorem reserved_iff (s : Str) : isPythonReservedWord s = true ↔ s ∈ pyOldKeywords := by
  have h1 : ∀ s ∈ pythonReservedWords, s ∈ pyOldKeywords := by decide +kernel
  have h2 : ∀ s ∈ pyOldKeywords, s ∈ pythonReservedWords := by decide +kernel
  have h3 : (StringSet.ofList pythonReservedWords).keys = pythonReservedWords := by decide +kernel
  unfold isPythonReservedWord StringSet.contains
  rw [h3, decide_eq_true_eq]
  exact ⟨h1 s, h2 s⟩

theorem newField_name (sc : Strcase) (c : Column) : (newField sc c).name = saAttribute sc c.name := by
  unfold newField saAttribute utilToLowerSnake
  dsimp only
  exact if_congr (reserved_iff _) rfl rfl

theorem newField_override (sc : Strcase) (c : Column) : (newField sc c).overrideName = true ↔
    sc.toSnake (lower c.name) ∈ pyOldKeywords ∨ c.name ≠ sc.toSnake (lower c.name) := by
  unfold newField utilToLowerSnake
  dsimp only
  rw [Bool.or_eq_true, reserved_iff, Bool.not_eq_true', beq_eq_false_iff_ne]

theorem ident_attribute {sc : Strcase} {n : Str} (h : Ident (sc.toSnake (lower n))) : Ident (saAttribute sc n) := by
  unfold saAttribute
  split
  · exact ident_append h (by decide)
  · exact h

/-! ### Arguments -/

/-- The type of a column. -/
def typeTerm (useUTC : Bool) (c : Column) : PyTerm :=
  let t := lower c.type
  if (t = "varchar"ₛ ∨ t = "char"ₛ) ∧ c.size > 0 then .call (fieldType c) [(none, itoa c.size.toNat)]
  else if t = "double"ₛ ∨ t = "float"ₛ ∨ t = "decimal"ₛ then
    .call (fieldType c) ((present [("precision"ₛ, if c.size > 0 then some (itoa c.size.toNat) else none),
      ("scale"ₛ, if c.scale > 0 then some (itoa c.scale.toNat) else none)]).map fun p => (some p.1, p.2))
  else if t = "datetime"ₛ ∧ ¬ (c.name = "created_at"ₛ ∨ c.name = "updated_at"ₛ) ∧ useUTC = true then .atom "TZDateTime"ₛ
  else .atom (fieldType c)

/-- The flags of a column. -/
def flagArgs (c : Column) : List (Str × Option PyTerm) :=
  [("primary_key"ₛ, if c.primaryKey = true then some (.atom "True"ₛ) else none),
    ("unique"ₛ, if c.uniqueKey = true then some (.atom "True"ₛ) else none),
    ("autoincrement"ₛ, if c.autoIncremental = true then some (.atom "True"ₛ) else none),
    ("nullable"ₛ, if c.notNull = true ∧ c.autoIncremental = false then some (.atom "False"ₛ) else none)]

/-- The named arguments of a column. -/
def namedArgs (useUTC : Bool) (c : Column) : List (Str × PyTerm) :=
  present (("default"ₛ, if lower c.type = "datetime"ₛ ∧ (c.name = "created_at"ₛ ∨ c.name = "updated_at"ₛ) then
      some (.atom (nowFn useUTC)) else none) ::
    ("onupdate"ₛ, if lower c.type = "datetime"ₛ ∧ c.name = "updated_at"ₛ then some (.atom (nowFn useUTC)) else none) :: flagArgs c)

/-- The positional arguments of a column. -/
def positionalArgs (useUTC : Bool) (sc : Strcase) (c : Column) : List PyTerm :=
  (if (newField sc c).overrideName then [.atom (pyQuoted c.name)] else []) ++ if fieldType c = [] then [] else [typeTerm useUTC c]

/-- The arguments of a column. -/
def columnArgs (useUTC : Bool) (sc : Strcase) (c : Column) : List (Option Str × PyTerm) :=
  (positionalArgs useUTC sc c).map (fun t => (none, t)) ++ (namedArgs useUTC c).map fun p => (some p.1, p.2)

/-- A named argument as it is written. -/
def namedText (p : Str × PyTerm) : Str := p.1 ++ "="ₛ ++ p.2.fn

/-- The text of the type. -/
def typeText (useUTC : Bool) (c : Column) : Str :=
  let t := lower c.type
  if (t = "varchar"ₛ ∨ t = "char"ₛ) ∧ c.size > 0 then fieldType c ++ "("ₛ ++ join ", "ₛ [itoa c.size.toNat] ++ ")"ₛ
  else if t = "double"ₛ ∨ t = "float"ₛ ∨ t = "decimal"ₛ then
    fieldType c ++ "("ₛ ++ join ", "ₛ ((present [("precision"ₛ, if c.size > 0 then some (itoa c.size.toNat) else none),
      ("scale"ₛ, if c.scale > 0 then some (itoa c.scale.toNat) else none)]).map fun p => p.1 ++ "="ₛ ++ p.2) ++ ")"ₛ
  else if t = "datetime"ₛ ∧ ¬ (c.name = "created_at"ₛ ∨ c.name = "updated_at"ₛ) ∧ useUTC = true then "TZDateTime"ₛ
  else fieldType c

theorem attributes_eq (useUTC : Bool) (sc : Strcase) (c : Column) : attributes useUTC (newField sc c) =
    (if (newField sc c).overrideName then [pyQuoted c.name] else []) ++ typeText useUTC c :: (namedArgs useUTC c).map namedText := by
  have e1 : (newField sc c).column = c := rfl
  have e2 : (newField sc c).type = fieldType c := rfl
  unfold attributes
  dsimp only
  rw [e1, show "'"ₛ ++ c.name ++ "'"ₛ = pyQuoted c.name from rfl]
  generalize (if (newField sc c).overrideName = true then [pyQuoted c.name] else []) = ov
  simp only [List.append_assoc]
  refine congrArg (ov ++ ·) ?_
  have hflags : (if c.primaryKey = true then ["primary_key=True"ₛ] else []) ++
      ((if c.uniqueKey = true then ["unique=True"ₛ] else []) ++
      ((if c.autoIncremental = true then ["autoincrement=True"ₛ] else []) ++
      (if (c.notNull && !c.autoIncremental) = true then ["nullable=False"ₛ] else []))) =
      (present (flagArgs c)).map namedText := by
    unfold flagArgs
    cases c.primaryKey <;> cases c.uniqueKey <;> cases c.autoIncremental <;> cases c.notNull <;> rfl
  rw [hflags]
  unfold namedArgs
  rw [present_ite, present_ite, List.map_append, List.map_append, ← List.append_assoc (List.map namedText _), ← List.cons_append]
  refine congrArg (· ++ _) ?_
  unfold typeAttrs typeText
  rw [e1, e2]
  dsimp only
  generalize ht : lower c.type = t
  by_cases h1 : (t = "varchar"ₛ ∨ t = "char"ₛ) ∧ c.size > 0
  · rw [if_pos h1, if_pos h1, if_neg, if_neg]
    · rfl
    · rintro ⟨rfl, -⟩; exact absurd h1.1 (by decide)
    · rintro ⟨rfl, -⟩; exact absurd h1.1 (by decide)
  rw [if_neg h1, if_neg h1]
  by_cases h2 : t = "double"ₛ ∨ t = "float"ₛ ∨ t = "decimal"ₛ
  · rw [if_pos h2, if_pos h2, if_neg (c := t = "datetime"ₛ ∧ (c.name = "created_at"ₛ ∨ c.name = "updated_at"ₛ)),
      if_neg (c := t = "datetime"ₛ ∧ c.name = "updated_at"ₛ)]
    · rw [present_ite, present_ite]
      by_cases ha : c.size > 0 <;> by_cases hb : c.scale > 0 <;> simp only [if_pos, if_neg, ha, hb, not_false_eq_true] <;> rfl
    · rintro ⟨rfl, -⟩; exact absurd h2 (by decide)
    · rintro ⟨rfl, -⟩; exact absurd h2 (by decide)
  rw [if_neg h2, if_neg h2]
  by_cases h3 : t = "datetime"ₛ
  · rw [if_pos h3]
    by_cases h4 : c.name = "created_at"ₛ
    · rw [if_pos h4, if_neg (fun e => e.2.1 (Or.inl h4)), if_pos ⟨h3, Or.inl h4⟩, if_neg]
      · rfl
      · rintro ⟨-, e⟩; rw [h4] at e; exact absurd e (by decide)
    · rw [if_neg h4]
      by_cases h5 : c.name = "updated_at"ₛ
      · rw [if_pos h5, if_neg (fun e => e.2.1 (Or.inr h5)), if_pos ⟨h3, Or.inr h5⟩, if_pos ⟨h3, h5⟩]
        rfl
      · rw [if_neg h5, if_neg (c := t = "datetime"ₛ ∧ (c.name = "created_at"ₛ ∨ c.name = "updated_at"ₛ)) (fun e => e.2.elim h4 h5),
          if_neg (c := t = "datetime"ₛ ∧ c.name = "updated_at"ₛ) (fun e => h5 e.2)]
        cases useUTC
        · rw [if_neg (by simp), if_neg (fun e => by cases e.2.2)]; rfl
        · rw [if_pos rfl, if_pos ⟨h3, fun e => e.elim h4 h5, rfl⟩]; rfl
  · rw [if_neg h3, if_neg (fun e => h3 e.1), if_neg (fun e => h3 e.1), if_neg (fun e => h3 e.1)]
    rfl

/-! ### Reading -/

theorem order_args {α : Type} (ps : List α) {ns : List (Str × α)} (h : (ns.map Prod.fst).Nodup) :
    PyOrder (ps.map (fun t => ((none, t) : Option Str × α)) ++ ns.map fun p => (some p.1, p.2)) := by
  constructor
  · have e : ∀ ps : List α, (ps.map (fun t => ((none, t) : Option Str × α)) ++ ns.map fun p => (some p.1, p.2)).dropWhile (fun a => a.1.isNone) =
        ns.map fun p => (some p.1, p.2) := by
      intro ps
      induction ps with
      | nil =>
        cases ns with
        | nil => rfl
        | cons n ns => rfl
      | cons p ps ih => rw [List.map_cons, List.cons_append, List.dropWhile_cons_of_pos rfl, ih]
    rw [e]
    intro a ha
    obtain ⟨p, -, rfl⟩ := List.mem_map.1 ha
    exact fun e => by cases e
  · rw [List.filterMap_append, List.filterMap_map, List.filterMap_map]
    have e1 : ps.filterMap ((fun a : Option Str × α => a.1) ∘ fun t => (none, t)) = [] := by
      rw [List.filterMap_eq_nil_iff]; intro a _; rfl
    have e2 : ns.filterMap ((fun a : Option Str × α => a.1) ∘ fun p => (some p.1, p.2)) = ns.map Prod.fst := by
      rw [← List.filterMap_eq_map]; rfl
    rw [e1, e2]
    exact h

theorem trimArgs_of {l : List Str} (h : ∀ a ∈ l, a ≠ []) : trimArgs l = l := by
  unfold trimArgs
  cases l with
  | nil => rfl
  | cons x l =>
    rw [if_neg]
    rw [List.getLastD_eq_getLast?, List.getLast?_eq_getLast_of_ne_nil (by simp)]
    exact h _ (List.getLast_mem _)

theorem read_texts {α : Type} (arg : Str → Option α) {l : List Str} {as : List (Option Str × α)} (h : ∀ a ∈ l, Good sqlSep a ∧ a ≠ [])
    (hr : l.mapM (readPyArgText arg) = some as) : l.mapM (readPyArg arg) = some as := by
  rw [← hr]
  clear hr
  induction l with
  | nil => rfl
  | cons a l ih =>
    rw [List.mapM_cons, List.mapM_cons, ih fun b hb => h b (by simp [hb]), readPyArg_good arg (h a (by simp)).1, if_neg (h a (by simp)).2]

theorem read_arguments {α : Type} (arg : Str → Option α) {l : List Str} {as : List (Option Str × α)} (h : ∀ a ∈ l, Good sqlSep a ∧ a ≠ [])
    (hr : l.mapM (readPyArgText arg) = some as) (ho : PyOrder as) : readPyArgs arg (join ", "ₛ l) = some as := by
  rw [readPyArgs_join arg fun a ha => (h a ha).1, trimArgs_of fun a ha => (h a ha).2, read_texts arg h hr, Option.bind_some, if_pos ho]

theorem pyName_fieldType {c : Column} (h : fieldType c ≠ []) : PyName (fieldType c) := by
  have h1 : saType c ≠ none := fun e => h ((fieldType_nil c).2 e)
  obtain ⟨t, ht⟩ := Option.ne_none_iff_exists'.1 h1
  rw [fieldType_eq, ht]
  have : ∀ t ∈ "Boolean"ₛ :: saTypes.map Prod.snd, PyName t := by decide +kernel
  exact this t (saType_mem ht)

theorem atom_name {s : Str} (h : PyName s) : PyAtom s := Or.inr (Or.inr (Or.inr (dotted_name h)))

theorem read_call {f : Str} {l : List Str} {as : List (Option Str × Str)} (hf : PyName f) (h : ∀ a ∈ l, LineWord a)
    (hr : l.mapM (readPyArgText readPyAtom) = some as) (ho : PyOrder as) :
    LineWord (f ++ "("ₛ ++ join ", "ₛ l ++ ")"ₛ) ∧
      readPyArgText readPyTerm (f ++ "("ₛ ++ join ", "ₛ l ++ ")"ₛ) = some (none, .call f as) := by
  refine ⟨?_, ?_⟩
  · refine ⟨?_, by simp, ?_⟩
    · have : f ++ "("ₛ ++ join ", "ₛ l ++ ")"ₛ = f ++ (['('] ++ join ", "ₛ l ++ [')']) := by simp
      rw [this]
      exact .append _ _ (good_ident hf.1) (.paren _ rfl (good_join (good_chars (by decide)) fun a ha => Good.none (h a ha).good))
    · exact newline_append (newline_append (newline_append (newline_ident hf.1) (by decide)) (newline_join (by decide) fun a ha =>
        (h a ha).newline)) (by decide)
  · have e := readPyNode_call readPyAtom (join ", "ₛ l) (dotted_name hf)
    rw [List.append_assoc] at e ⊢
    rw [readPyArgText_positional readPyTerm (c := '(') ?_ (by simp) (by decide)]
    · unfold readPyTerm
      rw [e, read_arguments readPyAtom (fun a ha => ⟨(h a ha).good, (h a ha).ne⟩) hr ho]
      rfl
    · intro hm
      rcases List.mem_append.1 hm with hm | hm
      · exact ident_not (by decide) hf.1 hm
      · exact absurd hm (by decide)

theorem read_name {s : Str} (h : PyName s) : LineWord s ∧ readPyArgText readPyTerm s = some (none, .atom s) := by
  refine ⟨lineWord_ident h.1, ?_⟩
  rw [readPyArgText_plain _ (ident_not (by decide) h.1)]
  unfold readPyTerm
  rw [readPyNode_atom _ (atom_name h)]
  rfl

theorem atomArg_named {k v : Str} (hk : PyName k) (hv : PyAtom v) : readPyArgText readPyAtom (k ++ "="ₛ ++ v) = some (some k, v) := by
  rw [readPyArgText_named _ _ hk]
  unfold readPyAtom
  rw [if_pos hv]
  rfl

theorem mapM_texts {α β γ : Type} {f : β → Option γ} {g : α → β} {r : α → γ} {l : List α} (h : ∀ a ∈ l, f (g a) = some (r a)) :
    (l.map g).mapM f = some (l.map r) := by
  induction l with
  | nil => rfl
  | cons a l ih =>
    rw [List.map_cons, List.mapM_cons, h a (by simp), ih fun x hx => h x (by simp [hx])]
    rfl

theorem read_type (useUTC : Bool) {c : Column} (h : fieldType c ≠ []) :
    LineWord (typeText useUTC c) ∧ readPyArgText readPyTerm (typeText useUTC c) = some (none, typeTerm useUTC c) := by
  have hn := pyName_fieldType h
  unfold typeText typeTerm
  dsimp only
  by_cases h1 : (lower c.type = "varchar"ₛ ∨ lower c.type = "char"ₛ) ∧ c.size > 0
  · rw [if_pos h1, if_pos h1]
    refine read_call hn ?_ ?_ ?_
    · intro a ha; rw [List.mem_singleton.1 ha]; exact lineWord_itoa _
    · rw [List.mapM_cons, readPyArgText_plain _ (not_mem_itoa (by decide) _)]
      unfold readPyAtom
      rw [if_pos (atom_itoa _)]
      rfl
    · exact order_args [itoa c.size.toNat] (ns := []) List.nodup_nil
  rw [if_neg h1, if_neg h1]
  by_cases h2 : lower c.type = "double"ₛ ∨ lower c.type = "float"ₛ ∨ lower c.type = "decimal"ₛ
  · rw [if_pos h2, if_pos h2]
    have key : ∀ p ∈ present [("precision"ₛ, if c.size > 0 then some (itoa c.size.toNat) else none),
        ("scale"ₛ, if c.scale > 0 then some (itoa c.scale.toNat) else none)], PyName p.1 ∧ ∃ n, p.2 = itoa n := by
      intro p hp
      rw [present_ite, present_ite] at hp
      rcases List.mem_append.1 hp with hp | hp
      · split at hp
        · rw [List.mem_singleton.1 hp]; exact ⟨show PyName "precision"ₛ by decide, _, rfl⟩
        · cases hp
      · rcases List.mem_append.1 hp with hp | hp
        · split at hp
          · rw [List.mem_singleton.1 hp]; exact ⟨show PyName "scale"ₛ by decide, _, rfl⟩
          · cases hp
        · cases hp
    refine read_call hn ?_ ?_ ?_
    · intro a ha
      obtain ⟨p, hp, rfl⟩ := List.mem_map.1 ha
      obtain ⟨h3, n, h4⟩ := key p hp
      rw [h4]
      exact ((lineWord_ident h3.1).append (lineWord_literal "="ₛ (by decide) (by decide))).append (lineWord_itoa n)
    · refine mapM_texts fun p hp => ?_
      obtain ⟨h3, n, h4⟩ := key p hp
      rw [h4]
      exact atomArg_named h3 (atom_itoa n)
    · exact order_args [] (nodup_present (show ["precision"ₛ, "scale"ₛ].Nodup by decide))
  rw [if_neg h2, if_neg h2]
  split
  · exact read_name (by decide)
  · exact read_name hn

end Octo.Sqlalchemy
