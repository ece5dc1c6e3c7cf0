import Verif.Lemmas.SaColumn

/-! Lemmas about the classes that the SQLAlchemy generator writes. -/

namespace Octo.Sqlalchemy
open Spec Protobuf Jpa

/-! ### Columns -/

theorem typeText_nil {useUTC : Bool} {c : Column} (h : fieldType c = []) : typeText useUTC c = [] ∧ namedArgs useUTC c = present (flagArgs c) := by
  have h1 := (fieldType_nil c).1 h
  have key : ∀ t ∈ saTypes.map Prod.fst, lower c.type ≠ t := by
    intro t ht e
    unfold saType at h1
    split at h1
    · cases h1
    · rcases lookup_saTypes (lower c.type) with ⟨-, hn⟩ | ⟨p, hp, -, hl⟩
      · exact hn (e ▸ ht)
      · rw [hl] at h1; cases h1
  unfold typeText namedArgs
  dsimp only
  rw [if_neg (fun e => e.1.elim (key _ (by decide)) (key _ (by decide))),
    if_neg (fun e => e.elim (key _ (by decide)) fun e => e.elim (key _ (by decide)) (key _ (by decide))),
    if_neg (fun e => key _ (by decide) e.1), present_ite, present_ite,
    if_neg (fun e => key "datetime"ₛ (by decide) e.1), if_neg (fun e => key "datetime"ₛ (by decide) e.1)]
  exact ⟨h, rfl⟩

theorem namedArgs_plain (useUTC : Bool) (c : Column) : ∀ p ∈ namedArgs useUTC c, PyName p.1 ∧ ∃ v, p.2 = .atom v ∧ PyAtom v ∧ LineWord v := by
  have hnow : PyAtom (nowFn useUTC) ∧ LineWord (nowFn useUTC) := by
    cases useUTC
    · exact ⟨by show PyAtom "datetime.now"ₛ; decide +kernel, lineWord_literal "datetime.now"ₛ (by decide) (by decide)⟩
    · exact ⟨by show PyAtom "datetime.utcnow"ₛ; decide +kernel, lineWord_literal "datetime.utcnow"ₛ (by decide) (by decide)⟩
  have ht : PyAtom "True"ₛ ∧ LineWord "True"ₛ := ⟨by decide +kernel, lineWord_literal "True"ₛ (by decide) (by decide)⟩
  have hf : PyAtom "False"ₛ ∧ LineWord "False"ₛ := ⟨by decide +kernel, lineWord_literal "False"ₛ (by decide) (by decide)⟩
  have key : ∀ (k : Str) (q : Prop) [Decidable q] (v : Str) (l : List (Str × Option PyTerm)), PyName k → PyAtom v ∧ LineWord v →
      (∀ p ∈ present l, PyName p.1 ∧ ∃ v, p.2 = .atom v ∧ PyAtom v ∧ LineWord v) →
      ∀ p ∈ present ((k, if q then some (.atom v) else none) :: l), PyName p.1 ∧ ∃ v, p.2 = .atom v ∧ PyAtom v ∧ LineWord v := by
    intro k q _ v l hk hv hl p hp
    rw [present_ite] at hp
    rcases List.mem_append.1 hp with hp | hp
    · split at hp
      · rw [List.mem_singleton.1 hp]; exact ⟨hk, v, rfl, hv⟩
      · cases hp
    · exact hl p hp
  unfold namedArgs flagArgs
  refine key _ _ _ _ (by decide) hnow (key _ _ _ _ (by decide) hnow (key _ _ _ _ (by decide) ht (key _ _ _ _ (by decide) ht
    (key _ _ _ _ (by decide) ht (key _ _ _ _ (by decide) hf ?_)))))
  intro p hp
  cases hp

theorem namedArgs_nodup (useUTC : Bool) (c : Column) : ((namedArgs useUTC c).map Prod.fst).Nodup :=
  nodup_present (show ["default"ₛ, "onupdate"ₛ, "primary_key"ₛ, "unique"ₛ, "autoincrement"ₛ, "nullable"ₛ].Nodup by decide)

theorem named_texts (useUTC : Bool) (c : Column) :
    (∀ a ∈ (namedArgs useUTC c).map namedText, LineWord a) ∧
    ((namedArgs useUTC c).map namedText).mapM (readPyArgText readPyTerm) = some ((namedArgs useUTC c).map fun p => (some p.1, p.2)) := by
  constructor
  · intro a ha
    obtain ⟨p, hp, rfl⟩ := List.mem_map.1 ha
    obtain ⟨h1, v, h2, h3, h4⟩ := namedArgs_plain useUTC c p hp
    unfold namedText
    rw [h2]
    exact ((lineWord_ident h1.1).append (lineWord_literal "="ₛ (by decide) (by decide))).append h4
  · refine mapM_texts fun p hp => ?_
    obtain ⟨h1, v, h2, h3, h4⟩ := namedArgs_plain useUTC c p hp
    unfold namedText
    rw [h2, readPyArgText_named _ _ h1]
    unfold readPyTerm
    rw [readPyNode_atom _ (show PyAtom (PyNode.atom v : PyTerm).fn from h3)]
    rfl

theorem override_texts {sc : Strcase} {c : Column} (h : PlainQuoted '\'' c.name) :
    (∀ a ∈ (if (newField sc c).overrideName then [pyQuoted c.name] else []), LineWord a) ∧
    (if (newField sc c).overrideName then [pyQuoted c.name] else []).mapM (readPyArgText readPyTerm) =
      some ((if (newField sc c).overrideName then [(.atom (pyQuoted c.name) : PyTerm)] else []).map fun t => (none, t)) := by
  split
  · constructor
    · intro a ha; rw [List.mem_singleton.1 ha]; exact lineWord_pyQuoted h
    · rw [List.mapM_cons, positional_pyQuoted]
      unfold readPyTerm
      rw [readPyNode_atom _ (atom_pyQuoted h)]
      rfl
  · exact ⟨fun a ha => (by cases ha), rfl⟩

/-- Whether the arguments of a column can be read. -/
def ValidArgs (c : Column) : Prop :=
  saType c ≠ none ∨ c.primaryKey = false ∧ c.uniqueKey = false ∧ c.autoIncremental = false ∧ c.notNull = false

instance (c : Column) : Decidable (ValidArgs c) := inferInstanceAs (Decidable (_ ∨ _))

theorem flagArgs_nil (c : Column) : present (flagArgs c) = [] ↔
    c.primaryKey = false ∧ c.uniqueKey = false ∧ c.autoIncremental = false ∧ c.notNull = false := by
  unfold flagArgs
  cases c.primaryKey <;> cases c.uniqueKey <;> cases c.autoIncremental <;> cases c.notNull <;> decide

theorem mapM_append' {α β : Type} {f : α → Option β} {l m : List α} {a b : List β} (h1 : l.mapM f = some a) (h2 : m.mapM f = some b) :
    (l ++ m).mapM f = some (a ++ b) := by
  rw [List.mapM_append, h1, h2]; rfl

theorem getLastD_append (l : List Str) (x : Str) (m : List Str) : (l ++ x :: m).getLastD [] = (x :: m).getLastD [] := by
  rw [List.getLastD_eq_getLast?, List.getLastD_eq_getLast?, List.getLast?_append_of_ne_nil _ (by simp)]

theorem read_columnArgs (useUTC : Bool) {sc : Strcase} {c : Column} (h : PlainQuoted '\'' c.name) :
    readPyArgs readPyTerm (join ", "ₛ (attributes useUTC (newField sc c))) = if ValidArgs c then some (columnArgs useUTC sc c) else none := by
  obtain ⟨o1, o2⟩ := override_texts (sc := sc) h
  obtain ⟨n1, n2⟩ := named_texts useUTC c
  rw [attributes_eq]
  unfold columnArgs positionalArgs
  generalize (if (newField sc c).overrideName = true then [pyQuoted c.name] else []) = ov at o1 o2
  generalize (if (newField sc c).overrideName = true then [(PyNode.atom (pyQuoted c.name) : PyTerm)] else []) = ov' at o2 ⊢
  by_cases ht : fieldType c = []
  · obtain ⟨t1, t2⟩ := typeText_nil (useUTC := useUTC) ht
    have t3 := (fieldType_nil c).1 ht
    rw [if_pos ht, List.append_nil, t1]
    have hg : ∀ a ∈ ov ++ [] :: (namedArgs useUTC c).map namedText, Good sqlSep a := by
      intro a ha
      rcases List.mem_append.1 ha with ha | ha
      · exact (o1 a ha).good
      · rcases List.mem_cons.1 ha with rfl | ha
        · exact .nil
        · exact (n1 a ha).good
    rw [readPyArgs_join _ hg]
    by_cases hv : c.primaryKey = false ∧ c.uniqueKey = false ∧ c.autoIncremental = false ∧ c.notNull = false
    · rw [if_pos (show ValidArgs c from Or.inr hv)]
      have e : namedArgs useUTC c = [] := t2.trans ((flagArgs_nil c).2 hv)
      have e1 : trimArgs (ov ++ [[]]) = ov := by
        unfold trimArgs
        rw [if_pos (by rw [getLastD_append]; rfl), List.dropLast_concat]
      rw [e, List.map_nil, List.map_nil, e1, read_texts _ (fun a ha => ⟨(o1 a ha).good, (o1 a ha).ne⟩) o2, Option.bind_some,
        List.append_nil, if_pos]
      have := order_args ov' (ns := ([] : List (Str × PyTerm))) List.nodup_nil
      rwa [List.map_nil, List.append_nil] at this
    · rw [if_neg (fun e : ValidArgs c => e.elim (fun e => e t3) hv)]
      have hne : namedArgs useUTC c ≠ [] := fun e => hv ((flagArgs_nil c).1 (t2 ▸ e))
      have e1 : trimArgs (ov ++ [] :: (namedArgs useUTC c).map namedText) = ov ++ [] :: (namedArgs useUTC c).map namedText := by
        unfold trimArgs
        rw [if_neg]
        rw [getLastD_append, List.getLastD_eq_getLast?, List.getLast?_eq_getLast_of_ne_nil (by simp), Option.getD_some,
          List.getLast_cons (by simpa using hne)]
        exact (n1 _ (List.getLast_mem _)).ne
      rw [e1, Ojson.mapM_none.2 ⟨[], by simp, rfl⟩]
      rfl
  · obtain ⟨t1, t2⟩ := read_type useUTC ht
    rw [if_neg ht, if_pos (show ValidArgs c from Or.inl fun e => ht ((fieldType_nil c).2 e))]
    refine read_arguments _ ?_ ?_ (order_args _ (namedArgs_nodup useUTC c))
    · intro a ha
      rcases List.mem_append.1 ha with ha | ha
      · exact ⟨(o1 a ha).good, (o1 a ha).ne⟩
      · rcases List.mem_cons.1 ha with rfl | ha
        · exact ⟨t1.good, t1.ne⟩
        · exact ⟨(n1 a ha).good, (n1 a ha).ne⟩
    · rw [List.map_append, List.append_assoc]
      refine mapM_append' o2 ?_
      rw [List.mapM_cons, t2, n2]
      rfl

theorem lineWord_columnCall (useUTC : Bool) {sc : Strcase} {c : Column} (h : PlainQuoted '\'' c.name) :
    LineWord ("Column("ₛ ++ join ", "ₛ (attributes useUTC (newField sc c)) ++ ")"ₛ) := by
  obtain ⟨o1, -⟩ := override_texts (sc := sc) h
  obtain ⟨n1, -⟩ := named_texts useUTC c
  have hg : ∀ a ∈ attributes useUTC (newField sc c), Good sqlSep a ∧ '\n' ∉ a := by
    rw [attributes_eq]
    intro a ha
    rcases List.mem_append.1 ha with ha | ha
    · exact ⟨(o1 a ha).good, (o1 a ha).newline⟩
    · rcases List.mem_cons.1 ha with rfl | ha
      · by_cases ht : fieldType c = []
        · rw [(typeText_nil ht).1]; exact ⟨.nil, by simp⟩
        · exact ⟨(read_type useUTC ht).1.good, (read_type useUTC ht).1.newline⟩
      · exact ⟨(n1 a ha).good, (n1 a ha).newline⟩
  have e : "Column("ₛ ++ join ", "ₛ (attributes useUTC (newField sc c)) ++ ")"ₛ =
      "Column"ₛ ++ (['('] ++ join ", "ₛ (attributes useUTC (newField sc c)) ++ [')']) := by
    rw [show "Column("ₛ = "Column"ₛ ++ ['('] from rfl]
    simp only [List.append_assoc]; rfl
  refine ⟨?_, by simp, ?_⟩
  · rw [e]
    exact .append _ _ (good_chars (by decide)) (.paren _ rfl (good_join (good_chars (by decide)) fun a ha => Good.none (hg a ha).1))
  · exact newline_append (newline_append (by decide) (newline_join (by decide) fun a ha => (hg a ha).2)) (by decide)

/-! ### Lines -/

theorem after_some {p s r : Str} (h : after p s = some r) : s = p ++ r := by
  unfold after at h
  split at h
  · rename_i e
    cases h
    conv_lhs => rw [← List.take_append_drop p.length s, e]
  · cases h

theorem attribute_not_keyword (sc : Strcase) (n : Str) : saAttribute sc n ∉ pyOldKeywords := by
  unfold saAttribute
  split
  · intro h
    have : ∀ w ∈ pyOldKeywords, w.getLast? ≠ some '_' := by decide +kernel
    exact this _ h (by rw [show "_"ₛ = ['_'] from rfl, List.getLast?_concat])
  · assumption

theorem after_def {n r : Str} (hn : Ident n) (hd : n ≠ "def"ₛ) : after "def "ₛ (n ++ ' ' :: r) = none := by
  by_contra h
  obtain ⟨x, hx⟩ := Option.ne_none_iff_exists'.1 h
  have e := after_some hx
  have e1 := splitN2_append_sep (sep := ' ') (ident_not (by decide) hn) r
  rw [e, show "def "ₛ ++ x = "def"ₛ ++ ' ' :: x from rfl, splitN2_append_sep (by decide)] at e1
  exact hd (Prod.mk.inj e1).1.symm

theorem tokens_assign {n v : Str} (hn : LineWord n) (hv : LineWord v) : tokens (n ++ " = "ₛ ++ v) = [n, "="ₛ, v] := by
  have e : n ++ " = "ₛ ++ v = n ++ ' ' :: ("="ₛ ++ ' ' :: v) := by
    rw [show " = "ₛ = ' ' :: ("="ₛ ++ [' ']) from rfl]
    simp only [List.append_assoc, List.cons_append, List.nil_append]
  rw [e, tokens_cons (Good.blank hn.good) hn.ne rfl, tokens_cons (good_chars (by decide)) (by decide) rfl,
    tokens_single (Good.blank hv.good) hv.ne]

theorem member_assign {n v : Str} (k : PyClass) (hn : Ident n) (hd : n ≠ "def"ₛ) (hv : LineWord v) :
    readPyMember k (n ++ " = "ₛ ++ v) = if PyName n then (readPyExpr v).map (.assign n) else none := by
  have hh : (n ++ " = "ₛ ++ v).head? ≠ some ' ' := by
    obtain ⟨a, m, rfl⟩ := List.exists_cons_of_ne_nil hn.1
    intro h
    rw [List.cons_append, List.cons_append, List.head?_cons] at h
    cases h
    exact ident_not (by decide) hn List.mem_cons_self
  have hd' : after "def "ₛ (n ++ " = "ₛ ++ v) = none := by
    rw [List.append_assoc]; exact after_def hn hd
  unfold readPyMember
  rw [if_neg hh, hd']
  dsimp only
  rw [tokens_assign (lineWord_ident hn) hv]
  unfold readPyStatement
  dsimp only
  by_cases h : PyName n
  · rw [if_pos ⟨rfl, h⟩, if_pos h]
  · rw [if_neg (fun e => h e.2), if_neg h]

theorem readPyLine_member (k : PyClass) (f : PyFile) (l : Str) : readPyLine (some k, f) ("    "ₛ ++ l) =
    (readPyMember k l).map fun m => (some { k with members := k.members ++ [m] }, f) := by
  unfold readPyLine readPyText
  rw [if_neg (by simp), after_append]
  rfl

/-- The member of a column. -/
def columnMember (useUTC : Bool) (sc : Strcase) (c : Column) : PyMember :=
  .assign (saAttribute sc c.name) (.call "Column"ₛ (columnArgs useUTC sc c))

theorem read_columnLine (useUTC : Bool) {sc : Strcase} {c : Column} (h : PlainQuoted '\'' c.name) (hi : Ident (sc.toSnake (lower c.name)))
    (k : PyClass) (f : PyFile) : readPyLine (some k, f) (columnLine useUTC (newField sc c)) =
      if PyColumn sc c then some (some { k with members := k.members ++ [columnMember useUTC sc c] }, f) else none := by
  have hd : saAttribute sc c.name ≠ "def"ₛ := fun e => attribute_not_keyword sc c.name (e ▸ by decide)
  have e : columnLine useUTC (newField sc c) =
      "    "ₛ ++ (saAttribute sc c.name ++ " = "ₛ ++ ("Column("ₛ ++ join ", "ₛ (attributes useUTC (newField sc c)) ++ ")"ₛ)) := by
    unfold columnLine
    rw [newField_name, show " = Column("ₛ = " = "ₛ ++ "Column("ₛ from rfl]
    simp only [List.append_assoc]
  rw [e, readPyLine_member, member_assign k (ident_attribute hi) hd (lineWord_columnCall useUTC h)]
  have e2 := readPyNode_call readPyTerm (join ", "ₛ (attributes useUTC (newField sc c))) (f := "Column"ₛ) (by decide)
  unfold readPyExpr
  rw [show "Column("ₛ = "Column"ₛ ++ "("ₛ from rfl, e2, read_columnArgs useUTC h]
  by_cases h1 : PyName (saAttribute sc c.name)
  · rw [if_pos h1]
    by_cases h2 : ValidArgs c
    · rw [if_pos h2, if_pos (show PyColumn sc c from ⟨h1, h2⟩)]; rfl
    · rw [if_neg h2, if_neg (fun e : PyColumn sc c => h2 e.2)]; rfl
  · rw [if_neg h1, if_neg (fun e : PyColumn sc c => h1 e.1)]; rfl

theorem read_columnLines (useUTC : Bool) {sc : Strcase} (f : PyFile) : ∀ (cs : List Column) (k : PyClass),
    (∀ c ∈ cs, PlainQuoted '\'' c.name ∧ Ident (sc.toSnake (lower c.name))) →
    (cs.map fun c => columnLine useUTC (newField sc c)).foldlM readPyLine (some k, f) =
      if ∀ c ∈ cs, PyColumn sc c then some (some { k with members := k.members ++ cs.map (columnMember useUTC sc) }, f) else none := by
  intro cs
  induction cs with
  | nil => intro k _; rw [if_pos (by intro c h; cases h), List.map_nil, List.map_nil, List.append_nil]; rfl
  | cons c cs ih =>
    intro k h
    rw [List.map_cons, List.foldlM_cons, read_columnLine useUTC (h c (by simp)).1 (h c (by simp)).2]
    by_cases hc : PyColumn sc c
    · rw [if_pos hc]
      show List.foldlM readPyLine _ _ = _
      rw [ih _ fun d hd => h d (by simp [hd])]
      by_cases hr : ∀ c ∈ cs, PyColumn sc c
      · rw [if_pos hr, if_pos (by intro d hd; rcases List.mem_cons.1 hd with rfl | hd; exacts [hc, hr d hd])]
        rw [List.map_cons, List.append_assoc]; rfl
      · rw [if_neg hr, if_neg (fun e => hr fun d hd => e d (by simp [hd]))]
    · rw [if_neg hc, if_neg (fun e => hc (e c (by simp)))]; rfl

/-! ### Classes -/

/-- The unique columns. -/
def uniques (t : Table) : List Column := t.columns.filter (·.uniqueKey)

/-- The member with the unique constraint. -/
def uniqueMember (sc : Strcase) (o : SaOption) (t : Table) : PyMember :=
  .expr (.call "UniqueConstraint"ₛ ((uniques t).map (fun c => (none, .atom (pyQuoted (saAttribute sc c.name)))) ++
    [(some "name"ₛ, .atom (pyQuoted (t.name ++ o.uniqueNameSuffix)))]))

/-- The member with the name of the table. -/
def tableMember (t : Table) : PyMember := .assign "__tablename__"ₛ (.atom (pyQuoted t.name))

/-- The class of a table. -/
def pyClassOf (sc : Strcase) (o : SaOption) (t : Table) : PyClass :=
  ⟨saClassName sc o t, "Base"ₛ, tableMember t :: (if (uniques t).length > 1 then [uniqueMember sc o t] else []) ++
    t.columns.map (columnMember o.useUTC sc)⟩

theorem plain_ident {q : Char} (hq : isIdent q = false) {s : Str} (h : Ident s) : PlainQuoted q s :=
  ⟨ident_not hq h, ident_not (by decide) h, ident_not (by decide) h⟩

theorem plain_append {q : Char} {a b : Str} (ha : PlainQuoted q a) (hb : PlainQuoted q b) : PlainQuoted q (a ++ b) := by
  refine ⟨?_, ?_, newline_append ha.2.2 hb.2.2⟩
  · rw [List.mem_append]; rintro (h | h); exacts [ha.1 h, hb.1 h]
  · rw [List.mem_append]; rintro (h | h); exacts [ha.2.1 h, hb.2.1 h]

theorem uniqueFields_eq (sc : Strcase) (o : SaOption) (t : Table) : (newClass sc o t).uniqueFields = (uniques t).map (newField sc) := by
  unfold newClass uniques
  dsimp only
  rw [List.filter_map]; rfl

theorem className_eq (sc : Strcase) (o : SaOption) (t : Table) : className sc o t = saClassName sc o t := by
  unfold className saClassName
  split
  · dsimp only
    split
    · rfl
    · rename_i h
      rw [ne_eq, not_not] at h
      rw [h]; rfl
  · rfl

theorem ident_saClassName {sc : Strcase} {o : SaOption} {s : Schema} (hc : CleanCase sc) (hp : PlainSa sc o s) {t : Table}
    (ht : t ∈ s.tables) : Ident (saClassName sc o t) := by
  obtain ⟨-, h1, h2⟩ := hp.tables t ht
  unfold saClassName
  split
  · have h3 := alnum_ident (hc _ h1).1
    refine ⟨fun e => h3.1 (List.append_eq_nil_iff.1 e).2, ?_⟩
    rw [List.all_append, Bool.and_eq_true]
    refine ⟨?_, h3.2⟩
    rw [List.all_eq_true]
    intro c hm
    have := List.all_eq_true.1 (hp.prefixes t.group) c hm
    unfold isAlnum at this
    unfold isIdent
    rw [this, Bool.true_or]
  · rcases h2 with h2 | h2
    · contradiction
    · exact h2

/-- The names of the unique constraint as they are written. -/
def uniqueArgs (sc : Strcase) (o : SaOption) (t : Table) : List Str :=
  (uniques t).map (fun c => pyQuoted (saAttribute sc c.name)) ++ ["name="ₛ ++ pyQuoted (t.name ++ o.uniqueNameSuffix)]

theorem uniqueLine_eq (sc : Strcase) (o : SaOption) (t : Table) (h : uniques t ≠ []) :
    "    UniqueConstraint("ₛ ++ join ", "ₛ ((newClass sc o t).uniqueFields.map fun f => "'"ₛ ++ f.name ++ "'"ₛ) ++ ", name='"ₛ ++
      ((newClass sc o t).table.name ++ o.uniqueNameSuffix) ++ "')"ₛ =
    "    "ₛ ++ ("UniqueConstraint"ₛ ++ "("ₛ ++ join ", "ₛ (uniqueArgs sc o t) ++ ")"ₛ) := by
  unfold uniqueArgs
  rw [join_append _ (by simpa using h) (by simp), uniqueFields_eq, List.map_map]
  have e : ((fun f : SaField => "'"ₛ ++ f.name ++ "'"ₛ) ∘ newField sc) = fun c => pyQuoted (saAttribute sc c.name) := by
    funext c
    show "'"ₛ ++ (newField sc c).name ++ "'"ₛ = _
    rw [newField_name]; rfl
  have e2 : (newClass sc o t).table = t := rfl
  rw [e, e2]
  generalize join ", "ₛ ((uniques t).map fun c => pyQuoted (saAttribute sc c.name)) = x
  unfold pyQuoted
  show _ ++ x ++ _ ++ _ ++ _ = _
  rw [show "    UniqueConstraint("ₛ = "    "ₛ ++ ("UniqueConstraint"ₛ ++ "("ₛ) from rfl,
    show ", name='"ₛ = ", "ₛ ++ ("name="ₛ ++ "'"ₛ) from rfl, show "')"ₛ = "'"ₛ ++ ")"ₛ from rfl]
  rw [show ∀ y : Str, join ", "ₛ [y] = y from fun _ => rfl]
  simp only [List.append_assoc]

theorem read_uniqueLine {sc : Strcase} {o : SaOption} {s : Schema} (hp : PlainSa sc o s) {t : Table} (ht : t ∈ s.tables)
    (k : PyClass) (f : PyFile) :
    readPyLine (some k, f) ("    "ₛ ++ ("UniqueConstraint"ₛ ++ "("ₛ ++ join ", "ₛ (uniqueArgs sc o t) ++ ")"ₛ)) =
      some (some { k with members := k.members ++ [uniqueMember sc o t] }, f) := by
  have hq : ∀ c ∈ uniques t, PlainQuoted '\'' (saAttribute sc c.name) := fun c hc =>
    plain_ident (by decide) (ident_attribute (hp.columns t ht c (List.mem_filter.1 hc).1).2)
  have hn : PlainQuoted '\'' (t.name ++ o.uniqueNameSuffix) := plain_append (hp.tables t ht).1 hp.suffix
  have hw : ∀ a ∈ uniqueArgs sc o t, LineWord a := by
    intro a ha
    rcases List.mem_append.1 ha with ha | ha
    · obtain ⟨c, hc, rfl⟩ := List.mem_map.1 ha
      exact lineWord_pyQuoted (hq c hc)
    · rw [List.mem_singleton.1 ha]
      exact (lineWord_literal "name="ₛ (by decide) (by decide)).append (lineWord_pyQuoted hn)
  have hr : readPyArgs readPyTerm (join ", "ₛ (uniqueArgs sc o t)) =
      some ((uniques t).map (fun c => (none, .atom (pyQuoted (saAttribute sc c.name)))) ++
        [(some "name"ₛ, .atom (pyQuoted (t.name ++ o.uniqueNameSuffix)))]) := by
    refine read_arguments _ (fun a ha => ⟨(hw a ha).good, (hw a ha).ne⟩) ?_ ?_
    · refine mapM_append' (mapM_texts fun c hc => ?_) ?_
      · rw [positional_pyQuoted]
        unfold readPyTerm
        rw [readPyNode_atom _ (atom_pyQuoted (hq c hc))]
        rfl
      · rw [List.mapM_cons, show "name="ₛ = "name"ₛ ++ "="ₛ from rfl, readPyArgText_named _ _ (by decide)]
        unfold readPyTerm
        rw [readPyNode_atom _ (atom_pyQuoted hn)]
        rfl
    · have := order_args ((uniques t).map fun c => (PyNode.atom (pyQuoted (saAttribute sc c.name)) : PyTerm))
        (ns := [("name"ₛ, .atom (pyQuoted (t.name ++ o.uniqueNameSuffix)))]) (by simp)
      rw [List.map_map] at this
      exact this
  have hg : Good isBlank ("UniqueConstraint"ₛ ++ "("ₛ ++ join ", "ₛ (uniqueArgs sc o t) ++ ")"ₛ) := by
    have e : "UniqueConstraint"ₛ ++ "("ₛ ++ join ", "ₛ (uniqueArgs sc o t) ++ ")"ₛ =
      "UniqueConstraint"ₛ ++ (['('] ++ join ", "ₛ (uniqueArgs sc o t) ++ [')']) := by
      simp only [List.append_assoc]; rfl
    rw [e]
    exact .append _ _ (good_chars (by decide)) (.paren _ rfl (good_join (good_chars (by decide)) fun a ha => Good.none (hw a ha).good))
  rw [readPyLine_member]
  unfold readPyMember
  have hd : after "def "ₛ ("UniqueConstraint"ₛ ++ "("ₛ ++ join ", "ₛ (uniqueArgs sc o t) ++ ")"ₛ) = none := by
    rw [List.append_assoc, List.append_assoc]
    exact after_head (by decide)
  rw [if_neg (by rw [List.append_assoc, List.append_assoc]; exact fun e => by cases e), hd]
  dsimp only
  rw [tokens_single hg (by simp)]
  unfold readPyStatement readPyExpr
  dsimp only
  rw [readPyNode_call _ _ (by decide), hr]
  rfl

theorem read_tableLine {t : Table} (h : PlainQuoted '\'' t.name) (k : PyClass) (f : PyFile) :
    readPyLine (some k, f) ("    __tablename__ = '"ₛ ++ t.name ++ "'"ₛ) = some (some { k with members := k.members ++ [tableMember t] }, f) := by
  have e : "    __tablename__ = '"ₛ ++ t.name ++ "'"ₛ = "    "ₛ ++ ("__tablename__"ₛ ++ " = "ₛ ++ pyQuoted t.name) := by
    unfold pyQuoted
    rw [show "    __tablename__ = '"ₛ = "    "ₛ ++ ("__tablename__"ₛ ++ (" = "ₛ ++ "'"ₛ)) from rfl]
    simp only [List.append_assoc]
  rw [e, readPyLine_member, member_assign k (by decide) (by decide) (lineWord_pyQuoted h), if_pos (by decide)]
  unfold readPyExpr
  rw [readPyNode_atom _ (atom_pyQuoted h)]
  rfl

theorem read_classLine {n : Str} (hn : Ident n) {st : Option PyClass × PyFile} {f : PyFile} (h : closePyClass st = some f) :
    readPyLine st ("class "ₛ ++ n ++ "(Base):"ₛ) = if PyName n then some (some ⟨n, "Base"ₛ, []⟩, f) else none := by
  unfold readPyLine readPyText
  have e : "class "ₛ ++ n ++ "(Base):"ₛ = "class "ₛ ++ (n ++ "(Base):"ₛ) := List.append_assoc _ _ _
  rw [e, if_neg (by simp), show after "    "ₛ ("class "ₛ ++ (n ++ "(Base):"ₛ)) = none from after_head (by decide), h, Option.bind_some,
    after_append]
  dsimp only
  unfold readPyClassHead
  rw [show n ++ "(Base):"ₛ = (n ++ '(' :: "Base"ₛ) ++ "):"ₛ by rw [List.append_assoc]; rfl, ktBefore_append, Option.bind_some,
    splitN2_append_sep (ident_not (by decide) hn)]
  dsimp only
  by_cases hp : PyName n
  · rw [if_pos hp, if_pos ⟨hp, by decide⟩]; rfl
  · rw [if_neg hp, if_neg (fun e => hp e.1)]; rfl

theorem read_class {sc : Strcase} {o : SaOption} {s : Schema} (hc : CleanCase sc) (hp : PlainSa sc o s) {t : Table} (ht : t ∈ s.tables)
    {st : Option PyClass × PyFile} {f : PyFile} (h : closePyClass st = some f) :
    (classLines o (newClass sc o t)).foldlM readPyLine st = if PyTable sc o t then some (some (pyClassOf sc o t), f) else none := by
  have hcs : ∀ c ∈ t.columns, PlainQuoted '\'' c.name ∧ Ident (sc.toSnake (lower c.name)) := hp.columns t ht
  unfold classLines
  rw [List.append_assoc, List.append_assoc, List.foldlM_append, List.foldlM_cons, show readPyLine st [] = some st from rfl]
  show ((some st).bind fun st => List.foldlM readPyLine st _) >>= _ = _
  rw [Option.bind_some, List.foldlM_cons, show readPyLine st [] = some st from rfl]
  show ((some st).bind fun st => List.foldlM readPyLine st _) >>= _ = _
  rw [Option.bind_some, List.foldlM_cons]
  rw [show (newClass sc o t).name = saClassName sc o t from className_eq sc o t, read_classLine (ident_saClassName hc hp ht) h]
  by_cases hn : PyName (saClassName sc o t)
  · rw [if_pos hn]
    show (List.foldlM readPyLine _ _) >>= _ = _
    rw [List.foldlM_cons, show (newClass sc o t).table = t from rfl, read_tableLine (hp.tables t ht).1]
    show List.foldlM readPyLine _ _ = _
    have hcols : ∀ k : PyClass, ([[]] ++ (newClass sc o t).fields.map (columnLine o.useUTC)).foldlM readPyLine (some k, f) =
        if ∀ c ∈ t.columns, PyColumn sc c then some (some { k with members := k.members ++ t.columns.map (columnMember o.useUTC sc) }, f)
        else none := by
      intro k
      rw [List.foldlM_append]
      show List.foldlM readPyLine (some k, f) _ = _
      rw [show (newClass sc o t).fields = t.columns.map (newField sc) from rfl, List.map_map]
      exact read_columnLines o.useUTC f t.columns k hcs
    have hlen : (newClass sc o t).uniqueFields.length = (uniques t).length := by rw [uniqueFields_eq, List.length_map]
    by_cases hu : (uniques t).length > 1
    · have e := uniqueLine_eq sc o t (fun e => by rw [e] at hu; simp at hu)
      rw [show (newClass sc o t).table = t from rfl] at e
      rw [if_pos (by rw [hlen]; exact hu), List.foldlM_append, List.foldlM_cons, e, read_uniqueLine hp ht]
      show List.foldlM readPyLine _ _ = _
      rw [hcols]
      by_cases hv : ∀ c ∈ t.columns, PyColumn sc c
      · rw [if_pos hv, if_pos (show PyTable sc o t from ⟨hn, hv⟩)]
        unfold pyClassOf
        rw [if_pos hu]
        rfl
      · rw [if_neg hv, if_neg (fun e : PyTable sc o t => hv e.2)]
    · rw [if_neg (by rw [hlen]; exact hu)]
      show List.foldlM readPyLine _ ([[]] ++ _) = _
      rw [hcols]
      by_cases hv : ∀ c ∈ t.columns, PyColumn sc c
      · rw [if_pos hv, if_pos (show PyTable sc o t from ⟨hn, hv⟩)]
        unfold pyClassOf
        rw [if_neg hu]
        rfl
      · rw [if_neg hv, if_neg (fun e : PyTable sc o t => hv e.2)]
  · rw [if_neg hn, if_neg (fun e : PyTable sc o t => hn e.1)]; rfl

theorem close_class (sc : Strcase) (o : SaOption) (t : Table) (f : PyFile) :
    closePyClass (some (pyClassOf sc o t), f) = some (f ++ [.cls (pyClassOf sc o t)]) := by
  unfold closePyClass
  dsimp only
  exact if_neg (by unfold pyClassOf; simp)

theorem read_classes {sc : Strcase} {o : SaOption} {s : Schema} (hc : CleanCase sc) (hp : PlainSa sc o s) : ∀ (ts : List Table),
    (∀ t ∈ ts, t ∈ s.tables) → ∀ (st : Option PyClass × PyFile) (f : PyFile), closePyClass st = some f →
    (((ts.map (newClass sc o)).flatMap (classLines o)).foldlM readPyLine st).bind closePyClass =
      if ∀ t ∈ ts, PyTable sc o t then some (f ++ ts.map fun t => .cls (pyClassOf sc o t)) else none := by
  intro ts
  induction ts with
  | nil =>
    intro _ st f h
    rw [if_pos (by intro t ht; cases ht), List.map_nil, List.map_nil, List.append_nil]
    exact h
  | cons t ts ih =>
    intro hts st f h
    rw [List.map_cons, List.flatMap_cons, List.foldlM_append, read_class hc hp (hts t (by simp)) h]
    by_cases ht : PyTable sc o t
    · rw [if_pos ht]
      show (List.foldlM readPyLine _ _).bind _ = _
      rw [ih (fun x hx => hts x (by simp [hx])) _ _ (close_class sc o t f)]
      by_cases hr : ∀ t ∈ ts, PyTable sc o t
      · rw [if_pos hr, if_pos (by intro d hd; rcases List.mem_cons.1 hd with rfl | hd; exacts [ht, hr d hd]), List.map_cons, List.append_assoc]
        rfl
      · rw [if_neg hr, if_neg (fun e => hr fun d hd => e d (by simp [hd]))]
    · rw [if_neg ht, if_neg (fun e => ht (e t (by simp)))]; rfl

end Octo.Sqlalchemy
