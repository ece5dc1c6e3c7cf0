import Verif.Props.Sqlalchemy

/-! Exact conditions for what the names of SQLAlchemy files stand for. -/

namespace Octo
open Spec

open Sqlalchemy

/-! ### C98: what the names stand for -/

theorem memberScope_hit {n : Str} : ∀ (ms : List PyMember) (s : PyScope), n ∈ boundNames ms → (memberScope s ms).lookup n = some .attribute := by
  intro ms
  induction ms with
  | nil => intro s h; cases h
  | cons m ms ih =>
    intro s h
    by_cases hm : n ∈ boundNames ms
    · exact ih _ hm
    · show (memberScope (memberBinds m ++ s) ms).lookup n = _
      rw [memberScope_skip _ _ hm]
      have h' : n ∈ (memberBinds m).map Prod.fst := by
        unfold boundNames at h hm
        rw [List.flatMap_cons] at h
        exact (List.mem_append.1 h).resolve_right hm
      cases m with
      | assign x e =>
        rw [List.mem_singleton.1 h']
        exact List.lookup_cons_self
      | expr e => cases h'
      | code l => cases h'

theorem classScope_hit {n : Str} {base : Str} : ∀ (ks : List PyClass) (s : PyScope), (∀ k ∈ ks, k.base = base) → n ∈ ks.map (·.name) →
    (fileScope s (ks.map .cls)).lookup n = some (.cls base) := by
  intro ks
  induction ks with
  | nil => intro s _ h; cases h
  | cons k ks ih =>
    intro s hb h
    show (fileScope (stmtBinds (.cls k) ++ s) (ks.map .cls)).lookup n = _
    by_cases hm : n ∈ ks.map (·.name)
    · exact ih _ (fun k hk => hb k (List.mem_cons_of_mem _ hk)) hm
    · rw [classScope_skip _ _ (fun k hk e => hm (List.mem_map.2 ⟨k, hk, e⟩))]
      have h' : n = k.name := by
        rcases List.mem_cons.1 h with h | h
        · exact h
        · exact absurd h hm
      rw [h', ← hb k List.mem_cons_self]
      exact List.lookup_cons_self

theorem origins_clean : ∀ p ∈ saOrigins, p.2 ≠ .attribute ∧ p.2 ≠ .cls "Base"ₛ := by decide +kernel

theorem origin_not {n : Str} : saOrigins.lookup n ≠ some .attribute ∧ saOrigins.lookup n ≠ some (.cls "Base"ₛ) :=
  ⟨fun e => (origins_clean _ (Ojson.lookup_mem' e)).1 rfl, fun e => (origins_clean _ (Ojson.lookup_mem' e)).2 rfl⟩

theorem uniqueMember_uses {sc : Strcase} {o : SaOption} {s : Schema} (hp : PlainSa sc o s) {t : Table} (ht : t ∈ s.tables) :
    memberUses (uniqueMember sc o t) = ["UniqueConstraint"ₛ] := by
  have e1 : atomUses "UniqueConstraint"ₛ = ["UniqueConstraint"ₛ] := by decide +kernel
  show atomUses "UniqueConstraint"ₛ ++ List.flatMap _ _ = _
  rw [e1, List.flatMap_eq_nil_iff.2]
  · rfl
  · intro a ha
    rcases List.mem_append.1 ha with ha | ha
    · obtain ⟨c, hc, rfl⟩ := List.mem_map.1 ha
      exact atomUses_quoted (plain_ident (by decide) (ident_attribute (hp.columns t ht c (List.mem_filter.1 hc).1).2))
    · rw [List.mem_singleton.1 ha]
      exact atomUses_quoted (plain_append (hp.tables t ht).1 hp.suffix)

/-- What a column refers to in a file. -/
def SaRefers (o : SaOption) (c : Column) (n : Str) : Prop :=
  n = "Column"ₛ ∨ saTypeName o c = some n ∨ n = "datetime"ₛ ∧ lower c.type = "datetime"ₛ ∧ (c.name = "created_at"ₛ ∨ c.name = "updated_at"ₛ)

/-- C98, exactly. In a single file, each name stands for what it should if and only if no class has a name that a later class refers
to, and no attribute has a name that a later column of its table refers to. -/
theorem C98_exact {sc : Strcase} {o : SaOption} {s : Schema} (hc : CleanCase sc) (hp : PlainSa sc o s) {out : Str}
    (h : SingleFile out) (hk : ∀ t ∈ SaSelected o s, PyTable sc o t) :
    ∃ text f, generate sc o s out = [(Jpa.pathJoin [out], text)] ∧ readPy text = some f ∧
      ((∀ p ∈ pyNames f, p.2 = saOrigins.lookup p.1) ↔ ∀ a t b, SaSelected o s = a ++ t :: b →
        "Base"ₛ ∉ a.map (saClassName sc o) ∧
        ((t.columns.filter (·.uniqueKey)).length > 1 → "UniqueConstraint"ₛ ∉ a.map (saClassName sc o)) ∧
        ∀ x c y, t.columns = x ++ c :: y → ∀ n, SaRefers o c n →
          n ∉ a.map (saClassName sc o) ∧ n ∉ x.map fun d => saAttribute sc d.name) := by
  have hts : ∀ t ∈ SaSelected o s, t ∈ s.tables := fun t ht => mem_selected ht
  obtain ⟨imports, sa, tz, hI, hS, hT, hr⟩ := read_single hc hp hts
  rw [if_pos hk] at hr
  refine ⟨_, _, generate_single h, hr, ?_⟩
  have hi : ∀ l ∈ imports, l ∈ timeImports := by
    intro l hl
    obtain ⟨t, _, h⟩ := (hI l).1 hl
    exact needs_time h
  have hs : ∀ n ∈ sa, n ∈ saImportable := by
    intro n hn
    rcases (hS n).1 hn with rfl | ⟨t, _, h⟩
    · decide +kernel
    · exact needs_importable h
  have htz : tz = true → "TypeDecorator"ₛ ∈ sa ∧ "DateTime"ₛ ∈ sa ∧ "from datetime import timezone"ₛ ∈ imports := by
    intro h
    obtain ⟨t, ht, c, hc, hC⟩ := hT.1 h
    exact ⟨(hS _).2 (Or.inr ⟨t, ht, Or.inr ⟨c, hc, Or.inr ⟨rfl, hC⟩⟩⟩),
      (hS _).2 (Or.inr ⟨t, ht, Or.inr ⟨c, hc, Or.inl (converted_type hC)⟩⟩), (hI _).2 ⟨t, ht, c, hc, Or.inr ⟨hC, rfl⟩⟩⟩
  let S0 := fileScope (headerScope imports sa) (if tz then [.cls tzClass] else [])
  have hbase : ∀ a : List Table, ∀ k ∈ a.map (pyClassOf sc o), k.base = "Base"ₛ := by
    intro a k hk
    obtain ⟨t, _, rfl⟩ := List.mem_map.1 hk
    rfl
  have hname : ∀ a : List Table, (a.map (pyClassOf sc o)).map (·.name) = a.map (saClassName sc o) := by
    intro a
    rw [List.map_map]
    rfl
  -- what a used name stands for when nothing hides it
  have hS0 : ∀ t ∈ SaSelected o s, ∀ n, ClassUses (pyClassOf sc o t) n → S0.lookup n = saOrigins.lookup n := by
    intro t ht n hu
    rcases class_resolved hp (hts t ht) hi hs (fun l hl => (hI l).2 ⟨t, ht, hl⟩) (fun m hm => (hS m).2 (Or.inr ⟨t, ht, hm⟩)) hu with
      ⟨h1, h2⟩ | ⟨h1, h2⟩ | ⟨rfl, c, hc, hC⟩
    · rw [← h1]
      show (fileScope (headerScope imports sa) (if tz then [.cls tzClass] else [])).lookup n = _
      cases tz
      · rfl
      · refine lookup_skip ?_
        show n ∉ ["TZDateTime"ₛ]
        rw [List.mem_singleton]
        rintro rfl
        rw [header_tz hi hs] at h1
        exact h2 h1.symm
    · exact absurd ((hS _).2 (Or.inl rfl)) h2
    · have htt : tz = true := hT.2 ⟨t, ht, c, hc, hC⟩
      show (fileScope (headerScope imports sa) (if tz then [.cls tzClass] else [])).lookup _ = _
      rw [htt, if_pos rfl]
      have hl : (fileScope (headerScope imports sa) [.cls tzClass]).lookup "TZDateTime"ₛ = some (.cls "TypeDecorator"ₛ) := rfl
      rw [hl]
      decide +kernel
  -- names in the scope of a class
  have hscope : ∀ a t b, SaSelected o s = a ++ t :: b → ∀ n, ClassUses (pyClassOf sc o t) n →
      ((fileScope S0 ((a.map (pyClassOf sc o)).map .cls)).lookup n = saOrigins.lookup n ↔ n ∉ a.map (saClassName sc o)) := by
    intro a t b e n hu
    constructor
    · intro he hin
      rw [classScope_hit _ _ (hbase a) (by rw [hname]; exact hin)] at he
      exact origin_not.2 he.symm
    · intro hn
      rw [classScope_skip _ _ (fun k hk e => hn (by rw [← hname]; exact List.mem_map.2 ⟨k, hk, e⟩))]
      exact hS0 t (by rw [e]; simp) n hu
  have hlook : ∀ a t b, SaSelected o s = a ++ t :: b → ∀ n, ClassUses (pyClassOf sc o t) n → ∀ ms, 
      ((memberScope (fileScope S0 ((a.map (pyClassOf sc o)).map .cls)) ms).lookup n = saOrigins.lookup n ↔
        n ∉ a.map (saClassName sc o) ∧ n ∉ boundNames ms) := by
    intro a t b e n hu ms
    by_cases hb : n ∈ boundNames ms
    · rw [memberScope_hit _ _ hb]
      exact ⟨fun e => absurd e.symm origin_not.1, fun e => absurd hb e.2⟩
    · rw [memberScope_skip _ _ hb, hscope a t b e n hu]
      exact ⟨fun h => ⟨h, hb⟩, fun h => h.1⟩
  have hhead : ∀ t : Table, boundNames (tableMember t :: (if (uniques t).length > 1 then [uniqueMember sc o t] else [])) = ["__tablename__"ₛ] := by
    intro t
    split <;> rfl
  have hcols : ∀ x : List Column, boundNames (x.map (columnMember o.useUTC sc)) = x.map fun d => saAttribute sc d.name := by
    intro x
    unfold boundNames
    induction x with
    | nil => rfl
    | cons c cs ih => rw [List.map_cons, List.flatMap_cons, ih]; rfl
  have hbound : ∀ (t : Table) (x : List Column), boundNames
      (tableMember t :: (if (uniques t).length > 1 then [uniqueMember sc o t] else []) ++ x.map (columnMember o.useUTC sc)) =
      "__tablename__"ₛ :: x.map fun d => saAttribute sc d.name := by
    intro t x
    rw [← hcols x]
    have e := hhead t
    unfold boundNames at e ⊢
    rw [List.flatMap_append, e]
    rfl
  have hmembers : ∀ t : Table, (pyClassOf sc o t).members =
      tableMember t :: (if (uniques t).length > 1 then [uniqueMember sc o t] else []) ++ t.columns.map (columnMember o.useUTC sc) :=
    fun _ => rfl
  have hunder : ∀ c : Column, ∀ n, SaRefers o c n → n ≠ "__tablename__"ₛ := by
    intro c n hn e
    subst e
    rcases hn with hn | hn | ⟨hn, _⟩
    · exact absurd hn (by decide)
    · have : "__tablename__"ₛ ∉ saTypeNames := by decide +kernel
      apply this
      unfold saTypeName at hn
      unfold saTypeNames
      split at hn
      · rw [← Option.some.inj hn]; exact List.mem_cons_self
      · exact List.mem_cons_of_mem _ (saType_mem hn)
    · exact absurd hn (by decide)
  constructor
  · intro hall a t b e
    have ht : t ∈ SaSelected o s := by rw [e]; simp
    have hmem : ∀ n r, (n, r) ∈ stmtNames (fileScope S0 ((a.map (pyClassOf sc o)).map .cls)) (.cls (pyClassOf sc o t)) →
        r = saOrigins.lookup n := by
      intro n r hn
      refine hall (n, r) (file_names.2 (.inr (.inr ⟨a.map (pyClassOf sc o), pyClassOf sc o t, b.map (pyClassOf sc o), ?_, hn⟩)))
      rw [e, List.map_append, List.map_cons]
    refine ⟨?_, fun hu => ?_, ?_⟩
    · exact (hscope a t b e "Base"ₛ (Or.inl rfl)).1 (hmem _ _ List.mem_cons_self)
    · have huse : ClassUses (pyClassOf sc o t) "UniqueConstraint"ₛ := (class_uses hp (hts t ht) _).2 (.inr (.inl ⟨rfl, hu⟩))
      have hin : "UniqueConstraint"ₛ ∈ memberUses (uniqueMember sc o t) :=
        List.mem_append_left _ (by decide +kernel : "UniqueConstraint"ₛ ∈ atomUses "UniqueConstraint"ₛ)
      refine ((hlook a t b e _ huse [tableMember t]).1 (hmem _ _ (List.mem_cons_of_mem _ ((mem_memberNames _ _).2
        ⟨[tableMember t], uniqueMember sc o t, t.columns.map (columnMember o.useUTC sc), ?_, hin, rfl⟩)))).1
      rw [hmembers, if_pos (show (uniques t).length > 1 from hu)]
      rfl
    · intro x c y ec n hn
      have hcm : c ∈ t.columns := by rw [ec]; simp
      have huse : ClassUses (pyClassOf sc o t) n := (class_uses hp (hts t ht) _).2 (.inr (.inr ⟨c, hcm, hn⟩))
      have hin : n ∈ memberUses (columnMember o.useUTC sc c) := (column_uses (hp.columns t (hts t ht) c hcm).1 n).2 hn
      have := (hlook a t b e _ huse _).1 (hmem _ _ (List.mem_cons_of_mem _ ((mem_memberNames _ _).2
        ⟨tableMember t :: (if (uniques t).length > 1 then [uniqueMember sc o t] else []) ++ x.map (columnMember o.useUTC sc),
          columnMember o.useUTC sc c, y.map (columnMember o.useUTC sc), by
            rw [hmembers, ec, List.map_append, List.map_cons, List.append_assoc], hin, rfl⟩)))
      rw [hbound, List.mem_cons, not_or] at this
      exact ⟨this.1, this.2.2⟩
  · intro hno
    rintro ⟨n, r⟩ hn
    show r = saOrigins.lookup n
    rcases file_names.1 hn with h | ⟨h, hn⟩ | ⟨ka, k, kb, e, hn⟩
    · rcases List.mem_cons.1 h with h | h
      · cases h; decide +kernel
      · cases List.mem_singleton.1 h; decide +kernel
    · obtain ⟨h1, h2, h3⟩ := htz h
      obtain ⟨g1, _, g3⟩ := stmtNames_uses hn
      obtain ⟨e1, e2, e3⟩ := tz_resolved hi hs h1 h2 h3 g1
      have : r = (headerScope imports sa).lookup n := g3 (by rw [tz_bound, List.mem_singleton]; exact e3)
      rw [this, e1]
    · obtain ⟨a, tb, eab, rfl, e2⟩ := List.map_eq_append_iff.1 e
      obtain ⟨t, b, rfl, rfl, rfl⟩ := List.map_eq_cons_iff.1 e2
      have ht : t ∈ SaSelected o s := by rw [eab]; simp
      obtain ⟨hB, hU, hC⟩ := hno a t b eab
      rcases List.mem_cons.1 hn with hn | hn
      · cases hn
        exact (hscope a t b eab "Base"ₛ (Or.inl rfl)).2 hB
      · obtain ⟨pre, m, post, em, hu, rfl⟩ := (mem_memberNames _ _).1 hn
        have huse : ClassUses (pyClassOf sc o t) n := .inr ⟨m, by rw [em]; simp, hu⟩
        refine (hlook a t b eab n huse pre).2 ?_
        rw [hmembers] at em
        -- the member is the name of the table, the constraint, or a column
        rcases List.append_eq_append_iff.1 em with ⟨l, e1, e2⟩ | ⟨l, e1, e2⟩
        · -- the member is a column
          obtain ⟨x, cy, ec, hx, hcy⟩ := List.map_eq_append_iff.1 e2
          obtain ⟨c, y, rfl, rfl, rfl⟩ := List.map_eq_cons_iff.1 hcy
          have hcm : c ∈ t.columns := by rw [ec]; simp
          have hn' : SaRefers o c n := (column_uses (hp.columns t (hts t ht) c hcm).1 n).1 hu
          have := hC x c y ec n hn'
          rw [e1, ← hx, hbound, List.mem_cons, not_or]
          exact ⟨this.1, hunder c n hn', this.2⟩
        · cases l with
          | nil =>
            obtain ⟨c, y, ec, rfl, rfl⟩ := List.map_eq_cons_iff.1 e2.symm
            have hcm : c ∈ t.columns := by rw [ec]; simp
            have hn' : SaRefers o c n := (column_uses (hp.columns t (hts t ht) c hcm).1 n).1 hu
            have := hC [] c y ec n hn'
            rw [List.append_nil] at e1
            rw [← e1, hhead, List.mem_singleton]
            exact ⟨this.1, hunder c n hn'⟩
          | cons m' l =>
            have hm' : m = m' := (List.cons.inj e2).1
            subst hm'
            cases pre with
            | nil =>
              have : m = tableMember t := (List.cons.inj e1).1.symm
              rw [this, show memberUses (tableMember t) = [] from atomUses_quoted (hp.tables t (hts t ht)).1] at hu
              cases hu
            | cons m2 pre =>
              obtain ⟨rfl, e3⟩ := List.cons.inj e1
              by_cases hu1 : (uniques t).length > 1
              · rw [if_pos hu1] at e3
                cases pre with
                | cons _ pre => cases pre <;> cases (List.cons.inj e3).2
                | nil =>
                  have hmu : m = uniqueMember sc o t := (List.cons.inj e3).1.symm
                  have hn2 : n = "UniqueConstraint"ₛ := by
                    rw [hmu, uniqueMember_uses hp (hts t ht)] at hu
                    exact List.mem_singleton.1 hu
                  rw [hn2]
                  refine ⟨hU hu1, ?_⟩
                  show "UniqueConstraint"ₛ ∉ ["__tablename__"ₛ]
                  decide
              · rw [if_neg hu1] at e3
                cases pre <;> cases e3

/-- The demo. -/
example := C98_exact strcase_clean saSchema_plain single_example (by decide +kernel)

end Octo
