import Verif.Model.DiffOut
import Verif.Lemmas.DiffOut

/-! The author and the suffix for unique constraints do not change the differences apart from the author of change sets and the
names of unique constraints, which are not written to SQL and markdown. -/

namespace Octo

/-- A change without the name of the unique constraint. -/
def Change.strip : Change → Change
  | .dropUnique _ t => .dropUnique [] t
  | .createUnique _ t => .createUnique [] t
  | c => c

/-- A change set without author and names of unique constraints. -/
def ChangeSet.strip (cs : ChangeSet) : ChangeSet := ⟨cs.id, [], cs.changes.map Change.strip⟩

/-- The same apart from authors and names. -/
def DState.Sim (s t : DState) : Prop := s.id = t.id ∧ s.out.map ChangeSet.strip = t.out.map ChangeSet.strip

theorem DState.Sim.rfl' (s : DState) : s.Sim s := ⟨rfl, rfl⟩

theorem sim_emit {a b : Str} {c d : List Change} (hc : c.map Change.strip = d.map Change.strip) {s t : DState} (h : s.Sim t) :
    (emit a c s).Sim (emit b d t) := by
  refine ⟨by show s.id.bumpMinor = t.id.bumpMinor; rw [h.1], ?_⟩
  show (s.out ++ [_]).map _ = (t.out ++ [_]).map _
  rw [List.map_append, List.map_append, h.2, h.1, List.map_singleton, List.map_singleton]
  unfold ChangeSet.strip; simp only; rw [hc]

theorem sim_emitIf {a b : Str} {c d : List Change} (hc : c.map Change.strip = d.map Change.strip) (x : Bool) {s t : DState} (h : s.Sim t) :
    (emitIf x a c s).Sim (emitIf x b d t) := by
  unfold emitIf; split
  · exact sim_emit hc h
  · exact h

theorem sim_diffColumn (a b : Str) (t : Table) (c o : Column) (uc : Bool) {s s' : DState} (h : s.Sim s') :
    (diffColumn a t c o uc s).Sim (diffColumn b t c o uc s') := by
  unfold diffColumn
  exact sim_emitIf rfl _ (sim_emitIf rfl _ (sim_emitIf rfl _ (sim_emitIf rfl _ (sim_emitIf rfl _ (sim_emitIf rfl _ h)))))

theorem sim_colLoop (a b : Str) (t o : Table) (uc : Bool) {s s' : DState} (h : s.Sim s') :
    (colLoop a t o uc s).st.Sim (colLoop b t o uc s').st ∧ (colLoop a t o uc s).added = (colLoop b t o uc s').added ∧
      (colLoop a t o uc s).removed = (colLoop b t o uc s').removed := by
  unfold colLoop
  have key : ∀ (cs : List Column) (l l' : ColLoop), l.st.Sim l'.st ∧ l.added = l'.added ∧ l.removed = l'.removed →
      (cs.foldl (colStep a t o uc) l).st.Sim (cs.foldl (colStep b t o uc) l').st ∧
      (cs.foldl (colStep a t o uc) l).added = (cs.foldl (colStep b t o uc) l').added ∧
      (cs.foldl (colStep a t o uc) l).removed = (cs.foldl (colStep b t o uc) l').removed := by
    intro cs
    induction cs with
    | nil => exact fun l l' h => h
    | cons c cs ih =>
      intro l l' h
      refine ih _ _ ?_
      unfold colStep
      split
      · exact ⟨h.1, by simp only [h.2.1], h.2.2⟩
      · exact ⟨sim_diffColumn a b t c _ uc h.1, h.2.1, by simp only [h.2.2]⟩
  exact key _ _ _ ⟨h, rfl, rfl⟩

theorem sim_foldl {α : Type} {f g : DState → α → DState} (hfg : ∀ x s t, DState.Sim s t → (f s x).Sim (g t x)) :
    ∀ (l : List α) {s t : DState}, s.Sim t → (l.foldl f s).Sim (l.foldl g t)
  | [], _, _, h => h
  | x :: l, _, _, h => sim_foldl hfg l (hfg x _ _ h)

theorem sim_diffTable (sched : List (Column × Column) → List (Column × Column)) (a b : Str) (t o : Table) (uc : Bool) (x y : Str)
    (id : ChangeSetID) : (diffTable sched a t o uc x id).Sim (diffTable sched b t o uc y id) := by
  unfold diffTable
  have hl := sim_colLoop a b t o uc (sim_emitIf (a := a) (b := b) (c := [.setTableComment t]) rfl
    (uc && t.description != o.description) (DState.Sim.rfl' ⟨id, []⟩))
  simp only
  rw [hl.2.1, hl.2.2]
  refine sim_emitIf (c := [.createUnique (t.name ++ x) t]) (d := [.createUnique (t.name ++ y) t]) rfl _ (sim_emitIf rfl _ ?_)
  have hsim := sim_foldl (f := fun s p => emit a [Change.renameColumn t p.2 p.1] s) (g := fun s p => emit b [Change.renameColumn t p.2 p.1] s)
    (fun p s s' h => sim_emit rfl h)
    (sched (renamedPairs (findRenames o.columnNameMap (fun a b => a.isRenamed b (!uc))
      (colLoop b t o uc (emitIf (uc && t.description != o.description) b [.setTableComment t] ⟨id, []⟩)).added
      (colLoop b t o uc (emitIf (uc && t.description != o.description) b [.setTableComment t] ⟨id, []⟩)).removed).1))
    (sim_foldl (f := fun s n => emit a [Change.dropColumn t n] s) (g := fun s n => emit b [Change.dropColumn t n] s)
      (fun p s s' h => sim_emit rfl h)
      (findRenames o.columnNameMap (fun a b => a.isRenamed b (!uc))
      (colLoop b t o uc (emitIf (uc && t.description != o.description) b [.setTableComment t] ⟨id, []⟩)).added
      (colLoop b t o uc (emitIf (uc && t.description != o.description) b [.setTableComment t] ⟨id, []⟩)).removed).2.slice
      (sim_emitIf (a := a) (b := b) (c := [.dropUnique (t.name ++ x) o]) (d := [.dropUnique (t.name ++ y) o]) rfl
        (!t.uniqueKeyNameSet.equals o.uniqueKeyNameSet && decide (o.uniqueKeyNameSet.size > 0)) hl.1))
  split
  · exact ⟨by simp only [hsim.1], hsim.2⟩
  · exact hsim

theorem sim_getDiff {p q : DiffOption} (h1 : p.tableFilter = q.tableFilter) (h2 : p.diffFrom = q.diffFrom) (h3 : p.diffTo = q.diffTo)
    (h4 : p.useComments = q.useComments) (sched : Sched) :
    (getDiff p sched).map ChangeSet.strip = (getDiff q sched).map ChangeSet.strip := by
  obtain ⟨f, a, b, au, x, uc⟩ := p
  obtain ⟨f', a', b', au', x', uc'⟩ := q
  simp only at h1 h2 h3 h4
  subst h1 h2 h3 h4
  unfold getDiff
  simp only
  generalize (if au ≠ [] then au else b.author) = A
  generalize (if au' ≠ [] then au' else b.author) = B
  have key : ∀ (ts : List (Table × Nat)) (l l' : TabLoop), l.st.Sim l'.st ∧ l.added = l'.added ∧ l.removed = l'.removed →
      (ts.foldl (tabStep ⟨f, a, b, au, x, uc⟩ sched A) l).st.Sim (ts.foldl (tabStep ⟨f, a, b, au', x', uc⟩ sched B) l').st ∧
      (ts.foldl (tabStep ⟨f, a, b, au, x, uc⟩ sched A) l).added = (ts.foldl (tabStep ⟨f, a, b, au', x', uc⟩ sched B) l').added ∧
      (ts.foldl (tabStep ⟨f, a, b, au, x, uc⟩ sched A) l).removed = (ts.foldl (tabStep ⟨f, a, b, au', x', uc⟩ sched B) l').removed := by
    intro ts
    induction ts with
    | nil => exact fun l l' h => h
    | cons t ts ih =>
      intro l l' h
      refine ih _ _ ?_
      unfold tabStep
      simp only
      split
      · exact h
      · split
        · exact ⟨h.1, by simp only [h.2.1], by simp only [h.2.2]⟩
        · rename_i o _
          have hs := sim_diffTable (sched.columns t.2) A B t.1 o uc x x' l.st.id.bumpMajor
          rw [h.1.1] at hs
          have hlen := congrArg List.length hs.2
          rw [List.length_map, List.length_map] at hlen
          refine ⟨?_, h.2.1, by simp only [h.2.2]⟩
          rw [h.1.1]
          simp only [hlen]
          split
          · exact ⟨hs.1, by simp only [List.map_append, h.1.2, hs.2]⟩
          · exact ⟨by simp only [hs.1], h.1.2⟩
  have hk := key b.tables.zipIdx
    { st := ⟨{}, []⟩, added := [], removed := StringSet.ofList (a.tables.map (·.name)) } _ ⟨DState.Sim.rfl' _, rfl, rfl⟩
  rw [hk.2.1, hk.2.2]
  refine (sim_foldl (fun t s s' h => ?_) _ (sim_foldl (fun t s s' h => ?_) _ (sim_foldl (fun t s s' h => ?_) _ hk.1))).2
  · unfold createStep
    simp only
    rw [h.1]
    exact ⟨rfl, by simp only [List.map_append, h.2]; rfl⟩
  · unfold renameStep
    simp only
    rw [h.1]
    refine sim_emitIf (c := [.createUnique (t.1.name ++ x) t.1]) (d := [.createUnique (t.1.name ++ x') t.1]) rfl _ (sim_emit rfl ⟨rfl, ?_⟩)
    simp only
    split
    · simp only [List.map_append, h.2]; rfl
    · exact h.2
  · unfold dropStep
    simp only
    split
    · exact h
    · rw [h.1]
      exact ⟨rfl, by simp only [List.map_append, h.2]; rfl⟩

/-! ### Writers -/

theorem toSQL_strip (x : Str) (c : Change) : toSQL x c.strip = toSQL x c := by cases c <;> rfl

theorem depTable_strip (c : Change) : c.strip.depTable = c.depTable := by cases c <;> rfl

theorem toMarkdownLine_strip (c : Change) : toMarkdownLine c.strip = toMarkdownLine c := by cases c <;> rfl

theorem flyway_strip (x : Str) (l : List ChangeSet) : flyway x (l.map ChangeSet.strip) = flyway x l := by
  unfold flyway
  rw [List.flatMap_map]
  refine congrArg (fun f => List.flatMap f l) (funext fun cs => ?_)
  show (cs.changes.map Change.strip).flatMap _ ++ _ = _
  rw [List.flatMap_map]
  simp only [toSQL_strip]

theorem get_strip (st : List (Str × List Change)) (k : Str) :
    MultiMap.get ⟨st.map fun p => (p.1, p.2.map Change.strip)⟩ k = (MultiMap.get ⟨st⟩ k).map (List.map Change.strip) := by
  induction st with
  | nil => rfl
  | cons p st ih =>
    obtain ⟨k', vs⟩ := p
    unfold MultiMap.get at ih ⊢
    simp only [List.map_cons, List.lookup_cons]
    by_cases h : k = k'
    · subst h; simp only [beq_self_eq_true, Option.map_some]
    · have hb : (instBEqOfDecidableEq : BEq Str).beq k k' = false := decide_eq_false h
      simp only [hb]; exact ih

theorem byTable_strip (l : List Change) : (byTable (l.map Change.strip)).store = (byTable l).store.map fun p => (p.1, p.2.map Change.strip) := by
  unfold byTable
  rw [List.foldl_map]
  have hset : ∀ (st : List (Str × List Change)) (k : Str) (v : List Change),
      MultiMap.setKey (st.map fun p => (p.1, p.2.map Change.strip)) k (v.map Change.strip) =
      (MultiMap.setKey st k v).map fun p => (p.1, p.2.map Change.strip) := by
    intro st k v
    induction st with
    | nil => rfl
    | cons p st ih =>
      obtain ⟨k', vs⟩ := p
      rw [List.map_cons, MultiMap.setKey, MultiMap.setKey]
      split
      · rfl
      · rw [ih]; rfl
  have key : ∀ (l : List Change) (m m' : MultiMap Str Change), m'.store = m.store.map (fun p => (p.1, p.2.map Change.strip)) →
      (l.foldl (fun (m : MultiMap Str Change) c => m.put c.strip.depTable.name c.strip) m').store =
      ((l.foldl (fun (m : MultiMap Str Change) c => m.put c.depTable.name c) m).store).map fun p => (p.1, p.2.map Change.strip) := by
    intro l
    induction l with
    | nil => exact fun m m' h => h
    | cons c l ih =>
      intro m m' h
      refine ih _ _ ?_
      obtain ⟨st⟩ := m
      obtain ⟨st'⟩ := m'
      simp only at h
      subst h
      show MultiMap.setKey _ c.strip.depTable.name ((MultiMap.get ⟨_⟩ c.strip.depTable.name).getD [] ++ [c.strip]) = _
      rw [get_strip, depTable_strip]
      have : ((MultiMap.get ⟨st⟩ c.depTable.name).map (List.map Change.strip)).getD [] ++ [c.strip] =
          ((MultiMap.get ⟨st⟩ c.depTable.name).getD [] ++ [c]).map Change.strip := by
        cases MultiMap.get ⟨st⟩ c.depTable.name with
        | none => rfl
        | some v => simp only [Option.map_some, Option.getD_some, List.map_append, List.map_singleton]
      rw [this, hset]
      rfl
  exact key l _ _ rfl

theorem markdown_strip (ord : List Str → List Str) (f t : Str) (l : List ChangeSet) : markdown ord f t (l.map ChangeSet.strip) = markdown ord f t l := by
  unfold markdown
  simp only [byTable_eq]
  have e : (l.map ChangeSet.strip).flatMap (·.changes) = (l.flatMap (·.changes)).map Change.strip := by
    rw [List.flatMap_map, List.map_flatMap]; rfl
  rw [e]
  have hs := byTable_strip (l.flatMap (·.changes))
  have hk : (byTable ((l.flatMap (·.changes)).map Change.strip)).keys ord = (byTable (l.flatMap (·.changes))).keys ord := by
    unfold MultiMap.keys; rw [hs, List.map_map]; rfl
  have hg : ∀ k, ((byTable ((l.flatMap (·.changes)).map Change.strip)).get k).getD [] =
      (((byTable (l.flatMap (·.changes))).get k).getD []).map Change.strip := by
    intro k
    have e' : byTable ((l.flatMap (·.changes)).map Change.strip) = ⟨(byTable (l.flatMap (·.changes))).store.map fun p => (p.1, p.2.map Change.strip)⟩ := by
      rw [← hs]
    rw [e', get_strip]
    cases MultiMap.get ⟨(byTable (l.flatMap (·.changes))).store⟩ k <;> rfl
  rw [hk]
  congr 1
  refine congrArg (fun f => List.flatMap f _) (funext fun k => ?_)
  rw [hg, List.flatMap_map]
  simp only [toMarkdownLine_strip]

/-- SQL scripts do not depend on author and suffix of the differences. -/
theorem flyway_getDiff {p q : DiffOption} (h1 : p.tableFilter = q.tableFilter) (h2 : p.diffFrom = q.diffFrom) (h3 : p.diffTo = q.diffTo)
    (h4 : p.useComments = q.useComments) (sched : Sched) (x : Str) : flyway x (getDiff p sched) = flyway x (getDiff q sched) := by
  rw [← flyway_strip, sim_getDiff h1 h2 h3 h4, flyway_strip]

/-- Markdown documents do not depend on author and suffix. -/
theorem markdown_getDiff {p q : DiffOption} (h1 : p.tableFilter = q.tableFilter) (h2 : p.diffFrom = q.diffFrom) (h3 : p.diffTo = q.diffTo)
    (h4 : p.useComments = q.useComments) (sched : Sched) (ord : List Str → List Str) (f t : Str) :
    markdown ord f t (getDiff p sched) = markdown ord f t (getDiff q sched) := by
  rw [← markdown_strip, sim_getDiff h1 h2 h3 h4, markdown_strip]

end Octo
