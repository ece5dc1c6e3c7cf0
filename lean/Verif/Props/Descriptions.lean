import Verif.Spec.Descriptions
import Mathlib.Data.List.Forall2

/-! C134: without comments, descriptions do not reach the changelogs. -/

namespace Octo

open Lq Spec

/-! ## Columns -/

theorem Spec.SameColumnBut.name {c c' : Column} (h : SameColumnBut c c') : c'.name = c.name := by
  rw [show c' = _ from h.same]

theorem Spec.SameColumnBut.pk {c c' : Column} (h : SameColumnBut c c') : c'.primaryKey = c.primaryKey := by
  rw [show c' = _ from h.same]

theorem Spec.SameColumnBut.uq {c c' : Column} (h : SameColumnBut c c') : c'.uniqueKey = c.uniqueKey := by
  rw [show c' = _ from h.same]

theorem Spec.SameColumnBut.nn {c c' : Column} (h : SameColumnBut c c') : c'.notNull = c.notNull := by
  rw [show c' = _ from h.same]

theorem Spec.SameColumnBut.dv {c c' : Column} (h : SameColumnBut c c') : c'.defaultValue = c.defaultValue := by
  rw [show c' = _ from h.same]

theorem Spec.SameColumnBut.type {c c' : Column} (h : SameColumnBut c c') : getLiquibaseType c' = getLiquibaseType c := by
  rw [show c' = _ from h.same]; rfl

theorem Spec.SameColumnBut.lqColumn {c c' : Column} (h : SameColumnBut c c') (pf : Str → Option Str) (a b : Bool) :
    (newLqColumn pf c' a b).map (stripRemarks false) = (newLqColumn pf c a b).map (stripRemarks false) := by
  obtain ⟨_, _, _, _, _, _, _, _, _, _, _, _, _⟩ := c
  rw [show c' = _ from h.same]
  unfold newLqColumn
  simp only [newLqDefaultValue]
  split
  · rw [Option.map_map, Option.map_map]; rfl
  · rfl

theorem Spec.SameColumnBut.diff {c c' o o' : Column} (h : SameColumnBut c c') (ho : SameColumnBut o o')
    (pf : Str → Option Str) (author : Str) {t t' : Table} (ht : t'.name = t.name) (s : LqState) :
    Lq.diffColumn pf author t' c' o' false s = Lq.diffColumn pf author t c o false s := by
  rw [show c' = _ from h.same, show o' = _ from ho.same]
  unfold Lq.diffColumn newAddDefaultValue
  rw [ht]
  rfl

theorem Spec.SameColumnBut.renamed {c c' o o' : Column} (h : SameColumnBut c c') (ho : SameColumnBut o o') :
    c'.isRenamed o' (!false) = c.isRenamed o (!false) := by
  rw [show c' = _ from h.same, show o' = _ from ho.same]
  rfl

/-! ## Lists -/

theorem same_names {l l' : List Column} (h : List.Forall₂ SameColumnBut l l') : l'.map (·.name) = l.map (·.name) := by
  induction h with
  | nil => rfl
  | cons h _ ih => simp only [List.map_cons, ih, h.name]

theorem same_nameSet {p : Column → Bool} (hp : ∀ c c', SameColumnBut c c' → p c' = p c) {l l' : List Column}
    (h : List.Forall₂ SameColumnBut l l') (s : StringSet) :
    l'.foldl (fun s c => if p c then s.add c.name else s) s =
      l.foldl (fun s c => if p c then s.add c.name else s) s := by
  induction h generalizing s with
  | nil => rfl
  | cons h _ ih => simp only [List.foldl_cons, h.name, hp _ _ h, ih]

theorem Spec.SameTableBut.pkSet {g : Str → Str} {t t' : Table} (h : SameTableBut g t t') :
    t'.primaryKeyNameSet = t.primaryKeyNameSet := same_nameSet (fun _ _ h => h.pk) h.columns _

theorem Spec.SameTableBut.uqSet {g : Str → Str} {t t' : Table} (h : SameTableBut g t t') :
    t'.uniqueKeyNameSet = t.uniqueKeyNameSet := same_nameSet (fun _ _ h => h.uq) h.columns _

theorem same_find {α : Type} {r : α → α → Prop} {p p' : α → Bool} (hp : ∀ a a', r a a' → p' a' = p a)
    {l l' : List α} (h : List.Forall₂ r l l') : Option.Rel r (l.find? p) (l'.find? p') := by
  induction h with
  | nil => exact .none
  | @cons a a' _ _ h _ ih =>
    simp only [List.find?_cons, hp _ _ h]
    cases p a
    · exact ih
    · exact .some h

theorem same_lastBy {α : Type} {r : α → α → Prop} {key : α → Str} (hk : ∀ a a', r a a' → key a' = key a)
    {l l' : List α} (h : List.Forall₂ r l l') (k : Str) : Option.Rel r (lastBy key l k) (lastBy key l' k) :=
  same_find (fun a a' h => by rw [hk a a' h]) (List.rel_reverse h)

theorem same_mapM {α α' β : Type} {r : α → α' → Prop} {f : α → Option β} {f' : α' → Option β} {l : List α}
    {l' : List α'} (h : List.Forall₂ r l l') (hf : ∀ a a', a ∈ l → r a a' → f' a' = f a) :
    l'.mapM f' = l.mapM f := by
  induction h with
  | nil => rfl
  | cons h _ ih =>
    simp only [List.mapM_cons, hf _ _ List.mem_cons_self h,
      ih (fun a a' ha => hf a a' (List.mem_cons_of_mem _ ha))]

/-! ## Change sets up to the remarks of tables -/

/-- States with the same counter and the same change sets up to `g`. -/
def SameState (g : Str → Str) (s s' : LqState) : Prop := s'.id = s.id ∧ setsBy g s'.out = setsBy g s.out

theorem setsBy_append (g : Str → Str) (a b : List LqChangeSet) : setsBy g (a ++ b) = setsBy g a ++ setsBy g b :=
  List.map_append

theorem SameState.emitPre {g : Str → Str} {s s' : LqState} (h : SameState g s s') (author : Str) (pre : Bool)
    {cs cs' : List LqChange} (hc : cs'.map (remarksBy g) = cs.map (remarksBy g)) :
    SameState g (Lq.emitPre author pre cs s) (Lq.emitPre author pre cs' s') := by
  refine ⟨?_, ?_⟩
  · show s'.id.bumpMinor = s.id.bumpMinor
    rw [h.1]
  · show setsBy g (s'.out ++ _) = setsBy g (s.out ++ _)
    rw [setsBy_append, setsBy_append, h.2, h.1]
    unfold setsBy
    simp only [List.map_cons, List.map_nil, hc]

theorem SameState.emit {g : Str → Str} {s s' : LqState} (h : SameState g s s') (author : Str)
    {cs cs' : List LqChange} (hc : cs'.map (remarksBy g) = cs.map (remarksBy g)) :
    SameState g (Lq.emit author cs s) (Lq.emit author cs' s') := h.emitPre author false hc

theorem SameState.emitIf {g : Str → Str} {s s' : LqState} (h : SameState g s s') {b b' : Bool} (hb : b' = b)
    (author : Str) {cs cs' : List LqChange} (hc : cs'.map (remarksBy g) = cs.map (remarksBy g)) :
    SameState g (Lq.emitIf b author cs s) (Lq.emitIf b' author cs' s') := by
  rw [hb]
  unfold Lq.emitIf
  split
  · exact h.emit author hc
  · exact h

theorem SameState.foldl {g : Str → Str} {α α' : Type} {r : α → α' → Prop} {f : LqState → α → LqState}
    {f' : LqState → α' → LqState} (hf : ∀ s s' a a', SameState g s s' → r a a' → SameState g (f s a) (f' s' a'))
    {l : List α} {l' : List α'} (h : List.Forall₂ r l l') {s s' : LqState} (hs : SameState g s s') :
    SameState g (l.foldl f s) (l'.foldl f' s') := by
  induction h generalizing s s' with
  | nil => exact hs
  | cons h _ ih => exact ih (hf _ _ _ _ hs h)

theorem same_foldlM {σ σ' α α' : Type} {q : σ → σ' → Prop} {r : α → α' → Prop} {f : σ → α → Option σ}
    {f' : σ' → α' → Option σ'}
    {l : List α} {l' : List α'} (h : List.Forall₂ r l l')
    (hf : ∀ s s' a a', a ∈ l → q s s' → r a a' → Option.Rel q (f s a) (f' s' a')) {s : σ} {s' : σ'} (hs : q s s') :
    Option.Rel q (l.foldlM f s) (l'.foldlM f' s') := by
  induction h generalizing s s' with
  | nil => exact .some hs
  | @cons a a' l l' h _ ih =>
    simp only [List.foldlM_cons]
    have hq := hf _ _ _ _ List.mem_cons_self hs h
    revert hq
    generalize f s a = x
    generalize f' s' a' = x'
    intro hq
    cases hq with
    | none => exact .none
    | some hq => exact ih (fun _ _ _ _ ha => hf _ _ _ _ (List.mem_cons_of_mem _ ha)) hq

theorem rel_map {α α' β β' : Type} {r : α → α' → Prop} {q : β → β' → Prop} {f : α → β} {f' : α' → β'}
    (hf : ∀ a a', r a a' → q (f a) (f' a')) {x : Option α} {x' : Option α'} (h : Option.Rel r x x') :
    Option.Rel q (x.map f) (x'.map f') := by
  cases h with
  | none => exact .none
  | some h => exact .some (hf _ _ h)

/-! ## Created tables -/

theorem same_created {g : Str → Str} {t t' : Table} (h : SameTableBut g t t') (pf : Str → Option Str)
    (author suffix : Str) {s s' : LqState} (hs : SameState g s s') :
    Option.Rel (SameState g) (createTableSets pf author t suffix false s)
      (createTableSets pf author t' suffix false s') := by
  unfold createTableSets
  simp only
  rw [h.pkSet, h.uqSet, h.name, same_mapM h.columns (fun c c' _ hc => hc.lqColumn pf _ _)]
  generalize (t.columns.mapM _ : Option _) = x
  cases x with
  | none => exact .none
  | some lcs =>
    refine .some ?_
    have h1 : SameState g (Lq.emit author [.createTable t.name t.description lcs] s)
        (Lq.emit author [.createTable t.name t'.description lcs] s') :=
      hs.emit author (by simp only [List.map_cons, List.map_nil, remarksBy, h.description])
    have h2 := h1.emitIf (b := decide (t.primaryKeyNameSet.size ≥ 2)) rfl author
      (cs := [.addPrimaryKey t.name (t.primaryKeyNameSet.joinKeys ", "ₛ)]) rfl
    show SameState g (ite _ _ _) (ite _ _ _)
    split
    · exact h2.emitPre author _ rfl
    · exact h2

theorem same_bumpMajor {g : Str → Str} {s s' : LqState} (h : SameState g s s') :
    SameState g ⟨s.id.bumpMajor, s.out⟩ ⟨s'.id.bumpMajor, s'.out⟩ :=
  ⟨by show s'.id.bumpMajor = s.id.bumpMajor; rw [h.1], h.2⟩

theorem rel_setsBy {g : Str → Str} {x x' : Option LqState} (h : Option.Rel (SameState g) x x') :
    (x'.map (·.out)).map (setsBy g) = (x.map (·.out)).map (setsBy g) := by
  cases h with
  | none => rfl
  | some h => exact congrArg some h.2

theorem mem_zip_of_forall₂ {α β : Type} {r : α → β → Prop} {l : List α} {l' : List β} (h : List.Forall₂ r l l') :
    List.Forall₂ (fun a b => r a b ∧ (a, b) ∈ l.zip l') l l' := by
  rw [List.forall₂_iff_zip] at h ⊢
  refine ⟨h.1, fun hm => ⟨h.2 hm, hm⟩⟩

/-- **C134** (the part that holds, `generate liquibase`): without comments, the changelogs of two schemas that
differ only in descriptions are the same, except for the remarks of the created tables; they are the same
(`g = id`) when the descriptions of the tables agree. -/
theorem C134_generate_partial (g : Str → Str) (pf : Str → Option Str) (opt opt' : GenOption) (s s' : Schema)
    (hs : SameSchemaBut g s s') (hf : SameFilter g s s' opt.tableFilter opt'.tableFilter)
    (hu : opt'.uniqueNameSuffix = opt.uniqueNameSuffix) (hc : opt.useComments = false)
    (hc' : opt'.useComments = false) :
    (generateAll pf opt' s').map (setsBy g) = (generateAll pf opt s).map (setsBy g) := by
  unfold generateAll
  refine rel_setsBy (same_foldlM (mem_zip_of_forall₂ hs.tables) ?_ ⟨rfl, rfl⟩)
  intro a a' t t' _ ha ht
  unfold genStep
  rw [hs.author, ← hf _ ht.2 ht.1, hc, hc', hu]
  split
  · exact .some ha
  · exact same_created ht.1 pf _ _ (same_bumpMajor ha)

/-! ## The diff -/

/-- Pairs of related entries. -/
def SamePair {α : Type} (P r : α → α → Prop) (p p' : α × Option α) : Prop := P p.1 p'.1 ∧ Option.Rel r p.2 p'.2

theorem same_findRenames {α : Type} {r : α → α → Prop} {get get' : Str → Option α}
    (hg : ∀ n, Option.Rel r (get n) (get' n)) {m : α → α → Bool} {P : α → α → Prop} {l l' : List α}
    (hP : List.Forall₂ P l l')
    (hm : ∀ a a' b b' n, P a a' → get n = some b → get' n = some b' → m a' b' = m a b)
    (removed : StringSet) :
    List.Forall₂ (SamePair P r) (findRenames get m l removed).1 (findRenames get' m l' removed).1 ∧
      (findRenames get' m l' removed).2 = (findRenames get m l removed).2 := by
  induction hP generalizing removed with
  | nil => exact ⟨.nil, rfl⟩
  | @cons a a' l l' h _ ih =>
    have ht : renameTest get' m a' = renameTest get m a := by
      funext n
      unfold renameTest
      have hn := hg n
      cases hb : get n with
      | none =>
        cases hb' : get' n with
        | none => rfl
        | some b' => rw [hb, hb'] at hn; cases hn
      | some b =>
        cases hb' : get' n with
        | none => rw [hb, hb'] at hn; cases hn
        | some b' => exact hm a a' b b' n h hb hb'
    unfold findRenames
    rw [ht]
    cases removed.slice.find? (renameTest get m a) with
    | none => exact ⟨.cons ⟨h, .none⟩ (ih removed).1, (ih removed).2⟩
    | some n => exact ⟨.cons ⟨h, hg n⟩ (ih _).1, (ih _).2⟩

theorem same_renamedPairs {α : Type} {P r : α → α → Prop} (hP : ∀ a a', P a a' → r a a')
    {l l' : List (α × Option α)} (h : List.Forall₂ (SamePair P r) l l') :
    List.Forall₂ (fun p p' => r p.1 p'.1 ∧ r p.2 p'.2) (renamedPairs l) (renamedPairs l') := by
  unfold renamedPairs
  induction h with
  | nil => exact .nil
  | @cons p p' _ _ h _ ih =>
    obtain ⟨a, x⟩ := p
    obtain ⟨a', x'⟩ := p'
    obtain ⟨h1, h2⟩ := h
    simp only at h2
    cases h2 with
    | none => simpa only [List.filterMap_cons, Option.map_none] using ih
    | some h2 => simpa only [List.filterMap_cons, Option.map_some] using List.Forall₂.cons ⟨hP _ _ h1, h2⟩ ih

theorem same_notRenamed {α : Type} {P r : α → α → Prop} {l l' : List (α × Option α)}
    (h : List.Forall₂ (SamePair P r) l l') : List.Forall₂ P (notRenamed l) (notRenamed l') := by
  unfold notRenamed
  induction h with
  | nil => exact .nil
  | @cons p p' _ _ h _ ih =>
    obtain ⟨a, x⟩ := p
    obtain ⟨a', x'⟩ := p'
    obtain ⟨h1, h2⟩ := h
    simp only at h2
    cases h2 with
    | none => simpa [List.filterMap_cons] using ⟨h1, ih⟩
    | some h2 => simpa [List.filterMap_cons] using ih

theorem same_lastColName {col col' : Column} (hc : SameColumnBut col col') {l l' : List Column}
    (h : List.Forall₂ SameColumnBut l l') (hd : ∀ c ∈ l, c.name = col.name → c = col)
    (hd' : ∀ c ∈ l', c.name = col'.name → c = col') (last : Str) :
    lastColName col' l' last = lastColName col l last := by
  induction h generalizing last with
  | nil => rfl
  | @cons a a' l l' h _ ih =>
    unfold lastColName
    have : a' = col' ↔ a = col := by
      constructor
      · intro e
        refine hd a List.mem_cons_self ?_
        rw [← h.name, ← hc.name, e]
      · intro e
        refine hd' a' List.mem_cons_self ?_
        rw [h.name, hc.name, e]
    by_cases e : a = col
    · rw [if_pos e, if_pos (this.2 e)]
    · rw [if_neg e, if_neg (fun x => e (this.1 x)), h.name]
      exact ih (fun c hc => hd c (List.mem_cons_of_mem _ hc)) (fun c hc => hd' c (List.mem_cons_of_mem _ hc)) _

/-- Related columns of two tables. -/
def OfTables (t t' : Table) (c c' : Column) : Prop := SameColumnBut c c' ∧ c ∈ t.columns ∧ c' ∈ t'.columns

theorem same_colLoop {g : Str → Str} {t t' o o' : Table} (ht : SameTableBut g t t') (ho : SameTableBut g o o')
    (pf : Str → Option Str) (author : Str) (s : LqState) :
    Option.Rel (fun l l' : Lq.ColLoop => l'.st = l.st ∧ List.Forall₂ (OfTables t t') l.added l'.added ∧
        l'.removed = l.removed)
      (Lq.colLoop pf author t o false s) (Lq.colLoop pf author t' o' false s) := by
  have hz : List.Forall₂ (OfTables t t') t.columns t'.columns := by
    refine (mem_zip_of_forall₂ ht.columns).imp fun c c' h => ⟨h.1, ?_⟩
    exact List.of_mem_zip h.2
  unfold Lq.colLoop
  refine same_foldlM hz ?_ ⟨rfl, .nil, by show StringSet.ofList _ = StringSet.ofList _; rw [same_names ho.columns]⟩
  intro l l' c c' _ hl hc
  obtain ⟨h1, h2, h3⟩ := hl
  unfold Lq.colStep
  have hn := same_lastBy (fun _ _ h => Spec.SameColumnBut.name h) ho.columns c.name
  rw [hc.1.name]
  change Option.Rel SameColumnBut (o.columnNameMap c.name) (o'.columnNameMap c.name) at hn
  revert hn
  generalize o.columnNameMap c.name = x
  generalize o'.columnNameMap c.name = x'
  intro hn
  cases hn with
  | none => exact .some ⟨h1, List.rel_append h2 (.cons hc .nil), h3⟩
  | some hn =>
    simp only
    rw [hc.1.diff hn pf author ht.name, h1, h3]
    refine rel_map (r := Eq) ?_ ?_
    · rintro st _ rfl
      exact ⟨rfl, h2, rfl⟩
    · generalize Lq.diffColumn pf author t c _ false l.st = y
      cases y
      · exact .none
      · exact .some rfl

/-- Tables whose columns have different names. -/
def DistinctNames (t : Table) : Prop := ∀ c ∈ t.columns, ∀ c' ∈ t.columns, c.name = c'.name → c = c'

theorem same_addColumn {g : Str → Str} {t t' : Table} (ht : SameTableBut g t t') (hd : DistinctNames t)
    (hd' : DistinctNames t') (pf : Str → Option Str) {l l' : List Column} (h : List.Forall₂ (OfTables t t') l l') :
    newAddColumn pf t' l' false = newAddColumn pf t l false := by
  unfold newAddColumn
  rw [ht.name]
  congr 1
  refine same_mapM h fun c c' _ hc => ?_
  unfold newAddedColumn
  rw [same_lastColName hc.1 ht.columns (fun x hx => hd x hx c hc.2.1) (fun x hx => hd' x hx c' hc.2.2)]
  have := hc.1.lqColumn pf true true
  have e : ∀ x : Option LqColumn, x.map (fun lc =>
      { stripRemarks false lc with afterColumn := lastColName c t.columns [] }) =
      (x.map (stripRemarks false)).map fun lc => { lc with afterColumn := lastColName c t.columns [] } := by
    intro x
    rw [Option.map_map]; rfl
  rw [e, e, this]

theorem same_foldl_eq {α α' σ : Type} {r : α → α' → Prop} {f : σ → α → σ}
    {f' : σ → α' → σ} (hf : ∀ s a a', r a a' → f' s a' = f s a)
    {l : List α} {l' : List α'} (h : List.Forall₂ r l l') (s : σ) : l'.foldl f' s = l.foldl f s := by
  induction h generalizing s with
  | nil => rfl
  | cons h _ ih => simp only [List.foldl_cons, hf _ _ _ h, ih]

theorem same_diffTable {g : Str → Str} {t t' o o' : Table} (ht : SameTableBut g t t') (ho : SameTableBut g o o')
    (hd : DistinctNames t) (hd' : DistinctNames t') (pf : Str → Option Str) (author suffix : Str)
    {sc sc' : List (Column × Column) → List (Column × Column)}
    (hs : ∀ l l', List.Forall₂ (fun p p' => SameColumnBut p.1 p'.1 ∧ SameColumnBut p.2 p'.2) l l' →
      List.Forall₂ (fun p p' => SameColumnBut p.1 p'.1 ∧ SameColumnBut p.2 p'.2) (sc l) (sc' l'))
    (id : LqId) :
    Lq.diffTable pf sc' author t' o' false suffix id = Lq.diffTable pf sc author t o false suffix id := by
  unfold Lq.diffTable
  simp only [Bool.false_and]
  have hl := same_colLoop ht ho pf author (Lq.emitIf false author [.setTableRemarks t.name t.description] ⟨id, []⟩)
  have he : Lq.emitIf false author [.setTableRemarks t'.name t'.description] ⟨id, []⟩ =
    Lq.emitIf false author [.setTableRemarks t.name t.description] ⟨id, []⟩ := rfl
  rw [he]
  revert hl
  generalize Lq.colLoop pf author t o false _ = x
  generalize Lq.colLoop pf author t' o' false _ = x'
  intro hl
  cases hl with
  | none => rfl
  | @some l l' hl =>
    obtain ⟨h1, h2, h3⟩ := hl
    simp only
    rw [h1, h3]
    have hr := same_findRenames (r := SameColumnBut) (get := o.columnNameMap) (get' := o'.columnNameMap)
      (fun n => same_lastBy (fun _ _ h => Spec.SameColumnBut.name h) ho.columns n)
      (m := fun a b => a.isRenamed b (!false)) h2
      (fun a a' b b' n ha hb hb' => by
        have := same_lastBy (fun _ _ h => Spec.SameColumnBut.name h) ho.columns n
        change Option.Rel SameColumnBut (o.columnNameMap n) (o'.columnNameMap n) at this
        rw [hb, hb'] at this
        cases this with
        | some h => exact ha.1.renamed h) l.removed
    obtain ⟨hr1, hr2⟩ := hr
    have hp := hs _ _ (same_renamedPairs (fun _ _ h => h.1) hr1)
    have hn := same_notRenamed hr1
    unfold diffTableRest
    simp only
    rw [hr2, ht.uqSet, ho.uqSet, ht.pkSet, ho.pkSet, ht.name, same_addColumn ht hd hd' pf hn, hn.length_eq,
      same_foldl_eq (f := renameColStep author t) ?_ hp]
    intro s p p' h
    unfold renameColStep
    rw [ht.name, h.1.name, h.2.name, h.1.type, h.2.nn, h.1.dv]

/-- Related tables of two schemas. -/
def OfSchemas (g : Str → Str) (s s' : Schema) (t t' : Table) : Prop := SameTableBut g t t' ∧ (t, t') ∈ s.tables.zip s'.tables

theorem same_tablesByName {g : Str → Str} {s s' : Schema} (h : SameSchemaBut g s s') (n : Str) :
    Option.Rel (OfSchemas g s s') (s.tablesByName n) (s'.tablesByName n) :=
  same_lastBy (fun _ _ h => h.1.name) (mem_zip_of_forall₂ h.tables) n

theorem same_zipIdx {α β : Type} {r : α → β → Prop} {l : List α} {l' : List β} (h : List.Forall₂ r l l') (k : Nat) :
    List.Forall₂ (fun p p' => r p.1 p'.1 ∧ p'.2 = p.2) (l.zipIdx k) (l'.zipIdx k) := by
  induction h generalizing k with
  | nil => exact .nil
  | cons h _ ih => exact .cons ⟨h, rfl⟩ (ih (k + 1))

theorem same_tableNames {g : Str → Str} {l l' : List Table} (h : List.Forall₂ (SameTableBut g) l l') :
    l'.map (·.name) = l.map (·.name) := by
  induction h with
  | nil => rfl
  | cons h _ ih => simp only [List.map_cons, ih, h.name]

/-- **C134** (the part that holds, `diff liquibase`): the same for changelogs of differences, when the compared
descriptions do not decide whether a new table has the columns of an old one. -/
theorem C134_diff_partial (g : Str → Str) (pf : Str → Option Str) (opt opt' : DiffOption) (sched sched' : Sched)
    (hfrom : SameSchemaBut g opt.diffFrom opt'.diffFrom) (hto : SameSchemaBut g opt.diffTo opt'.diffTo)
    (hf : SameFilter g opt.diffTo opt'.diffTo opt.tableFilter opt'.tableFilter)
    (ha : opt'.author = opt.author) (hu : opt'.uniqueNameSuffix = opt.uniqueNameSuffix)
    (hc : opt.useComments = false) (hc' : opt'.useComments = false)
    (hd : ∀ t ∈ opt.diffTo.tables, DistinctNames t) (hd' : ∀ t ∈ opt'.diffTo.tables, DistinctNames t)
    (hsched : SameOrder g sched sched')
    (hnew : ∀ p ∈ opt.diffTo.tables.zip opt'.diffTo.tables, ∀ q ∈ opt.diffFrom.tables.zip opt'.diffFrom.tables,
      opt.diffFrom.tablesByName p.1.name = none → (p.1.columns = q.1.columns ↔ p.2.columns = q.2.columns)) :
    (Lq.generate pf opt' sched').map (setsBy g) = (Lq.generate pf opt sched).map (setsBy g) := by
  unfold Lq.generate
  simp only
  rw [ha, hto.author]
  generalize (if opt.author ≠ [] then opt.author else opt.diffTo.author) = author
  have hloop := same_foldlM
    (q := fun l l' : Lq.TabLoop => SameState g l.st l'.st ∧
      List.Forall₂ (fun t t' => OfSchemas g opt.diffTo opt'.diffTo t t' ∧ opt.diffFrom.tablesByName t.name = none)
        l.added l'.added ∧ l'.removed = l.removed)
    (f := Lq.tabStep pf opt sched author) (f' := Lq.tabStep pf opt' sched' author)
    (same_zipIdx (mem_zip_of_forall₂ hto.tables) 0) ?_
    (s := { st := ⟨{}, []⟩, added := [], removed := StringSet.ofList (opt.diffFrom.tables.map (·.name)) })
    (s' := { st := ⟨{}, []⟩, added := [], removed := StringSet.ofList (opt'.diffFrom.tables.map (·.name)) })
    ⟨⟨rfl, rfl⟩, .nil, by simp only [same_tableNames hfrom.tables]⟩
  · revert hloop
    generalize List.foldlM (Lq.tabStep pf opt sched author) _ opt.diffTo.tables.zipIdx = x
    generalize List.foldlM (Lq.tabStep pf opt' sched' author) _ opt'.diffTo.tables.zipIdx = x'
    intro hloop
    cases hloop with
    | none => rfl
    | @some l l' hl =>
      obtain ⟨h1, h2, h3⟩ := hl
      simp only
      have hr := same_findRenames (r := SameTableBut g) (get := opt.diffFrom.tablesByName)
        (get' := opt'.diffFrom.tablesByName)
        (fun n => by
          have := same_tablesByName hfrom n
          revert this
          generalize opt.diffFrom.tablesByName n = x
          generalize opt'.diffFrom.tablesByName n = x'
          intro h
          cases h with
          | none => exact .none
          | some h => exact .some h.1)
        (m := fun a b => a.columns == b.columns) h2
        (fun a a' b b' n hP hb hb' => by
          have := same_tablesByName hfrom n
          rw [hb, hb'] at this
          cases this with
          | some h =>
            rw [Bool.eq_iff_iff, beq_iff_eq, beq_iff_eq]
            exact (hnew _ hP.1.2 _ h.2 hP.2).symm) l.removed
      rw [h3]
      obtain ⟨hr1, hr2⟩ := hr
      have hp := hsched.tables _ _ (same_renamedPairs (fun _ _ h => h.1.1) hr1)
      have hn := same_notRenamed hr1
      rw [hr2]
      have s1 := h1.foldl (f := Lq.dropStep author) (f' := Lq.dropStep author) (r := Eq)
        (fun s s' n n' hs e => by
          subst e
          refine ⟨by show s'.id.bumpMajor = s.id.bumpMajor; rw [hs.1], ?_⟩
          show setsBy g (s'.out ++ _) = setsBy g (s.out ++ _)
          rw [setsBy_append, setsBy_append, hs.2, hs.1])
        (List.forall₂_same.2 fun _ _ => rfl :
          List.Forall₂ Eq (findRenames opt.diffFrom.tablesByName (fun a b => a.columns == b.columns) l.added
            l.removed).2.slice _)
      have s2 := s1.foldl (f := Lq.renameStep author opt.uniqueNameSuffix)
        (f' := Lq.renameStep author opt'.uniqueNameSuffix)
        (fun s s' p p' hs h => by
          unfold Lq.renameStep
          simp only
          rw [h.1.name, h.2.name, h.1.uqSet, h.2.uqSet, hu]
          refine SameState.emitIf (SameState.emit ⟨by show s'.id.bumpMajor = s.id.bumpMajor; rw [hs.1], ?_⟩ author rfl)
            rfl author rfl
          simp only
          split
          · rw [setsBy_append, setsBy_append, hs.2, hs.1]
          · exact hs.2) hp
      refine rel_setsBy (same_foldlM hn ?_ s2)
      intro s s' t t' _ hs ht
      rw [hc, hc', hu]
      exact same_created ht.1.1 pf author _ (same_bumpMajor hs)
  · intro l l' e e' _ hl he
    obtain ⟨h1, h2, h3⟩ := hl
    obtain ⟨he, hi⟩ := he
    have hm := List.of_mem_zip he.2
    unfold Lq.tabStep
    simp only
    rw [← hf _ he.2 he.1, hi, he.1.name, h3]
    split
    · exact .some ⟨h1, h2, h3⟩
    · have hn := same_tablesByName hfrom e.1.name
      revert hn
      cases hx : opt.diffFrom.tablesByName e.1.name with
      | none =>
        cases hx' : opt'.diffFrom.tablesByName e.1.name with
        | none =>
          intro _
          exact .some ⟨h1, List.rel_append h2 (.cons ⟨he, hx⟩ .nil), rfl⟩
        | some _ => intro h; cases h
      | some o =>
        cases hx' : opt'.diffFrom.tablesByName e.1.name with
        | none => intro h; cases h
        | some o' =>
          intro h
          cases h with
          | some h =>
            simp only
            rw [hc, hc', hu, h1.1, same_diffTable he.1 h.1 (hd _ hm.1) (hd' _ hm.2) pf author _
              (hsched.columns e.2)]
            refine rel_map (r := Eq) ?_ ?_
            · rintro d _ rfl
              refine ⟨?_, h2, rfl⟩
              simp only
              split
              · exact ⟨rfl, by simp only [setsBy_append, h1.2]⟩
              · exact ⟨rfl, h1.2⟩
            · generalize Lq.diffTable pf _ author e.1 o false _ _ = y
              cases y
              · exact .none
              · exact .some rfl

/-! ## Renamed tables -/

theorem slice_one {n m : Str} (h : n ≠ m) : ((StringSet.ofList [n]).remove m).slice = [n] := by
  have e : (StringSet.ofList [n]).remove m = ⟨[n]⟩ := by
    show (⟨List.filter (fun x => decide (x ≠ m)) [n]⟩ : StringSet) = ⟨[n]⟩
    rw [List.filter_cons_of_pos (by simpa using h), List.filter_nil]
  rw [e]
  rfl

/-- The two schemas with one table each. -/
def onlyTable (t : Table) : Schema := { tables := [t] }

theorem diff_onlyTable (pf : Str → Option Str) (t t' : Table) (hn : t.name ≠ t'.name) (author suffix : Str) (uc : Bool)
    (sched : Sched) :
    Lq.generate pf { diffFrom := onlyTable t, diffTo := onlyTable t', author := author, uniqueNameSuffix := suffix,
                     useComments := uc } sched =
      if t'.columns = t.columns then
        some ((sched.tables [(t', t)]).foldl (Lq.renameStep author suffix) ⟨{}, []⟩).out
      else
        let s := sched.tables [] |>.foldl (Lq.renameStep author suffix) (Lq.dropStep author ⟨{}, []⟩ t.name)
        (createTableSets pf author t' suffix uc ⟨s.id.bumpMajor, s.out⟩).map (·.out) := by
  have ha : (if author ≠ [] then author else (onlyTable t').author) = author := by
    split
    · rfl
    · rename_i h
      exact (not_not.1 h).symm
  have hget : (onlyTable t).tablesByName t.name = some t := by
    show List.find? (fun x => x.name == t.name) [t] = some t
    rw [List.find?_cons_of_pos (by simp)]
  have hget' : (onlyTable t).tablesByName t'.name = none := by
    show List.find? (fun x => x.name == t'.name) [t] = none
    rw [List.find?_cons_of_neg (by simpa using hn)]
    rfl
  unfold Lq.generate
  simp only
  rw [ha]
  have hz : (onlyTable t').tables.zipIdx = [(t', 0)] := rfl
  rw [hz]
  have hp : passes (none : Option (Table → Bool)) t' = true := rfl
  simp only [List.foldlM_cons, List.foldlM_nil, Lq.tabStep, hp, hget']
  have hs : ((StringSet.ofList ((onlyTable t).tables.map (·.name))).remove t'.name).slice = [t.name] := slice_one hn
  by_cases hc : t'.columns = t.columns
  · rw [if_pos hc]
    have hf : findRenames (onlyTable t).tablesByName (fun a b => a.columns == b.columns) ([] ++ [t'])
        ((StringSet.ofList ((onlyTable t).tables.map (·.name))).remove t'.name) =
        ([(t', some t)], ((StringSet.ofList ((onlyTable t).tables.map (·.name))).remove t'.name).remove t.name) := by
      show findRenames _ _ [t'] _ = _
      unfold findRenames
      rw [hs, List.find?_cons_of_pos (by simp [renameTest, hget, hc])]
      simp only [hget, findRenames]
    have he : (((StringSet.ofList ((onlyTable t).tables.map (·.name))).remove t'.name).remove t.name).slice = [] := by
      have : (((StringSet.ofList ((onlyTable t).tables.map (·.name))).remove t'.name).remove t.name) = ⟨[]⟩ := by
        show (⟨List.filter (fun x => decide (x ≠ t.name)) (List.filter (fun x => decide (x ≠ t'.name)) [t.name])⟩ : StringSet) = _
        rw [List.filter_cons_of_pos (by simpa using hn), List.filter_nil, List.filter_cons_of_neg (by simp), List.filter_nil]
      rw [this]; rfl
    simp only [hf, he, pure, Option.bind_some, bind, Bool.not_true, Bool.false_eq_true, if_false]
    rfl
  · rw [if_neg hc]
    have hf : findRenames (onlyTable t).tablesByName (fun a b => a.columns == b.columns) ([] ++ [t'])
        ((StringSet.ofList ((onlyTable t).tables.map (·.name))).remove t'.name) =
        ([(t', none)], ((StringSet.ofList ((onlyTable t).tables.map (·.name))).remove t'.name)) := by
      show findRenames _ _ [t'] _ = _
      unfold findRenames
      rw [hs, List.find?_cons_of_neg (by simp [renameTest, hget, hc])]
      simp only [List.find?_nil, findRenames]
    simp only [hf, hs, pure, Option.bind_some, bind, Bool.not_true, Bool.false_eq_true, if_false]
    have : notRenamed [(t', (none : Option Table))] = [t'] := rfl
    rw [this]
    have : renamedPairs [(t', (none : Option Table))] = [] := rfl
    rw [this]
    simp only [List.foldl_cons, List.foldl_nil, List.foldlM_cons, List.foldlM_nil]
    generalize createTableSets _ _ _ _ _ _ = y
    cases y <;> rfl

theorem createTableSets_keeps {pf : Str → Option Str} {author : Str} {t : Table} {suffix : Str} {uc : Bool}
    {s s' : LqState} (h : createTableSets pf author t suffix uc s = some s') : ∃ more, s'.out = s.out ++ more := by
  unfold createTableSets at h
  simp only at h
  obtain ⟨lcs, -, h⟩ := Option.map_eq_some_iff.1 h
  subst h
  simp only [Lq.emit, Lq.emitIf, Lq.emitPre]
  split <;> split <;> simp only [List.append_assoc] <;> exact ⟨_, rfl⟩

/-- **C134** is violated by `diff liquibase` for every renamed table: when nothing but its name changes, the
changelog renames it; when a description of one of its columns is reworded as well, the changelog - written
without comments - drops the table, and all that it contains. -/
theorem C134_violated_rename (pf : Str → Option Str) (t t' : Table) (hn : t.name ≠ t'.name) (author suffix : Str)
    (sched : Sched) (hs : sched.Fair) :
    (t'.columns = t.columns → ∃ sets, Lq.generate pf ⟨none, onlyTable t, onlyTable t', author, suffix, false⟩ sched = some sets ∧
      (∃ set ∈ sets, LqChange.renameTable t'.name t.name ∈ set.changes) ∧
      ∀ set ∈ sets, LqChange.dropTable t.name ∉ set.changes) ∧
    (List.Forall₂ SameColumnBut t.columns t'.columns → t'.columns ≠ t.columns → ∀ sets,
      Lq.generate pf ⟨none, onlyTable t, onlyTable t', author, suffix, false⟩ sched = some sets →
      ∃ set ∈ sets, LqChange.dropTable t.name ∈ set.changes) := by
  constructor
  · intro hc
    have h1 : sched.tables [(t', t)] = [(t', t)] := List.perm_singleton.1 (hs.1 _)
    refine ⟨_, by rw [diff_onlyTable pf t t' hn, if_pos hc, h1], ?_, ?_⟩
    · simp only [List.foldl_cons, List.foldl_nil, Lq.renameStep, Lq.emit, Lq.emitIf]
      split <;> split <;> simp
    · simp only [List.foldl_cons, List.foldl_nil, Lq.renameStep, Lq.emit, Lq.emitIf]
      split <;> split <;> simp
  · intro _ hc sets h
    have h1 : sched.tables [] = [] := List.perm_nil.1 (hs.1 _)
    rw [diff_onlyTable pf t t' hn, if_neg hc, h1] at h
    simp only [List.foldl_nil] at h
    obtain ⟨s, hcr, rfl⟩ := Option.map_eq_some_iff.1 h
    obtain ⟨more, he⟩ := createTableSets_keeps hcr
    rw [he]
    refine ⟨_, List.mem_append_left _ (List.mem_append_right _ List.mem_cons_self), List.mem_cons_self⟩

/-- A table with a description and a reworded one. -/
def reworded (name columnText tableText : Str) : Table :=
  { name := name, description := tableText
    columns := [{ name := "id"ₛ, type := "int64"ₛ, primaryKey := true, description := columnText }] }

example : List.Forall₂ SameColumnBut (reworded "a"ₛ "x"ₛ []).columns (reworded "b"ₛ "y"ₛ []).columns ∧
    (reworded "b"ₛ "y"ₛ []).columns ≠ (reworded "a"ₛ "x"ₛ []).columns :=
  ⟨.cons ⟨rfl⟩ .nil, by decide⟩

/-- **C134** is violated by `generate liquibase`: without comments, the description of a table is written. -/
theorem C134_violated (pf : Str → Option Str) :
    ∃ s s' : Schema, SameSchemaBut (fun _ => []) s s' ∧ generateAll pf {} s ≠ generateAll pf {} s' := by
  refine ⟨onlyTable (reworded "a"ₛ [] "x"ₛ), onlyTable (reworded "a"ₛ [] "y"ₛ),
    ⟨rfl, .cons ⟨rfl, .cons ⟨rfl⟩ .nil, rfl⟩ .nil⟩, ?_⟩
  intro h
  have : generateAll (fun _ => none) {} (onlyTable (reworded "a"ₛ [] "x"ₛ)) =
    generateAll (fun _ => none) {} (onlyTable (reworded "a"ₛ [] "y"ₛ)) := h
  revert this
  decide

/-- `generate`: two schemas with other descriptions. -/
example : SameSchemaBut (fun _ => []) (onlyTable (reworded "a"ₛ "p"ₛ "x"ₛ)) (onlyTable (reworded "a"ₛ "q"ₛ "y"ₛ)) ∧
    SameSchemaBut id (onlyTable (reworded "a"ₛ "p"ₛ "x"ₛ)) (onlyTable (reworded "a"ₛ "q"ₛ "x"ₛ)) ∧
    SameFilter id (onlyTable (reworded "a"ₛ "p"ₛ "x"ₛ)) (onlyTable (reworded "a"ₛ "q"ₛ "x"ₛ)) none none :=
  ⟨⟨rfl, .cons ⟨rfl, .cons ⟨rfl⟩ .nil, rfl⟩ .nil⟩, ⟨rfl, .cons ⟨rfl, .cons ⟨rfl⟩ .nil, rfl⟩ .nil⟩, fun _ _ _ => rfl⟩

/-- `diff`: the table stays, its description and that of its column are reworded, and the iteration takes the
entries as they come. -/
example : SameOrder id ⟨id, fun _ => id⟩ ⟨id, fun _ => id⟩ ∧ DistinctNames (reworded "a"ₛ "p"ₛ "x"ₛ) ∧
    ∀ p ∈ [reworded "a"ₛ "p"ₛ "x"ₛ].zip [reworded "a"ₛ "q"ₛ "x"ₛ],
      (onlyTable (reworded "a"ₛ "p"ₛ "x"ₛ)).tablesByName p.1.name ≠ none := by
  refine ⟨⟨fun _ _ _ h => h, fun _ _ h => h⟩, ?_, by decide⟩
  intro c hc c' hc' _
  rw [List.mem_singleton.1 hc, List.mem_singleton.1 hc']


theorem getDiff_onlyTable (t t' : Table) (hn : t.name ≠ t'.name) (author suffix : Str) (uc : Bool) (sched : Sched) :
    getDiff ⟨none, onlyTable t, onlyTable t', author, suffix, uc⟩ sched =
      if t'.columns = t.columns then ((sched.tables [(t', t)]).foldl (renameStep author suffix) ⟨{}, []⟩).out
      else (createStep author ((sched.tables []).foldl (renameStep author suffix)
        (dropStep ⟨none, onlyTable t, onlyTable t', author, suffix, uc⟩ author ⟨{}, []⟩ t.name)) t').out := by
  have ha : (if author ≠ [] then author else (onlyTable t').author) = author := by
    split
    · rfl
    · rename_i h
      exact (not_not.1 h).symm
  have hget : (onlyTable t).tablesByName t.name = some t := by
    show List.find? (fun x => x.name == t.name) [t] = some t
    rw [List.find?_cons_of_pos (by simp)]
  have hget' : (onlyTable t).tablesByName t'.name = none := by
    show List.find? (fun x => x.name == t'.name) [t] = none
    rw [List.find?_cons_of_neg (by simpa using hn)]
    rfl
  unfold getDiff
  simp only
  rw [ha]
  have hz : (onlyTable t').tables.zipIdx = [(t', 0)] := rfl
  rw [hz]
  have hp : passes (none : Option (Table → Bool)) t' = true := rfl
  simp only [List.foldl_cons, List.foldl_nil, tabStep, hp, hget']
  have hs : ((StringSet.ofList ((onlyTable t).tables.map (·.name))).remove t'.name).slice = [t.name] := slice_one hn
  by_cases hc : t'.columns = t.columns
  · rw [if_pos hc]
    have hf : findRenames (onlyTable t).tablesByName (fun a b => a.columns == b.columns) ([] ++ [t'])
        ((StringSet.ofList ((onlyTable t).tables.map (·.name))).remove t'.name) =
        ([(t', some t)], ((StringSet.ofList ((onlyTable t).tables.map (·.name))).remove t'.name).remove t.name) := by
      show findRenames _ _ [t'] _ = _
      unfold findRenames
      rw [hs, List.find?_cons_of_pos (by simp [renameTest, hget, hc])]
      simp only [hget, findRenames]
    have he : (((StringSet.ofList ((onlyTable t).tables.map (·.name))).remove t'.name).remove t.name).slice = [] := by
      have : (((StringSet.ofList ((onlyTable t).tables.map (·.name))).remove t'.name).remove t.name) = ⟨[]⟩ := by
        show (⟨List.filter (fun x => decide (x ≠ t.name)) (List.filter (fun x => decide (x ≠ t'.name)) [t.name])⟩ : StringSet) = _
        rw [List.filter_cons_of_pos (by simpa using hn), List.filter_nil, List.filter_cons_of_neg (by simp), List.filter_nil]
      rw [this]; rfl
    simp only [hf, he, Bool.not_true, Bool.false_eq_true, if_false]
    rfl
  · rw [if_neg hc]
    have hf : findRenames (onlyTable t).tablesByName (fun a b => a.columns == b.columns) ([] ++ [t'])
        ((StringSet.ofList ((onlyTable t).tables.map (·.name))).remove t'.name) =
        ([(t', none)], ((StringSet.ofList ((onlyTable t).tables.map (·.name))).remove t'.name)) := by
      show findRenames _ _ [t'] _ = _
      unfold findRenames
      rw [hs, List.find?_cons_of_neg (by simp [renameTest, hget, hc])]
      simp only [List.find?_nil, findRenames]
    simp only [hf, hs, Bool.not_true, Bool.false_eq_true, if_false]
    rfl

/-- **C134** is violated in the same way by the change sets behind `diff flyway` and `diff md`. -/
theorem C134_violated_rename_sql (t t' : Table) (hn : t.name ≠ t'.name) (author suffix : Str)
    (sched : Sched) (hs : sched.Fair) :
    (t'.columns = t.columns →
      (∃ set ∈ getDiff ⟨none, onlyTable t, onlyTable t', author, suffix, false⟩ sched,
        Change.renameTable t t' ∈ set.changes) ∧
      ∀ set ∈ getDiff ⟨none, onlyTable t, onlyTable t', author, suffix, false⟩ sched,
        Change.dropTable t ∉ set.changes) ∧
    (List.Forall₂ SameColumnBut t.columns t'.columns → t'.columns ≠ t.columns →
      ∃ set ∈ getDiff ⟨none, onlyTable t, onlyTable t', author, suffix, false⟩ sched,
        Change.dropTable t ∈ set.changes) := by
  constructor
  · intro hc
    have h1 : sched.tables [(t', t)] = [(t', t)] := List.perm_singleton.1 (hs.1 _)
    rw [getDiff_onlyTable t t' hn, if_pos hc, h1]
    simp only [List.foldl_cons, List.foldl_nil, renameStep, emit, emitIf]
    constructor
    · split <;> split <;> simp
    · split <;> split <;> simp
  · intro _ hc
    have h1 : sched.tables [] = [] := List.perm_nil.1 (hs.1 _)
    have hget : (onlyTable t).tablesByName t.name = some t := by
      show List.find? (fun x => x.name == t.name) [t] = some t
      rw [List.find?_cons_of_pos (by simp)]
    rw [getDiff_onlyTable t t' hn, if_neg hc, h1]
    simp only [List.foldl_nil, dropStep, hget]
    exact ⟨_, List.mem_append_left _ (List.mem_append_right _ List.mem_cons_self), List.mem_cons_self⟩

/-- C134: two tables with different names; in the first pair the columns are the same, in the second their descriptions differ. -/
example := (C134_violated_rename_sql (reworded "a"ₛ "x"ₛ []) (reworded "b"ₛ "x"ₛ []) (by decide) [] [] ⟨id, fun _ => id⟩
  ⟨fun _ => .rfl, fun _ _ => .rfl⟩).1 rfl

example := (C134_violated_rename_sql (reworded "a"ₛ "x"ₛ []) (reworded "b"ₛ "y"ₛ []) (by decide) [] [] ⟨id, fun _ => id⟩
  ⟨fun _ => .rfl, fun _ _ => .rfl⟩).2
  (.cons ⟨rfl⟩ .nil) (by decide)

end Octo
