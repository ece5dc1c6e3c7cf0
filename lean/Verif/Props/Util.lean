import Verif.Lemmas.Util

/-! Property theorems C11-C14: package `util`. -/

namespace Octo
open Spec

/-! ## C11 – StringSet -/


/-- C11: after any history the keys are distinct and form the set obtained mathematically. -/
theorem C11_history (items : List Str) (ops : List SetOp) :
    ((StringSet.ofList items).runAll ops).keys.Nodup ∧
    ((StringSet.ofList items).runAll ops).keys.toFinset = semAll ops items.toFinset := by
  have h0 : (StringSet.ofList items).keys.Nodup ∧
      (StringSet.ofList items).keys.toFinset = items.toFinset := by
    refine ⟨StringSet.nodup_addAll (by simp [StringSet.empty]), ?_⟩
    ext x; simp only [List.mem_toFinset, StringSet.mem_ofList]
  generalize StringSet.ofList items = s at *
  rw [← h0.2]
  replace h0 := h0.1
  induction ops generalizing s with
  | nil => exact ⟨h0, rfl⟩
  | cons o ops ih =>
    obtain ⟨h1, h2⟩ := s.run_spec o h0
    have := ih _ h1
    simp only [StringSet.runAll, List.foldl_cons, semAll] at this ⊢
    rw [← h2]; exact this

example : semAll [.add "a"ₛ, .removeAll ["b"ₛ]] ["b"ₛ, "b"ₛ].toFinset = {"a"ₛ} := by decide

/-- C11: the observations of a set reached by a history are those of the mathematical set. -/
theorem C11_observations (items : List Str) (ops : List SetOp) (k : Str) (ks : List Str) :
    let s := (StringSet.ofList items).runAll ops
    let m := semAll ops items.toFinset
    (s.contains k = true ↔ k ∈ m) ∧
    (s.containsAny ks = true ↔ ∃ x ∈ ks, x ∈ m) ∧
    (s.containsAll ks = true ↔ ∀ x ∈ ks, x ∈ m) ∧
    s.size = m.card := by
  intro s m
  obtain ⟨h1, h2⟩ := C11_history items ops
  have hm : ∀ x, x ∈ s.keys ↔ x ∈ m := by
    intro x; rw [← List.mem_toFinset]; show x ∈ List.toFinset _ ↔ _; rw [h2]
  refine ⟨?_, ?_, ?_, ?_⟩
  · simp [StringSet.contains, hm]
  · simp [StringSet.containsAny, StringSet.contains, hm]
  · simp [StringSet.containsAll, StringSet.contains, hm]
  · show s.keys.length = m.card
    rw [← List.toFinset_card_of_nodup h1, h2]

/-- C11: the slice is strictly ascending, lists exactly the members, for every iteration order. -/
theorem C11_slice (items : List Str) (ops : List SetOp) (ord : List Str → List Str)
    (ho : ∀ l, (ord l).Perm l) :
    let s := (StringSet.ofList items).runAll ops
    (s.sliceOrd ord).Pairwise (fun a b => strLt a b = true) ∧
    (∀ k, k ∈ s.sliceOrd ord ↔ k ∈ semAll ops items.toFinset) := by
  intro s
  obtain ⟨h1, h2⟩ := C11_history items ops
  refine ⟨sortStrings_strict ((ho _).nodup_iff.2 h1), ?_⟩
  intro k
  rw [StringSet.sliceOrd, mem_sortStrings, (ho _).mem_iff, ← List.mem_toFinset]
  show k ∈ List.toFinset _ ↔ _
  rw [h2]

/-- C11: the slice does not depend on the map iteration order. -/
theorem C11_slice_schedule_independent (s : StringSet) (ord : List Str → List Str)
    (ho : ∀ l, (ord l).Perm l) : s.sliceOrd ord = s.slice :=
  sortStrings_congr (ho _)

example : (StringSet.ofList ["b"ₛ, "a"ₛ, "b"ₛ]).sliceOrd List.reverse = ["a"ₛ, "b"ₛ] := by decide

/-- C11: two sets are reported equal exactly when they are the same mathematical set. -/
theorem C11_equals (i1 i2 : List Str) (o1 o2 : List SetOp) :
    ((StringSet.ofList i1).runAll o1).equals ((StringSet.ofList i2).runAll o2) = true ↔
      semAll o1 i1.toFinset = semAll o2 i2.toFinset := by
  obtain ⟨a1, a2⟩ := C11_history i1 o1
  obtain ⟨b1, b2⟩ := C11_history i2 o2
  rw [← a2, ← b2]
  generalize (StringSet.ofList i1).runAll o1 = s at *
  generalize (StringSet.ofList i2).runAll o2 = t at *
  simp only [StringSet.equals, Bool.and_eq_true, beq_iff_eq, List.all_eq_true, StringSet.contains,
    decide_eq_true_eq]
  constructor
  · rintro ⟨hl, hs⟩
    apply Finset.eq_of_subset_of_card_le
    · intro x hx; rw [List.mem_toFinset] at *; exact hs x hx
    · rw [List.toFinset_card_of_nodup a1, List.toFinset_card_of_nodup b1, hl]
  · intro h
    refine ⟨?_, ?_⟩
    · rw [← List.toFinset_card_of_nodup a1, ← List.toFinset_card_of_nodup b1, h]
    · intro x hx
      rw [← List.mem_toFinset, ← h, List.mem_toFinset]; exact hx

/-! ## C12 – MultiMap -/


section
variable {κ ν : Type} [DecidableEq κ] [DecidableEq ν]

/-- C12: no history leaves a key with an empty value list, keys are listed once, and the listed keys
are exactly those with values, for every iteration order. -/
theorem C12_keys (ops : List (MMOp κ ν)) (ord : List κ → List κ) (ho : ∀ l, (ord l).Perm l) :
    let m := ops.foldl MultiMap.run (MultiMap.empty : MultiMap κ ν)
    (m.keys ord).Nodup ∧ ∀ k, k ∈ m.keys ord ↔ m.view k ≠ [] := by
  intro m
  have hok : m.Ok := by
    suffices ∀ (m0 : MultiMap κ ν), m0.Ok → (ops.foldl MultiMap.run m0).Ok from
      this _ ⟨by simp [MultiMap.empty], by simp [MultiMap.empty]⟩
    induction ops with
    | nil => intro m0 h; exact h
    | cons o ops ih => intro m0 h; exact ih _ (MultiMap.ok_run h o)
  refine ⟨(ho _).nodup_iff.2 hok.1, ?_⟩
  intro k
  rw [MultiMap.keys, (ho _).mem_iff]
  constructor
  · intro h he
    obtain ⟨p, hp, rfl⟩ := List.mem_map.1 h
    have : m.get p.1 = some p.2 := by
      unfold MultiMap.get
      clear h he
      have hn := hok.1
      generalize m.store = l at hp hn
      induction l with
      | nil => cases hp
      | cons q l ih =>
        simp only [List.map_cons, List.nodup_cons] at hn
        rcases List.mem_cons.1 hp with rfl | hp'
        · obtain ⟨a, b⟩ := p; rw [MultiMap.lookup_ite, if_pos rfl]
        · have hne : p.1 ≠ q.1 := fun e => hn.1 (e ▸ List.mem_map_of_mem (f := Prod.fst) hp')
          obtain ⟨a, b⟩ := q
          rw [MultiMap.lookup_ite, if_neg hne]
          exact ih hp' hn.2
    rw [MultiMap.view, this] at he
    exact hok.2 p hp he
  · intro h
    cases hg : m.get k with
    | none => exact absurd (by simp [MultiMap.view, hg]) h
    | some vs => exact List.mem_map.2 ⟨(k, vs), lookup_mem hg, rfl⟩

/-- C12 (insertion half): a history of puts and key removals gives every key its values in
insertion order. -/
theorem C12_insertion_order (ops : List (MMOp κ ν))
    (h : ∀ o ∈ ops, ∀ k v, o ≠ MMOp.removeValue k v) :
    (ops.foldl MultiMap.run (MultiMap.empty : MultiMap κ ν)).view = mmSemAll ops := by
  suffices ∀ (m0 : MultiMap κ ν) (f : κ → List ν), m0.view = f →
      (ops.foldl MultiMap.run m0).view = ops.foldl (fun f o => o.sem f) f from
    this _ _ (by funext k; simp [MultiMap.view, MultiMap.get, MultiMap.empty])
  induction ops with
  | nil => intro m0 f h0; exact h0
  | cons o ops ih =>
    intro m0 f h0
    apply ih (fun o ho => h o (List.mem_cons_of_mem _ ho))
    subst h0
    cases o with
    | put k v => exact MultiMap.view_put m0 k v
    | removeKey k => exact MultiMap.view_removeKey m0 k
    | removeValue k v => exact absurd rfl (h _ List.mem_cons_self k v)

/-- C12 (removal half, partial): the multimap behaves like per-key lists as long as a value is removed
only while it occurs at most once under its key.  Missing: removal of duplicated values, where the
code is wrong (see `C12_violated`). -/
theorem C12_history_partial (ops : List (MMOp κ ν)) (h : NoDupRemoval ops (fun _ => [])) :
    (ops.foldl MultiMap.run (MultiMap.empty : MultiMap κ ν)).view = mmSemAll ops := by
  suffices ∀ (m0 : MultiMap κ ν) (f : κ → List ν), m0.view = f → NoDupRemoval ops f →
      (ops.foldl MultiMap.run m0).view = ops.foldl (fun f o => o.sem f) f from
    this _ _ (by funext k; simp [MultiMap.view, MultiMap.get, MultiMap.empty]) h
  clear h
  induction ops with
  | nil => intro m0 f h0 _; exact h0
  | cons o ops ih =>
    intro m0 f h0 hnd
    subst h0
    refine ih _ _ ?_ hnd.2
    cases o with
    | put k v => exact MultiMap.view_put m0 k v
    | removeKey k => exact MultiMap.view_removeKey m0 k
    | removeValue k v => exact MultiMap.view_removeValue m0 k v (hnd.1 k v rfl)

end

example : NoDupRemoval (κ := Nat) (ν := Nat)
    [.put 1 5, .put 1 6, .put 2 5, .removeValue 1 5, .removeKey 2] (fun _ => []) := by
  simp [NoDupRemoval, MMOp.sem]

/-- C12 as stated: every history behaves like per-key lists. -/
def C12_claim : Prop :=
  ∀ ops : List (MMOp Nat Nat),
    (ops.foldl MultiMap.run (MultiMap.empty : MultiMap Nat Nat)).view = mmSemAll ops

/-- C12 fails for the code: the slice is compacted in place while it is ranged over.  With [1,2,1,3]
removing 1 leaves [2,3,3]; with [a,a] removing `a` leaves [a]. -/
theorem C12_violated : ¬C12_claim := by
  intro h
  have h1 := congrFun (h [.put 0 1, .put 0 2, .put 0 1, .put 0 3, .removeValue 0 1]) 0
  have h2 : mmSemAll [MMOp.put 0 1, .put 0 2, .put 0 1, .put 0 3, .removeValue 0 1] 0 = [2, 3] := by
    decide
  have h3 : ([MMOp.put 0 1, .put 0 2, .put 0 1, .put 0 3, .removeValue 0 1].foldl MultiMap.run
      (MultiMap.empty : MultiMap Nat Nat)).view 0 = [2, 3, 3] := by decide
  rw [h2, h3] at h1
  exact absurd h1 (by decide)

/-- C12: a value put twice and removed is still there, whatever the key and value. -/
theorem C12_double_put_survives {κ ν : Type} [DecidableEq κ] [DecidableEq ν] (k : κ) (a : ν) :
    (((MultiMap.empty.put k a).put k a).removeValue k a : MultiMap κ ν).view k = [a] := by
  simp [MultiMap.empty, MultiMap.put, MultiMap.setKey, MultiMap.get, MultiMap.removeValue,
      MultiMap.removeFrom, MultiMap.removeLoop, MultiMap.view]

/-! ## C13 – memoizer -/

/-- C13: for any call sequence and any (even impure) function, the function runs exactly once per
distinct key, in order of first use, and every call returns the value computed at the first call with
that key (`fn i k` is the result of the i-th execution, with argument k). -/
theorem C13_history {κ : Type} [DecidableEq κ] (fn : Nat → κ → Str) (ks : List κ) :
    (memoRun fn ⟨[], []⟩ ks).2.calls = firsts ks ∧
    (memoRun fn ⟨[], []⟩ ks).1 = ks.map (fun k => fn ((firsts ks).idxOf k) k) := by
  obtain ⟨h1, h2⟩ := memoRun_ok fn ks ⟨[], []⟩ ⟨by simp, by simp⟩
  have h3 : (memoRun fn ⟨[], []⟩ ks).2.calls = firsts ks := by simpa using h1
  refine ⟨h3, ?_⟩
  rw [h2, h3]

/-- C13: `firsts` lists every used key exactly once. -/
theorem C13_once {κ : Type} [DecidableEq κ] (fn : Nat → κ → Str) (ks : List κ) :
    (memoRun fn ⟨[], []⟩ ks).2.calls.Nodup ∧
    ∀ k, k ∈ (memoRun fn ⟨[], []⟩ ks).2.calls ↔ k ∈ ks := by
  rw [(C13_history fn ks).1]
  exact ⟨firsts_nodup ks, mem_firsts ks⟩

/-- C13: for a pure function memoization is invisible in the results. -/
theorem C13_pure {κ : Type} [DecidableEq κ] (f : κ → Str) (ks : List κ) :
    (memoRun (fun _ => f) ⟨[], []⟩ ks).1 = ks.map f := (C13_history _ ks).2

example : (memoRun (fun i (k : Nat) => itoa (10 * i + k)) ⟨[], []⟩ [3, 4, 3]).1
    = ["3"ₛ, "14"ₛ, "3"ₛ] := by decide

/-! ## C14 – type text -/

/-- C14, complete description of the code for type names without parenthesis: with a size, parsing
the formatted text yields the longest final run of letters of the name (and the size and scale), or, if
the name does not end in a letter, the whole text as a name with size 0. -/
theorem C14_parse_format (c : Column) (h : '(' ∉ c.type) (hs : c.size ≠ 0) :
    ∃ pre suf, c.type = pre ++ suf ∧ (∀ x ∈ suf, isAlpha x = true) ∧
      (∀ x p, pre = p ++ [x] → isAlpha x = false) ∧
      parseType c.format = if suf = [] then (c.format, 0, 0) else (suf, c.size, c.scale) := by
  obtain ⟨pre, suf, h1, h2, h3⟩ := alpha_suffix c.type
  refine ⟨pre, suf, h1, h2, h3, ?_⟩
  have hp : '(' ∉ pre := fun e => h (by rw [h1]; simp [e])
  have hm : typeMatch (c.type ++ sizeText c.size c.scale)
      = typeMatch (suf ++ sizeText c.size c.scale) := by
    rw [h1, List.append_assoc]
    exact typeMatch_append_skip _ _ (fun x a b e =>
      skip_pre pre suf _ hp h3 x a b e)
  rw [format_sizeText c hs]
  by_cases hsuf : suf = []
  · rw [if_pos hsuf]
    unfold parseType
    rw [hm, hsuf, List.nil_append, typeMatch_sizeText]
  · rw [if_neg hsuf]
    obtain ⟨d1, d2, e1, e2, e3⟩ := typeMatchAt_format suf c.size c.scale h2
    rw [if_neg hsuf] at e1
    unfold parseType
    rw [hm]
    cases suf with
    | nil => exact absurd rfl hsuf
    | cons x suf =>
      rw [List.cons_append] at e1 ⊢
      rw [typeMatch, e1]
      simp only [e2, e3]

/-- C14 (partial): for type names made of letters, parsing inverts formatting for all sizes and
scales (a scale without a size is not written, so it is excluded).  Missing: names with digits or
other characters, for which the code fails – see `C14_violated`. -/
theorem C14_round_trip_partial (c : Column) (hl : ∀ x ∈ c.type, isAlpha x = true) (hne : c.type ≠ [])
    (h0 : c.size = 0 → c.scale = 0) : parseType c.format = (c.type, c.size, c.scale) := by
  have hnp : '(' ∉ c.type := fun e => by have := hl _ e; revert this; decide
  by_cases hs : c.size = 0
  · have : c.format = c.type := by simp [Column.format, hs]
    rw [this, parseType, typeMatch_none_of_no_paren _ hnp, hs, h0 hs]
  · obtain ⟨pre, suf, e1, e2, e3, e4⟩ := C14_parse_format c hnp hs
    have hpre : pre = [] := by
      rcases List.eq_nil_or_concat pre with h | ⟨p, x, h⟩
      · exact h
      · exfalso
        rw [List.concat_eq_append] at h
        have h5 := e3 x p h
        have h6 := hl x (by rw [e1, h]; simp)
        rw [h5] at h6; cases h6
    rw [hpre, List.nil_append] at e1
    rw [e4, ← e1, if_neg hne]

example : parseType (Column.format { name := "c"ₛ, type := "decimal"ₛ, size := 20, scale := 5 })
    = ("decimal"ₛ, 20, 5) :=
  C14_round_trip_partial _ (by decide) (by decide) (by decide)

/-- C14 fails as stated: for every size the supported type `int64` comes back as the type name
`int64(n)` with size 0.  The same holds for every name that does not end in a letter. -/
theorem C14_violated (c : Column) (x : Char) (p : Str) (ht : c.type = p ++ [x]) (hx : isAlpha x = false)
    (hp : '(' ∉ c.type) (hs : c.size ≠ 0) :
    parseType c.format = (c.format, 0, 0) ∧ parseType c.format ≠ (c.type, c.size, c.scale) := by
  obtain ⟨pre, suf, e1, e2, e3, e4⟩ := C14_parse_format c hp hs
  have hsuf : suf = [] := by
    rcases List.eq_nil_or_concat suf with h | ⟨q, y, h⟩
    · exact h
    · exfalso
      rw [List.concat_eq_append] at h
      rw [e1, h, ← List.append_assoc] at ht
      have := List.append_inj_right' ht rfl
      simp at this
      have h6 := e2 y (by rw [h]; simp)
      rw [this, hx] at h6; cases h6
  rw [if_pos hsuf] at e4
  refine ⟨e4, ?_⟩
  rw [e4]
  intro h
  have := congrArg (fun x => x.2.1) h
  exact hs this.symm

example : parseType (Column.format { name := "c"ₛ, type := "int64"ₛ, size := 20 }) = ("int64(20)"ₛ, 0, 0) :=
  (C14_violated _ '4' "int6"ₛ (by decide) (by decide) (by decide) (by decide)).1

end Octo
