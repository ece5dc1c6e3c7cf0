import Verif.Spec.Util
import Verif.Lemmas.Octopus
import Verif.Model.Util
import Mathlib.Data.List.TakeWhile

/-! Helper lemmas for package `util`. -/

namespace Octo
open Spec

namespace StringSet

/-- The implementation of an operation. -/
def run (s : StringSet) : SetOp → StringSet
  | .add k => s.add k
  | .addAll ks => s.addAll ks
  | .remove k => s.remove k
  | .removeAll ks => s.removeAll ks
  | .clear => s.clear

/-- The implementation of a history. -/
def runAll (s : StringSet) (ops : List SetOp) : StringSet := ops.foldl run s

theorem mem_removeAll {ks : List Str} {s : StringSet} {k : Str} :
    k ∈ (s.removeAll ks).keys ↔ k ∈ s.keys ∧ k ∉ ks := by
  induction ks generalizing s with
  | nil => simp [removeAll]
  | cons v vs ih =>
    have : s.removeAll (v :: vs) = (s.remove v).removeAll vs := rfl
    rw [this, ih]
    simp [remove]
    tauto

theorem nodup_removeAll {ks : List Str} {s : StringSet} (h : s.keys.Nodup) :
    (s.removeAll ks).keys.Nodup := by
  induction ks generalizing s with
  | nil => exact h
  | cons v vs ih => exact ih (s := s.remove v) (h.filter _)

theorem run_spec (s : StringSet) (o : SetOp) (hn : s.keys.Nodup) :
    (s.run o).keys.Nodup ∧ (s.run o).keys.toFinset = o.sem s.keys.toFinset := by
  cases o with
  | add k =>
    refine ⟨nodup_add hn k, ?_⟩
    ext x; simp only [run, SetOp.sem, List.mem_toFinset, mem_add, Finset.mem_insert]
  | addAll ks =>
    refine ⟨nodup_addAll hn, ?_⟩
    ext x; simp only [run, SetOp.sem, List.mem_toFinset, mem_addAll, Finset.mem_union, or_comm]
  | remove k =>
    refine ⟨hn.filter _, ?_⟩
    ext x; simp [run, SetOp.sem, remove, and_comm]
  | removeAll ks =>
    refine ⟨nodup_removeAll hn, ?_⟩
    ext x; simp only [run, SetOp.sem, List.mem_toFinset, mem_removeAll, Finset.mem_sdiff]
  | clear => simp [run, clear, empty, SetOp.sem]

end StringSet

namespace MultiMap
set_option linter.unusedSectionVars false
variable {κ ν : Type} [DecidableEq κ] [DecidableEq ν]

/-- The implementation of an operation. -/
def run (m : MultiMap κ ν) : MMOp κ ν → MultiMap κ ν
  | .put k v => m.put k v
  | .removeKey k => m.removeKey k
  | .removeValue k v => m.removeValue k v

/-- Contents of a multimap as seen through `Get`. -/
def view (m : MultiMap κ ν) : κ → List ν := fun k => (m.get k).getD []

/-- Representation invariant: keys distinct, no empty value list. -/
def Ok (m : MultiMap κ ν) : Prop :=
  (m.store.map Prod.fst).Nodup ∧ ∀ p ∈ m.store, p.2 ≠ []

theorem lookup_ite (a k : κ) (b : List ν) (l : List (κ × List ν)) :
    ((a, b) :: l).lookup k = if k = a then some b else l.lookup k := by
  by_cases h : k = a
  · simp [h]
  · simp only [List.lookup_cons, beq_eq_false_iff_ne.2 h, if_neg h]

theorem lookup_setKey (l : List (κ × List ν)) (k k' : κ) (vs : List ν) :
    (setKey l k vs).lookup k' = if k' = k then some vs else l.lookup k' := by
  induction l with
  | nil => simp only [setKey, lookup_ite]
  | cons p l ih =>
    obtain ⟨a, b⟩ := p
    simp only [setKey]
    by_cases h : a = k
    · subst h
      simp only [if_true, lookup_ite]
      by_cases h' : k' = a <;> simp [h']
    · simp only [h, if_false, lookup_ite, ih]
      by_cases h' : k' = a
      · subst h'; simp [h]
      · simp [h']

theorem lookup_filter_ne (l : List (κ × List ν)) (k k' : κ) :
    (l.filter (fun p => p.1 ≠ k)).lookup k' = if k' = k then none else l.lookup k' := by
  induction l with
  | nil => simp
  | cons p l ih =>
    obtain ⟨a, b⟩ := p
    by_cases h : a = k
    · subst h
      rw [List.filter_cons_of_neg (by simp), ih, lookup_ite]
      by_cases h' : k' = a <;> simp [h']
    · rw [List.filter_cons_of_pos (by simpa using h), lookup_ite, lookup_ite, ih]
      by_cases h' : k' = a
      · subst h'; simp [h]
      · simp [h']

theorem keys_setKey (l : List (κ × List ν)) (k : κ) (vs : List ν) :
    (setKey l k vs).map Prod.fst =
      if k ∈ l.map Prod.fst then l.map Prod.fst else l.map Prod.fst ++ [k] := by
  induction l with
  | nil => simp [setKey]
  | cons p l ih =>
    obtain ⟨a, b⟩ := p
    simp only [setKey]
    by_cases h : a = k
    · subst h; simp
    · simp only [h, if_false, List.map_cons, ih, List.mem_cons]
      by_cases h2 : k ∈ l.map Prod.fst
      · simp [h2]
      · simp [h2, Ne.symm h]

theorem mem_setKey {l : List (κ × List ν)} {k : κ} {vs : List ν} {p : κ × List ν}
    (h : p ∈ setKey l k vs) : p = (k, vs) ∨ p ∈ l := by
  induction l with
  | nil => simp [setKey] at h; exact Or.inl h
  | cons q l ih =>
    obtain ⟨a, b⟩ := q
    simp only [setKey] at h
    split at h
    · rcases List.mem_cons.1 h with h | h
      · exact Or.inl h
      · exact Or.inr (List.mem_cons_of_mem _ h)
    · rcases List.mem_cons.1 h with h | h
      · exact Or.inr (h ▸ List.mem_cons_self)
      · rcases ih h with h | h
        · exact Or.inl h
        · exact Or.inr (List.mem_cons_of_mem _ h)

theorem ok_setKey {m : MultiMap κ ν} (h : m.Ok) (k : κ) {vs : List ν} (hvs : vs ≠ []) :
    Ok (⟨setKey m.store k vs⟩ : MultiMap κ ν) := by
  refine ⟨?_, ?_⟩
  · rw [keys_setKey]
    split
    · exact h.1
    · rename_i hk
      exact List.nodup_append.2 ⟨h.1, by simp, by
        intro a ha b hb hab; simp at hb; subst hb; subst hab; exact hk ha⟩
  · intro p hp
    rcases mem_setKey hp with rfl | hp
    · exact hvs
    · exact h.2 p hp

theorem ok_removeKey {m : MultiMap κ ν} (h : m.Ok) (k : κ) : (m.removeKey k).Ok := by
  refine ⟨?_, fun p hp => h.2 p (List.mem_filter.1 hp).1⟩
  exact h.1.sublist ((List.filter_sublist).map _)

theorem get_ne_nil {m : MultiMap κ ν} (h : m.Ok) (k : κ) : m.get k ≠ some [] := by
  intro e
  exact h.2 _ (lookup_mem e) rfl

/-- The loop never finds anything when the value is absent. -/
theorem removeLoop_absent (v : ν) (n i : Nat) (arr : List ν) (h : v ∉ arr) (b : Bool) :
    removeLoop v n i arr b = (arr, b) := by
  induction n generalizing i with
  | zero => rfl
  | succ n ih =>
    have : arr[i]? ≠ some v := fun e => h (List.mem_of_getElem? e)
    simp only [removeLoop, if_neg this, ih]

theorem removeLoop_skip (v : ν) (pre suf : List ν) (hpre : v ∉ pre) (n : Nat) (i : Nat) (done : List ν)
    (hi : i = done.length) (b : Bool) :
    removeLoop v (n + pre.length) i (done ++ pre ++ suf) b
      = removeLoop v n (i + pre.length) (done ++ pre ++ suf) b := by
  induction pre generalizing done i with
  | nil => simp
  | cons p pre ih =>
    subst hi
    have hp : p ≠ v := fun e => hpre (e ▸ List.mem_cons_self)
    rw [List.length_cons, ← Nat.add_assoc, removeLoop]
    have : (done ++ p :: pre ++ suf)[done.length]? ≠ some v := by simp [hp]
    rw [if_neg this]
    have h2 := ih (fun e => hpre (List.mem_cons_of_mem _ e)) (done.length + 1) (done ++ [p]) (by simp)
    simp only [List.append_assoc, List.cons_append, List.nil_append] at h2 ⊢
    rw [h2]
    congr 1
    omega

/-- Removal of a value that occurs once removes exactly it. -/
theorem removeFrom_once (v : ν) (pre suf : List ν) (hpre : v ∉ pre) (hsuf : v ∉ suf) :
    removeFrom v (pre ++ v :: suf) = pre ++ suf := by
  have h1 := removeLoop_skip v pre (v :: suf) hpre (suf.length + 1) 0 [] rfl false
  simp only [List.nil_append, Nat.zero_add] at h1
  have hlen : (pre ++ v :: suf).length = suf.length + 1 + pre.length := by simp; omega
  unfold removeFrom
  rw [hlen, h1, removeLoop, if_pos (by simp)]
  have h2 : List.take pre.length (pre ++ v :: suf) ++ List.drop (pre.length + 1) (pre ++ v :: suf) ++
      (pre ++ v :: suf).getLast?.toList = pre ++ suf ++ [(v :: suf).getLast (by simp)] := by
    simp [List.getLast?_eq_some_getLast]
  rw [h2]
  rcases List.eq_nil_or_concat suf with rfl | ⟨suf', x, rfl⟩
  · simp [removeLoop]
  · -- the array is pre ++ suf' ++ [x] ++ [x]; the loop runs on from pre.length + 1
    have hx : x ≠ v := fun e => hsuf (by simp [e])
    have habs : v ∉ pre ++ (suf' ++ [x]) ++ [(v :: (suf' ++ [x])).getLast (by simp)] := by
      simp only [List.concat_eq_append] at hsuf
      rw [List.mem_append, List.mem_append]
      rintro ((h | h) | h)
      · exact hpre h
      · exact hsuf h
      revert h
      rw [List.getLast_cons (by simp)]
      simpa using Ne.symm hx
    simp only [List.concat_eq_append] at *
    rw [removeLoop_absent v _ _ _ habs]
    simp only
    rw [List.take_append_of_le_length (by simp; omega), List.take_of_length_le (by simp; omega)]

theorem removeFrom_absent (v : ν) (l : List ν) (h : v ∉ l) : removeFrom v l = l := by
  simp [removeFrom, removeLoop_absent v _ _ _ h]

theorem removeFrom_nodup (v : ν) (l : List ν) (h : l.count v ≤ 1) :
    removeFrom v l = l.filter (fun x => x ≠ v) := by
  by_cases hv : v ∈ l
  · obtain ⟨pre, suf, rfl⟩ := List.append_of_mem hv
    have h0 : List.count v pre = 0 ∧ List.count v suf = 0 := by
      simp [List.count_append] at h; omega
    have hp : v ∉ pre := List.count_eq_zero.1 h0.1
    have hs : v ∉ suf := List.count_eq_zero.1 h0.2
    rw [removeFrom_once v pre suf hp hs, List.filter_append, List.filter_cons_of_neg (by simp)]
    rw [List.filter_eq_self.2, List.filter_eq_self.2]
    · intro a ha; exact decide_eq_true (fun e : a = v => hs (e ▸ ha))
    · intro a ha; exact decide_eq_true (fun e : a = v => hp (e ▸ ha))
  · rw [removeFrom_absent v l hv, List.filter_eq_self.2]
    intro a ha; exact decide_eq_true (fun e : a = v => hv (e ▸ ha))

theorem view_put (m : MultiMap κ ν) (k : κ) (v : ν) :
    (m.put k v).view = (MMOp.put k v).sem m.view := by
  funext k'
  simp only [view, put, get, lookup_setKey, MMOp.sem]
  by_cases h : k' = k
  · subst h; simp
  · simp [h]

theorem view_removeKey (m : MultiMap κ ν) (k : κ) :
    (m.removeKey k).view = (MMOp.removeKey (ν := ν) k).sem m.view := by
  funext k'
  simp only [view, removeKey, get, lookup_filter_ne, MMOp.sem]
  by_cases h : k' = k
  · subst h; simp
  · simp [h]

theorem view_removeValue (m : MultiMap κ ν) (k : κ) (v : ν) (hc : (m.view k).count v ≤ 1) :
    (m.removeValue k v).view = (MMOp.removeValue k v).sem m.view := by
  funext k'
  unfold removeValue
  cases hg : m.get k with
  | none =>
    simp only [view, MMOp.sem]
    by_cases h : k' = k
    · subst h; simp [hg]
    · simp [h]
  | some values =>
    have hv : m.view k = values := by simp [view, hg]
    have hf := removeFrom_nodup v values (hv ▸ hc)
    simp only
    split
    · rename_i he
      rw [view_removeKey]
      simp only [MMOp.sem]
      by_cases h : k' = k
      · subst h; simp only [if_true, hv, ← hf, he]
      · simp [h]
    · simp only [view, get, lookup_setKey, MMOp.sem]
      by_cases h : k' = k
      · subst h
        have : (List.lookup k' m.store).getD [] = values := hv
        simp only [if_true, Option.getD_some, this, hf]
      · simp [h]

theorem ok_run {m : MultiMap κ ν} (h : m.Ok) (o : MMOp κ ν) : (m.run o).Ok := by
  cases o with
  | put k v => exact ok_setKey h k (by simp)
  | removeKey k => exact ok_removeKey h k
  | removeValue k v =>
    simp only [run, removeValue]
    split
    · exact h
    · split
      · exact ok_removeKey h k
      · exact ok_setKey h k (by assumption)

end MultiMap

/-- Invariant of a memoizer: the cache holds, in call order, the value of each executed call. -/
def Memo.Ok {κ : Type} (fn : Nat → κ → Str) (m : Memo κ) : Prop :=
  m.calls.Nodup ∧ m.cache = m.calls.mapIdx (fun i k => (k, fn i k))

theorem lookup_mapIdx {κ : Type} [DecidableEq κ] (fn : Nat → κ → Str) (l : List κ) (k : κ) :
    (l.mapIdx (fun i k => (k, fn i k))).lookup k =
      if k ∈ l then some (fn (l.idxOf k) k) else none := by
  induction l generalizing fn with
  | nil => simp
  | cons a l ih =>
    rw [List.mapIdx_cons, List.lookup_cons]
    by_cases h : k = a
    · subst h; simp
    · have hb : (k == a) = false := by simpa using h
      have := ih (fun i k => fn (i + 1) k)
      simp only [hb, List.mem_cons, h, false_or]
      rw [this]
      rw [List.idxOf_cons_ne _ (Ne.symm h)]

theorem firsts_nodup {κ : Type} [DecidableEq κ] (ks : List κ) : (firsts ks).Nodup := by
  induction ks with
  | nil => simp [firsts]
  | cons k ks ih => simp [firsts, ih.filter]

theorem mem_firsts {κ : Type} [DecidableEq κ] (ks : List κ) (k : κ) : k ∈ firsts ks ↔ k ∈ ks := by
  induction ks with
  | nil => simp [firsts]
  | cons a ks ih =>
    by_cases h : k = a
    · simp [firsts, h]
    · simp [firsts, h, ih]

theorem memoCall_ok {κ : Type} [DecidableEq κ] (fn : Nat → κ → Str) (m : Memo κ) (k : κ) (h : m.Ok fn) :
    (memoCall fn m k).2.Ok fn ∧
    (memoCall fn m k).2.calls = (if k ∈ m.calls then m.calls else m.calls ++ [k]) ∧
    (memoCall fn m k).1 = fn ((memoCall fn m k).2.calls.idxOf k) k := by
  obtain ⟨h1, h2⟩ := h
  have hl := lookup_mapIdx fn m.calls k
  rw [← h2] at hl
  unfold memoCall
  by_cases hk : k ∈ m.calls
  · rw [if_pos hk] at hl
    simp only [hl, hk, if_true]
    exact ⟨⟨h1, h2⟩, by simp⟩
  · rw [if_neg hk] at hl
    simp only [hl, hk, if_false]
    refine ⟨⟨?_, ?_⟩, trivial, ?_⟩
    · exact List.nodup_append.2 ⟨h1, by simp, by
        intro a ha b hb hab; simp at hb; subst hb; subst hab; exact hk ha⟩
    · simp [h2, List.mapIdx_append]
    · rw [List.idxOf_append_of_notMem hk]; simp

theorem memoRun_ok {κ : Type} [DecidableEq κ] (fn : Nat → κ → Str) (ks : List κ) (m : Memo κ) (h : m.Ok fn) :
    (memoRun fn m ks).2.calls = m.calls ++ (firsts ks).filter (fun x => x ∉ m.calls) ∧
    (memoRun fn m ks).1 = ks.map (fun k => fn ((memoRun fn m ks).2.calls.idxOf k) k) := by
  induction ks generalizing m with
  | nil => simp [memoRun, firsts]
  | cons k ks ih =>
    obtain ⟨h1, h2, h3⟩ := memoCall_ok fn m k h
    obtain ⟨g1, g2⟩ := ih _ h1
    have hcalls : (memoRun fn m (k :: ks)).2 = (memoRun fn (memoCall fn m k).2 ks).2 := rfl
    have hres : (memoRun fn m (k :: ks)).1 =
      (memoCall fn m k).1 :: (memoRun fn (memoCall fn m k).2 ks).1 := rfl
    refine ⟨?_, ?_⟩
    · rw [hcalls, g1, h2]
      by_cases hk : k ∈ m.calls
      · simp only [hk, if_true, firsts]
        rw [List.filter_cons_of_neg (by simpa using hk), List.filter_filter]
        congr 1
        apply List.filter_congr
        intro x _
        by_cases hx : x = k
        · subst hx; simp [hk]
        · simp [hx]
      · simp only [hk, if_false, firsts]
        rw [List.filter_cons_of_pos (by simpa using hk), List.filter_filter]
        simp only [List.append_assoc, List.singleton_append]
        congr 2
        apply List.filter_congr
        intro x _
        simp
    · rw [hres, hcalls, List.map_cons]
      congr 1
      rw [h3, g1]
      have : k ∈ (memoCall fn m k).2.calls := by
        rw [h2]; split
        · assumption
        · simp
      rw [List.idxOf_append_of_mem this]

theorem takeWhile_all {p : Char → Bool} {s t : Str} (h : ∀ c ∈ s, p c = true) :
    (s ++ t).takeWhile p = s ++ t.takeWhile p := by
  induction s with
  | nil => rfl
  | cons c s ih =>
    simp only [List.cons_append, List.takeWhile_cons, h c (by simp), if_true]
    rw [ih (fun d hd => h d (by simp [hd]))]

theorem dropWhile_all {p : Char → Bool} {s t : Str} (h : ∀ c ∈ s, p c = true) :
    (s ++ t).dropWhile p = t.dropWhile p := by
  induction s with
  | nil => rfl
  | cons c s ih =>
    simp only [List.cons_append, List.dropWhile_cons, h c (by simp), if_true]
    rw [ih (fun d hd => h d (by simp [hd]))]

/-- The text of a size/scale pair as written by `Format`. -/
def sizeText (size scale : UInt16) : Str :=
  if scale = 0 then '(' :: itoa size.toNat ++ [')']
  else '(' :: itoa size.toNat ++ ',' :: itoa scale.toNat ++ [')']

theorem format_sizeText (c : Column) (h : c.size ≠ 0) : c.format = c.type ++ sizeText c.size c.scale := by
  unfold Column.format sizeText
  rw [if_neg h]
  split <;> simp

theorem atoi_itoa (n : UInt16) : UInt16.ofNat (atoiDigits (itoa n.toNat)) = n := by
  have : n.toNat < 2 ^ 16 := n.toNat_lt
  rw [atoiDigits, digitsVal_itoa, Nat.min_eq_left (by omega)]
  simp

theorem typeMatchAt_format (name : Str) (size scale : UInt16) (hn : ∀ c ∈ name, isAlpha c = true) :
    ∃ d1 d2, typeMatchAt (name ++ sizeText size scale)
        = (if name = [] then none else some (name, d1, d2)) ∧
      UInt16.ofNat (atoiDigits d1) = size ∧ UInt16.ofNat (atoiDigits d2) = scale := by
  have hd := itoa_digits size.toNat
  have hd2 := itoa_digits scale.toNat
  have hcomma : isDigit ',' = false := by decide
  have hclose : isDigit ')' = false := by decide
  have hopen : isAlpha '(' = false := by decide
  have hsp1 : isReSpaceComma ',' = true := by decide
  have hsp2 : isReSpaceComma ')' = false := by decide
  have hspd : ∀ c, isDigit c = true → isReSpaceComma c = false := by
    intro c hc
    simp only [isDigit, Bool.and_eq_true, decide_eq_true_eq] at hc
    simp only [isReSpaceComma, Bool.or_eq_false_iff, decide_eq_false_iff_not]
    refine ⟨⟨⟨⟨⟨?_, ?_⟩, ?_⟩, ?_⟩, ?_⟩, ?_⟩ <;> (rintro rfl; revert hc; decide)
  have hne := itoa_ne_nil size.toNat
  by_cases h0 : scale = 0
  · refine ⟨itoa size.toNat, [], ?_, atoi_itoa size, ?_⟩
    · have e1 : (name ++ sizeText size scale).takeWhile isAlpha = name := by
        rw [takeWhile_all hn]; simp [sizeText, h0, hopen]
      have e2 : (name ++ sizeText size scale).dropWhile isAlpha = '(' :: (itoa size.toNat ++ [')']) := by
        rw [dropWhile_all hn]; simp [sizeText, h0, hopen]
      have e3 : (itoa size.toNat ++ [')']).takeWhile isDigit = itoa size.toNat := by
        rw [takeWhile_all hd]; simp [hclose]
      have e4 : (itoa size.toNat ++ [')']).dropWhile isDigit = [')'] := by
        rw [dropWhile_all hd]; simp [hclose]
      unfold typeMatchAt
      simp only [e1, e2, e3, e4]
      simp [hsp2, hclose, hne]
    · rw [h0]; rfl
  · refine ⟨itoa size.toNat, itoa scale.toNat, ?_, atoi_itoa size, atoi_itoa scale⟩
    have e1 : (name ++ sizeText size scale).takeWhile isAlpha = name := by
      rw [takeWhile_all hn]; simp [sizeText, h0, hopen]
    have e2 : (name ++ sizeText size scale).dropWhile isAlpha
        = '(' :: (itoa size.toNat ++ ',' :: (itoa scale.toNat ++ [')'])) := by
      rw [dropWhile_all hn]; simp [sizeText, h0, hopen]
    have e3 : (itoa size.toNat ++ ',' :: (itoa scale.toNat ++ [')'])).takeWhile isDigit
        = itoa size.toNat := by
      rw [takeWhile_all hd]; simp [hcomma]
    have e4 : (itoa size.toNat ++ ',' :: (itoa scale.toNat ++ [')'])).dropWhile isDigit
        = ',' :: (itoa scale.toNat ++ [')']) := by
      rw [dropWhile_all hd]; simp [hcomma]
    have e5 : (',' :: (itoa scale.toNat ++ [')'])).dropWhile isReSpaceComma
        = itoa scale.toNat ++ [')'] := by
      rw [List.dropWhile_cons, if_pos hsp1]
      cases hs : itoa scale.toNat with
      | nil => exact absurd hs (itoa_ne_nil _)
      | cons c s =>
        have := hspd c (hd2 c (by simp [hs]))
        simp [this]
    have e6 : (itoa scale.toNat ++ [')']).takeWhile isDigit = itoa scale.toNat := by
      rw [takeWhile_all hd2]; simp [hclose]
    have e7 : (itoa scale.toNat ++ [')']).dropWhile isDigit = [')'] := by
      rw [dropWhile_all hd2]; simp [hclose]
    unfold typeMatchAt
    simp only [e1, e2, e3, e4, e5, e6, e7]
    simp [hne]

/-- A position whose run of letters is not followed by an opening parenthesis starts no match. -/
theorem typeMatchAt_none (w : Str) (c : Char) (t : Str) (hw : ∀ d ∈ w, isAlpha d = true)
    (hc : isAlpha c = false) (hp : c ≠ '(') : typeMatchAt (w ++ c :: t) = none := by
  have e2 : (w ++ c :: t).dropWhile isAlpha = c :: t := by
    rw [dropWhile_all hw]; simp [hc]
  unfold typeMatchAt
  simp only [e2]
  split
  · rename_i h; simp at h; exact absurd h.1 hp
  · rfl

theorem typeMatchAt_nil_name (c : Char) (t : Str) (hc : isAlpha c = false) :
    typeMatchAt (c :: t) = none := by
  unfold typeMatchAt
  simp only [List.takeWhile_cons, hc, List.isEmpty_nil, Bool.true_or, if_true, Bool.false_eq_true, if_false]
  split
  · split <;> rfl
  · rfl

theorem typeMatch_append_skip (pre rest : Str)
    (h : ∀ c a b, pre = a ++ c :: b → typeMatchAt (c :: b ++ rest) = none) :
    typeMatch (pre ++ rest) = typeMatch rest := by
  induction pre with
  | nil => rfl
  | cons c pre ih =>
    have h0 := h c [] pre rfl
    rw [List.cons_append, typeMatch]
    rw [List.cons_append] at h0
    rw [h0]
    exact ih (fun d a b e => h d (c :: a) b (by rw [e]; rfl))

/-- Splitting a text without parentheses into everything up to its longest final run of letters. -/
theorem alpha_suffix (s : Str) : ∃ pre suf, s = pre ++ suf ∧ (∀ c ∈ suf, isAlpha c = true) ∧
    (∀ c p, pre = p ++ [c] → isAlpha c = false) := by
  refine ⟨(s.reverse.dropWhile isAlpha).reverse, (s.reverse.takeWhile isAlpha).reverse, ?_, ?_, ?_⟩
  · rw [← List.reverse_append, List.takeWhile_append_dropWhile, List.reverse_reverse]
  · intro c hc
    rw [List.mem_reverse] at hc
    exact List.mem_takeWhile_imp hc
  · intro c p h
    have : s.reverse.dropWhile isAlpha = c :: p.reverse := by
      have := congrArg List.reverse h
      simpa using this
    exact dropWhile_head _ _ this

/-- Every non-empty start inside `pre` hits a character that is neither a letter nor '('. -/
theorem skip_pre (pre suf rest : Str) (hp : '(' ∉ pre)
    (hlast : ∀ c p, pre = p ++ [c] → isAlpha c = false)
    (c : Char) (a b : Str) (h : pre = a ++ c :: b) : typeMatchAt (c :: b ++ (suf ++ rest)) = none := by
  -- c :: b is non-empty and ends in a non-letter
  obtain ⟨b', l, hb⟩ : ∃ b' l, c :: b = b' ++ [l] := by
    rcases List.eq_nil_or_concat (c :: b) with h | ⟨x, y, h⟩
    · cases h
    · exact ⟨x, y, by simpa using h⟩
  have hl : isAlpha l = false := hlast l (a ++ b') (by rw [h, hb]; simp)
  -- first non-letter of c :: b
  have hsplit := List.takeWhile_append_dropWhile (p := isAlpha) (l := c :: b)
  cases hd : (c :: b).dropWhile isAlpha with
  | nil =>
    exfalso
    have : ∀ x ∈ c :: b, isAlpha x = true := List.dropWhile_eq_nil_iff.1 hd
    have := this l (by rw [hb]; simp)
    rw [hl] at this; cases this
  | cons d ds =>
    rw [hd] at hsplit
    have hdd : isAlpha d = false := dropWhile_head _ _ hd
    have hdp : d ≠ '(' := by
      rintro rfl
      apply hp
      rw [h, ← hsplit]; simp
    rw [← hsplit]
    have := typeMatchAt_none ((c :: b).takeWhile isAlpha) d (ds ++ (suf ++ rest))
      (fun x hx => List.mem_takeWhile_imp hx) hdd hdp
    simpa using this

theorem typeMatch_none_of_no_paren (s : Str) (h : '(' ∉ s) : typeMatch s = none := by
  induction s with
  | nil => rfl
  | cons c s ih =>
    have h2 : typeMatchAt (c :: s) = none := by
      unfold typeMatchAt
      simp only
      split
      · rename_i r hr
        exfalso; apply h
        have := List.dropWhile_sublist isAlpha (l := c :: s)
        rw [hr] at this
        exact this.subset (by simp)
      · rfl
    rw [typeMatch, h2]
    exact ih (fun hh => h (by simp [hh]))

theorem typeMatch_sizeText (size scale : UInt16) : typeMatch (sizeText size scale) = none := by
  have hnp : '(' ∉ (sizeText size scale).tail := by
    have hd : isDigit '(' = false := by decide
    unfold sizeText
    split <;> simp [not_mem_itoa hd]
  have : ∃ t, sizeText size scale = '(' :: t := by unfold sizeText; split <;> simp
  obtain ⟨t, ht⟩ := this
  rw [ht] at hnp ⊢
  rw [typeMatch, typeMatchAt_nil_name _ _ (by decide)]
  exact typeMatch_none_of_no_paren t hnp

end Octo
