import Verif.Basic.Str

/-! Go maps as association lists with distinct keys. -/

namespace Octo

/-- Map assignment `m[k] = v`. -/
def mapSet {κ ν : Type} [DecidableEq κ] : List (κ × ν) → κ → ν → List (κ × ν)
  | [], k, v => [(k, v)]
  | (k', v') :: r, k, v => if k' = k then (k, v) :: r else (k', v') :: mapSet r k v

/-- Map read `v, ok := m[k]`. -/
def mapGet {κ ν : Type} [DecidableEq κ] : List (κ × ν) → κ → Option ν
  | [], _ => none
  | (k', v') :: r, k => if k' = k then some v' else mapGet r k

/-- Assignments in sequence, starting from the empty map. -/
def mapOf {κ ν : Type} [DecidableEq κ] (l : List (κ × ν)) : List (κ × ν) :=
  l.foldl (fun m p => mapSet m p.1 p.2) []

section
variable {κ ν : Type} [DecidableEq κ]

theorem mapGet_mapSet (m : List (κ × ν)) (k k' : κ) (v : ν) :
    mapGet (mapSet m k v) k' = if k = k' then some v else mapGet m k' := by
  induction m with
  | nil => simp [mapSet, mapGet]
  | cons p m ih =>
    obtain ⟨a, b⟩ := p
    simp only [mapSet]
    by_cases h : a = k
    · subst h; by_cases h' : a = k' <;> simp [mapGet, h']
    · simp only [if_neg h, mapGet, ih]
      by_cases h' : a = k'
      · subst h'; simp [Ne.symm h]
      · simp [h']

theorem mapGet_foldl (l : List (κ × ν)) (m : List (κ × ν)) (k : κ) :
    mapGet (l.foldl (fun m p => mapSet m p.1 p.2) m) k =
      ((l.reverse.find? (fun p => p.1 = k)).map Prod.snd).or (mapGet m k) := by
  induction l generalizing m with
  | nil => simp
  | cons p l ih =>
    rw [List.foldl_cons, ih, mapGet_mapSet, List.reverse_cons, List.find?_append]
    cases h : l.reverse.find? (fun q => q.1 = k) with
    | some q => simp
    | none =>
      by_cases hk : p.1 = k <;> simp [hk]

/-- After a sequence of assignments the last one for the key is visible. -/
theorem mapGet_mapOf (l : List (κ × ν)) (k : κ) :
    mapGet (mapOf l) k = (l.reverse.find? (fun p => p.1 = k)).map Prod.snd := by
  rw [mapOf, mapGet_foldl]; simp [mapGet]

theorem mapSet_ne_nil (m : List (κ × ν)) (k : κ) (v : ν) : mapSet m k v ≠ [] := by
  cases m with
  | nil => simp [mapSet]
  | cons p m => simp only [mapSet]; split <;> simp

theorem foldl_mapSet_ne_nil (l : List (κ × ν)) (m : List (κ × ν)) (h : m ≠ [] ∨ l ≠ []) :
    l.foldl (fun m p => mapSet m p.1 p.2) m ≠ [] := by
  induction l generalizing m with
  | nil => simpa using h
  | cons p l ih => exact ih _ (Or.inl (mapSet_ne_nil _ _ _))

theorem mapOf_ne_nil {l : List (κ × ν)} (h : l ≠ []) : mapOf l ≠ [] :=
  foldl_mapSet_ne_nil l [] (Or.inr h)

theorem keys_mapSet (m : List (κ × ν)) (k : κ) (v : ν) :
    (mapSet m k v).map Prod.fst =
      if k ∈ m.map Prod.fst then m.map Prod.fst else m.map Prod.fst ++ [k] := by
  induction m with
  | nil => simp [mapSet]
  | cons p l ih =>
    obtain ⟨a, b⟩ := p
    simp only [mapSet]
    by_cases h : a = k
    · subst h; simp
    · simp only [h, if_false, List.map_cons, ih, List.mem_cons]
      by_cases h2 : k ∈ l.map Prod.fst
      · simp [h2]
      · simp [h2, Ne.symm h]

theorem nodup_mapSet {m : List (κ × ν)} (h : (m.map Prod.fst).Nodup) (k : κ) (v : ν) :
    ((mapSet m k v).map Prod.fst).Nodup := by
  rw [keys_mapSet]
  split
  · exact h
  · rename_i hk
    exact List.nodup_append.2 ⟨h, by simp, by
      intro a ha b hb hab; simp at hb; subst hb; subst hab; exact hk ha⟩

theorem nodup_foldl_mapSet (l m : List (κ × ν)) (h : (m.map Prod.fst).Nodup) :
    ((l.foldl (fun m p => mapSet m p.1 p.2) m).map Prod.fst).Nodup := by
  induction l generalizing m with
  | nil => exact h
  | cons p l ih => exact ih _ (nodup_mapSet h _ _)

theorem nodup_mapOf (l : List (κ × ν)) : ((mapOf l).map Prod.fst).Nodup :=
  nodup_foldl_mapSet l [] (by simp)

theorem mapGet_isSome (m : List (κ × ν)) (k : κ) :
    (mapGet m k).isSome = true ↔ k ∈ m.map Prod.fst := by
  induction m with
  | nil => simp [mapGet]
  | cons p m ih =>
    obtain ⟨a, b⟩ := p
    by_cases h : a = k
    · subst h; simp [mapGet]
    · simp only [mapGet, if_neg h, ih, List.map_cons, List.mem_cons]
      simp [Ne.symm h]

theorem mapGet_mem {m : List (κ × ν)} {k : κ} {v : ν} (h : mapGet m k = some v) : (k, v) ∈ m := by
  induction m with
  | nil => cases h
  | cons p m ih =>
    obtain ⟨a, b⟩ := p
    simp only [mapGet] at h
    split at h
    · rename_i e; cases h; subst e; exact List.mem_cons_self
    · exact List.mem_cons_of_mem _ (ih h)

theorem mapGet_of_mem {m : List (κ × ν)} (hn : (m.map Prod.fst).Nodup) {k : κ} {v : ν}
    (h : (k, v) ∈ m) : mapGet m k = some v := by
  induction m with
  | nil => cases h
  | cons p m ih =>
    obtain ⟨a, b⟩ := p
    simp only [List.map_cons, List.nodup_cons] at hn
    rcases List.mem_cons.1 h with h | h
    · cases h; simp [mapGet]
    · have : a ≠ k := fun e => hn.1 (e ▸ List.mem_map_of_mem (f := Prod.fst) h)
      simp only [mapGet, if_neg this]
      exact ih hn.2 h

end

end Octo
