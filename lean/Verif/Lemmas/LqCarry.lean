import Verif.Lemmas.LqMoves

/-!
# Constraints that follow the columns of a table
-/

namespace Octo.Lq
open Octo.Spec

variable {γ : Type}

/-- What becomes of a constraint that no statement names: it follows renamed columns, and none of its columns
is dropped. -/
def Carry : List (TOp γ) → (Str → Prop) → (Str → Prop) → Prop
  | [], s, s' => s' = s
  | .dropColumn c :: ops, s, s' => ¬s c ∧ Carry ops s s'
  | .renameColumn a b :: ops, s, s' => Carry ops (renameIn a b s) s'
  | _ :: ops, s, s' => Carry ops s s'

/-- Statements that name no other constraint. -/
def AtKey (K : Str) : TOp γ → Prop
  | .dropUnique k => k = K
  | .createUnique k _ => k = K
  | _ => True

/-- The table without other constraints. -/
def strip (K : Str) (T : DbTable γ) : DbTable γ := { T with uniques := fun k => if k = K then T.uniques K else none }

/-- The table with the other constraints of `U`, on the columns `s`. -/
def joined (K : Str) (S : DbTable γ) (U : Str → Option (Str → Prop)) (s : Str → Prop) : DbTable γ :=
  { S with uniques := fun k => if k = K then S.uniques K else (U k).map fun _ => s }

theorem joined_strip {K : Str} {T : DbTable γ} {s : Str → Prop} (h : ∀ k, k ≠ K → ∀ s', T.uniques k = some s' → s' = s) :
    joined K (strip K T) T.uniques s = T := by
  cases T with
  | mk c p u =>
    unfold joined strip
    congr 1
    funext k
    dsimp only
    by_cases hk : k = K
    · rw [if_pos hk, if_pos rfl, hk]
    · rw [if_neg hk]
      cases hu : u k with
      | none => rfl
      | some s' => rw [h k hk s' hu]; rfl

theorem strip_joined {K : Str} {S : DbTable γ} (U : Str → Option (Str → Prop)) (s : Str → Prop)
    (h : ∀ k, k ≠ K → S.uniques k = none) : strip K (joined K S U s) = S := by
  cases S with
  | mk c p u =>
    unfold joined strip
    congr 1
    funext k
    dsimp only
    by_cases hk : k = K
    · rw [if_pos hk, if_pos rfl, hk]
    · rw [if_neg hk]; exact (h k hk).symm

/-- One statement. -/
theorem carry_step {K : Str} {op : TOp γ} (hop : AtKey K op) {S : DbTable γ} {U : Str → Option (Str → Prop)} {s : Str → Prop}
    (hS : ∀ k, k ≠ K → S.uniques k = none) (hU : ∃ k, k ≠ K ∧ (U k).isSome) {T' : DbTable γ} :
    TStep op (joined K S U s) T' ↔ ∃ S' s', TStep op S S' ∧ Carry [op] s s' ∧ (∀ k, k ≠ K → S'.uniques k = none) ∧
      T' = joined K S' U s' := by
  have hat : (joined K S U s).uniques K = S.uniques K := by simp [joined]
  cases op with
  | setPrimaryKey x =>
    constructor
    · rintro ⟨h1, rfl⟩; exact ⟨_, _, ⟨h1, rfl⟩, rfl, hS, rfl⟩
    · rintro ⟨_, _, ⟨h1, rfl⟩, rfl, _, rfl⟩; exact ⟨h1, rfl⟩
  | dropPrimaryKey =>
    constructor
    · rintro ⟨h1, rfl⟩; exact ⟨_, _, ⟨h1, rfl⟩, rfl, hS, rfl⟩
    · rintro ⟨_, _, ⟨h1, rfl⟩, rfl, _, rfl⟩; exact ⟨h1, rfl⟩
  | addPrimaryKey x =>
    constructor
    · rintro ⟨h1, h2, rfl⟩; exact ⟨_, _, ⟨h1, h2, rfl⟩, rfl, hS, rfl⟩
    · rintro ⟨_, _, ⟨h1, h2, rfl⟩, rfl, _, rfl⟩; exact ⟨h1, h2, rfl⟩
  | dropUnique k =>
    cases hop
    have e : ∀ S' : DbTable γ, S' = { S with uniques := upd S.uniques K none } →
        joined K S' U s = { joined K S U s with uniques := upd (joined K S U s).uniques K none } := by
      rintro _ rfl
      unfold joined
      congr 1
      funext k
      by_cases hk : k = K
      · subst hk; simp
      · simp [upd_ne _ _ hk, hk]
    constructor
    · rintro ⟨h1, rfl⟩
      refine ⟨_, _, ⟨by rw [hat] at h1; exact h1, rfl⟩, rfl, ?_, (e _ rfl).symm⟩
      intro k hk; simp only [upd_ne _ _ hk]; exact hS k hk
    · rintro ⟨_, _, ⟨h1, rfl⟩, rfl, _, rfl⟩
      exact ⟨by rw [hat]; exact h1, e _ rfl⟩
  | createUnique k x =>
    cases hop
    have e : ∀ S' : DbTable γ, S' = { S with uniques := upd S.uniques K (some x) } →
        joined K S' U s = { joined K S U s with uniques := upd (joined K S U s).uniques K (some x) } := by
      rintro _ rfl
      unfold joined
      congr 1
      funext k
      by_cases hk : k = K
      · subst hk; simp
      · simp [upd_ne _ _ hk, hk]
    constructor
    · rintro ⟨h1, h2, rfl⟩
      refine ⟨_, _, ⟨by rw [hat] at h1; exact h1, h2, rfl⟩, rfl, ?_, (e _ rfl).symm⟩
      intro k hk; simp only [upd_ne _ _ hk]; exact hS k hk
    · rintro ⟨_, _, ⟨h1, h2, rfl⟩, rfl, _, rfl⟩
      exact ⟨by rw [hat]; exact h1, h2, e _ rfl⟩
  | addColumn c g =>
    constructor
    · rintro ⟨h1, rfl⟩; exact ⟨_, _, ⟨h1, rfl⟩, rfl, hS, rfl⟩
    · rintro ⟨_, _, ⟨h1, rfl⟩, rfl, _, rfl⟩; exact ⟨h1, rfl⟩
  | dropColumn c =>
    constructor
    · rintro ⟨h1, h2, rfl⟩
      refine ⟨_, s, ⟨h1, ?_, rfl⟩, ⟨?_, rfl⟩, hS, rfl⟩
      · intro k x hk
        by_cases hkk : k = K
        · subst hkk; exact h2 k x (by rw [hat]; exact hk)
        · rw [hS k hkk] at hk; cases hk
      · obtain ⟨k, hk, hs⟩ := hU
        obtain ⟨x, hx⟩ := Option.isSome_iff_exists.1 hs
        exact h2 k s (by simp [joined, hk, hx])
    · rintro ⟨_, _, ⟨h1, h2, rfl⟩, ⟨h3, rfl⟩, _, rfl⟩
      refine ⟨h1, ?_, rfl⟩
      intro k x hk
      by_cases hkk : k = K
      · subst hkk; exact h2 k x (by rw [hat] at hk; exact hk)
      · simp only [joined, if_neg hkk, Option.map_eq_some_iff] at hk
        obtain ⟨_, _, rfl⟩ := hk
        exact h3
  | renameColumn a b =>
    have e : ∀ S' : DbTable γ, S' = ⟨upd (upd S.cols a none) b (S.cols a), renameIn a b S.pk,
          fun k => (S.uniques k).map (renameIn a b)⟩ →
        joined K S' U (renameIn a b s) = ⟨upd (upd S.cols a none) b (S.cols a), renameIn a b S.pk,
          fun k => ((joined K S U s).uniques k).map (renameIn a b)⟩ := by
      rintro _ rfl
      unfold joined
      congr 1
      funext k
      by_cases hk : k = K
      · subst hk; simp
      · simp [hk, Option.map_map, Function.comp_def]
    constructor
    · rintro ⟨h1, h2, rfl⟩
      refine ⟨_, _, ⟨h1, h2, rfl⟩, rfl, ?_, (e _ rfl).symm⟩
      intro k hk; simp [hS k hk]
    · rintro ⟨_, _, ⟨h1, h2, rfl⟩, rfl, _, rfl⟩
      exact ⟨h1, h2, e _ rfl⟩
  | modify c f =>
    constructor
    · rintro ⟨g, h1, rfl⟩; exact ⟨_, _, ⟨g, h1, rfl⟩, rfl, hS, rfl⟩
    · rintro ⟨_, _, ⟨g, h1, rfl⟩, rfl, _, rfl⟩; exact ⟨g, h1, rfl⟩
  | outsideKey c =>
    constructor
    · rintro ⟨h1, rfl⟩; exact ⟨_, _, ⟨h1, rfl⟩, rfl, hS, rfl⟩
    · rintro ⟨_, _, ⟨h1, rfl⟩, rfl, _, rfl⟩; exact ⟨h1, rfl⟩
  | remark =>
    constructor
    · rintro rfl; exact ⟨_, _, rfl, rfl, hS, rfl⟩
    · rintro ⟨_, _, rfl, rfl, _, rfl⟩; exact rfl

theorem carry_append {a b : List (TOp γ)} {s s'' : Str → Prop} :
    Carry (a ++ b) s s'' ↔ ∃ s', Carry a s s' ∧ Carry b s' s'' := by
  induction a generalizing s with
  | nil => exact ⟨fun h => ⟨s, rfl, h⟩, fun ⟨_, h, h'⟩ => by cases h; exact h'⟩
  | cons op a ih =>
    cases op with
    | dropColumn c =>
      constructor
      · rintro ⟨h1, h2⟩
        obtain ⟨s', h3, h4⟩ := ih.1 h2
        exact ⟨s', ⟨h1, h3⟩, h4⟩
      · rintro ⟨s', ⟨h1, h2⟩, h3⟩
        exact ⟨h1, ih.2 ⟨s', h2, h3⟩⟩
    | _ => exact ih

/-- Statements do not make other constraints. -/
theorem step_free {K : Str} {op : TOp γ} (hop : AtKey K op) {S S' : DbTable γ} (hS : ∀ k, k ≠ K → S.uniques k = none)
    (h : TStep op S S') : ∀ k, k ≠ K → S'.uniques k = none := by
  intro k hk
  cases op with
  | setPrimaryKey x => obtain ⟨_, rfl⟩ := h; exact hS k hk
  | dropPrimaryKey => obtain ⟨_, rfl⟩ := h; exact hS k hk
  | addPrimaryKey x => obtain ⟨_, _, rfl⟩ := h; exact hS k hk
  | dropUnique x => cases hop; obtain ⟨_, rfl⟩ := h; simp only [upd_ne _ _ hk]; exact hS k hk
  | createUnique x y => cases hop; obtain ⟨_, _, rfl⟩ := h; simp only [upd_ne _ _ hk]; exact hS k hk
  | addColumn c g => obtain ⟨_, rfl⟩ := h; exact hS k hk
  | dropColumn c => obtain ⟨_, _, rfl⟩ := h; exact hS k hk
  | renameColumn a b => obtain ⟨_, _, rfl⟩ := h; simp [hS k hk]
  | modify c f => obtain ⟨_, _, rfl⟩ := h; exact hS k hk
  | outsideKey c => obtain ⟨_, rfl⟩ := h; exact hS k hk
  | remark => cases h; exact hS k hk

theorem runs_free {K : Str} {ops : List (TOp γ)} (hops : ∀ op ∈ ops, AtKey K op) {S S' : DbTable γ}
    (hS : ∀ k, k ≠ K → S.uniques k = none) (h : TRuns ops S S') : ∀ k, k ≠ K → S'.uniques k = none := by
  induction ops generalizing S with
  | nil => cases h; exact hS
  | cons op ops ih =>
    obtain ⟨S1, h1, h2⟩ := h
    exact ih (fun o ho => hops o (List.mem_cons_of_mem _ ho)) (step_free (hops op List.mem_cons_self) hS h1) h2

/-- All statements. -/
theorem carry_runs {K : Str} {ops : List (TOp γ)} (hops : ∀ op ∈ ops, AtKey K op) {S : DbTable γ}
    {U : Str → Option (Str → Prop)} {s : Str → Prop} (hS : ∀ k, k ≠ K → S.uniques k = none)
    (hU : ∃ k, k ≠ K ∧ (U k).isSome) {T' : DbTable γ} :
    TRuns ops (joined K S U s) T' ↔ ∃ S' s', TRuns ops S S' ∧ Carry ops s s' ∧ T' = joined K S' U s' := by
  induction ops generalizing S s with
  | nil =>
    constructor
    · intro h; exact ⟨S, s, rfl, rfl, h⟩
    · rintro ⟨_, _, h, h', rfl⟩; cases h; cases h'; exact rfl
  | cons op ops ih =>
    have hcons : ∀ s', Carry (op :: ops) s s' ↔ ∃ s1, Carry [op] s s1 ∧ Carry ops s1 s' :=
      fun s' => carry_append (a := [op])
    constructor
    · rintro ⟨T1, h1, h2⟩
      obtain ⟨S1, s1, h3, h4, h5, rfl⟩ := (carry_step (hops op List.mem_cons_self) hS hU).1 h1
      obtain ⟨S', s', h6, h7, h8⟩ := (ih (fun o ho => hops o (List.mem_cons_of_mem _ ho)) h5).1 h2
      exact ⟨S', s', ⟨S1, h3, h6⟩, (hcons s').2 ⟨s1, h4, h7⟩, h8⟩
    · rintro ⟨S', s', ⟨S1, h3, h6⟩, h7, rfl⟩
      obtain ⟨s1, h4, h7⟩ := (hcons s').1 h7
      have h5 := step_free (hops op List.mem_cons_self) hS h3
      exact ⟨joined K S1 U s1, (carry_step (hops op List.mem_cons_self) hS hU).2 ⟨S1, s1, h3, h4, h5, rfl⟩,
        (ih (fun o ho => hops o (List.mem_cons_of_mem _ ho)) h5).2 ⟨S', s', h6, h7, rfl⟩⟩

/-! ### The statements for a table -/

/-- Statements that neither drop nor rename a column. -/
def Steady : TOp γ → Prop
  | .dropColumn _ | .renameColumn _ _ => False
  | _ => True

theorem carry_steady {ops : List (TOp γ)} (h : ∀ op ∈ ops, Steady op) {s s' : Str → Prop} : Carry ops s s' ↔ s' = s := by
  induction ops generalizing s with
  | nil => exact Iff.rfl
  | cons op ops ih =>
    have h1 := h op List.mem_cons_self
    have ih := ih (fun o ho => h o (List.mem_cons_of_mem _ ho)) (s := s)
    cases op with
    | dropColumn c => exact h1.elim
    | renameColumn a b => exact h1.elim
    | _ => exact ih

theorem carry_drops {l : List Str} {s s' : Str → Prop} :
    Carry (γ := γ) (l.map .dropColumn) s s' ↔ (∀ n ∈ l, ¬s n) ∧ s' = s := by
  induction l with
  | nil => exact ⟨fun h => ⟨by simp, h⟩, fun h => h.2⟩
  | cons n l ih =>
    rw [List.map_cons, Carry, ih]
    simp only [List.forall_mem_cons]
    exact and_assoc.symm

theorem moveOps_cons (env : LqEnv) (p : Column × Column) :
    ∃ rest, (∀ op ∈ rest, Steady op) ∧ moveOps env p = .renameColumn p.2.name p.1.name :: rest := by
  refine ⟨_, ?_, rfl⟩
  intro op hop
  rcases List.mem_cons.1 hop with rfl | h
  · trivial
  · split at h
    · rw [List.mem_singleton.1 h]; trivial
    · cases h

theorem carry_moves (env : LqEnv) {ks : List (Column × Column)} {s s' : Str → Prop}
    (ho : (ks.map fun p => p.2.name).Nodup) (hd : ∀ p ∈ ks, ∀ q ∈ ks, p.2.name ≠ q.1.name) :
    Carry (ks.flatMap (moveOps env)) s s' ↔
      s' = fun n => (∃ p ∈ ks, n = p.1.name ∧ s p.2.name) ∨ (n ∉ ks.map (fun p => p.2.name) ∧ s n) := by
  induction ks generalizing s with
  | nil =>
    have : (fun n => (∃ p ∈ ([] : List (Column × Column)), n = p.1.name ∧ s p.2.name) ∨ (n ∉ ([] : List Str) ∧ s n)) = s := by
      funext n; simp
    show s' = s ↔ _
    exact Iff.of_eq (congrArg (s' = ·) this.symm)
  | cons p ks ih =>
    rw [List.map_cons, List.nodup_cons] at ho
    have hok : ∀ q ∈ ks, q.2.name ≠ p.2.name := fun q hq e => ho.1 (by rw [← e]; exact List.mem_map_of_mem hq)
    have h1 : Carry (moveOps env p ++ ks.flatMap (moveOps env)) s s' ↔
        Carry (ks.flatMap (moveOps env)) (renameIn p.2.name p.1.name s) s' := by
      obtain ⟨rest, hrest, e⟩ := moveOps_cons env p
      rw [e]
      show Carry (rest ++ ks.flatMap (moveOps env)) (renameIn p.2.name p.1.name s) s' ↔ _
      rw [carry_append]
      constructor
      · rintro ⟨x, h2, h3⟩
        cases (carry_steady hrest).1 h2
        exact h3
      · intro h
        exact ⟨_, (carry_steady hrest).2 rfl, h⟩
    rw [List.flatMap_cons, h1, ih ho.2 (fun a ha b hb => hd a (List.mem_cons_of_mem _ ha) b (List.mem_cons_of_mem _ hb))]
    refine Iff.of_eq (congrArg (s' = ·) ?_)
    funext n
    apply propext
    simp only [renameIn, List.map_cons, List.mem_cons, not_or, exists_eq_or_imp]
    constructor
    · rintro (⟨q, hq, rfl, h | h⟩ | ⟨h1, h | h⟩)
      · exact absurd h.1 (hd q (List.mem_cons_of_mem _ hq) p List.mem_cons_self)
      · exact Or.inl (Or.inr ⟨q, hq, rfl, h.2⟩)
      · exact Or.inl (Or.inl h)
      · exact Or.inr ⟨⟨h.1, h1⟩, h.2⟩
    · rintro ((h | ⟨q, hq, rfl, h⟩) | ⟨⟨h1, h2⟩, h3⟩)
      · refine Or.inr ⟨?_, Or.inl h⟩
        intro hm
        obtain ⟨q, hq, e⟩ := List.mem_map.1 hm
        exact hd q (List.mem_cons_of_mem _ hq) p List.mem_cons_self (e.trans h.1)
      · exact Or.inl ⟨q, hq, rfl, Or.inr ⟨hok q hq, h⟩⟩
      · exact Or.inr ⟨h2, Or.inr ⟨h1, h3⟩⟩

theorem endSets_steady (env : LqEnv) (t o : Table) (suffix : Str) :
    ∀ op ∈ setsTOps env (endSets t o suffix), Steady op ∧ AtKey (t.name ++ suffix) op := by
  intro op hop
  rw [endSets, setsTOps_append, setsTOps_whenS, setsTOps_whenS] at hop
  rcases List.mem_append.1 hop with h | h
  · split at h
    · rw [pkChanges, List.flatMap_append] at h
      rcases List.mem_append.1 h with h | h
      · split at h
        · simp only [List.flatMap_cons, List.flatMap_nil, List.append_nil, lqTableOps, List.mem_singleton] at h
          rw [h]; exact ⟨trivial, trivial⟩
        · cases h
      · split at h
        · simp only [List.flatMap_cons, List.flatMap_nil, List.append_nil, lqTableOps, List.mem_cons, List.mem_map] at h
          rcases h with rfl | ⟨n, _, rfl⟩ <;> exact ⟨trivial, trivial⟩
        · cases h
    · cases h
  · split at h
    · rw [uqChanges] at h
      split at h
      · simp only [List.flatMap_cons, List.flatMap_nil, List.append_nil, lqTableOps, List.mem_singleton] at h
        rw [h]; exact ⟨trivial, rfl⟩
      · cases h
    · cases h

theorem stayOps_steady (env : LqEnv) (uc : Bool) (c b : Column) (K : Str) : ∀ op ∈ stayOps env uc c b, Steady op ∧ AtKey K op := by
  intro op hop
  have := stayOps_quiet env uc c b op hop
  cases op with
  | modify _ _ => exact ⟨trivial, trivial⟩
  | outsideKey _ => exact ⟨trivial, trivial⟩
  | remark => exact ⟨trivial, trivial⟩
  | _ => exact this.elim

theorem tableOps_at (env : LqEnv) (sched : List (Column × Column) → List (Column × Column)) (t o : Table) (uc : Bool) (suffix : Str) :
    ∀ op ∈ tableOps env sched t o uc suffix, AtKey (t.name ++ suffix) op := by
  intro op hop
  unfold tableOps at hop
  simp only [List.mem_append] at hop
  rcases hop with h | h | h | h | h | h | h
  · split at h
    · rw [List.mem_singleton.1 h]; trivial
    · cases h
  · obtain ⟨p, _, h⟩ := List.mem_flatMap.1 h
    exact (stayOps_steady env uc p.1 p.2 _ op h).2
  · split at h
    · rw [List.mem_singleton.1 h]; rfl
    · cases h
  · obtain ⟨n, _, rfl⟩ := List.mem_map.1 h; trivial
  · obtain ⟨p, _, h⟩ := List.mem_flatMap.1 h
    unfold moveOps at h
    simp only [List.mem_append, List.mem_singleton] at h
    rcases h with rfl | rfl | h
    · trivial
    · trivial
    · split at h
      · rw [List.mem_singleton.1 h]; trivial
      · cases h
  · obtain ⟨n, _, rfl⟩ := List.mem_map.1 h; trivial
  · exact (endSets_steady env t o suffix op h).2

/-- What becomes of the further constraints of a table. -/
theorem carry_table (env : LqEnv) {sched : List (Column × Column) → List (Column × Column)} (hs : ∀ l, (sched l).Perm l)
    (t o : Table) (uc : Bool) (suffix : Str) {s s' : Str → Prop} :
    Carry (tableOps env sched t o uc suffix) s s' ↔ (∀ n ∈ (columnRenames t o uc).2.keys, ¬s n) ∧
      s' = fun n => (∃ p ∈ renamedPairs (columnRenames t o uc).1, n = p.1.name ∧ s p.2.name) ∨
        (n ∉ (renamedPairs (columnRenames t o uc).1).map (fun p => p.2.name) ∧ s n) := by
  have hpart := findRenames_partition (get := o.columnNameMap) (m := fun a b => a.isRenamed b (!uc))
    (fun c => c.name) (fun n r h => (lastBy_some h).2) (addedColumns t o) (removedNames t o) (nodup_removedNames t o)
  change ((renamedPairs (columnRenames t o uc).1).map (fun p => p.2.name) ++ (columnRenames t o uc).2.keys).Perm _ at hpart
  have hpnd := (List.nodup_append.1 (hpart.nodup_iff.2 (nodup_removedNames t o))).1
  have hperm := hs (renamedPairs (columnRenames t o uc).1)
  have h1 : ∀ op ∈ (if (uc && t.description != o.description) = true then [TOp.remark] else [] : List (TOp LqAttr)), Steady op := by
    intro op h
    split at h
    · rw [List.mem_singleton.1 h]; trivial
    · cases h
  have h2 : ∀ op ∈ (keptColumns t o).flatMap (fun p => stayOps env uc p.1 p.2), Steady op := by
    intro op h
    obtain ⟨p, _, h⟩ := List.mem_flatMap.1 h
    exact (stayOps_steady env uc p.1 p.2 [] op h).1
  have h3 : ∀ op ∈ (if uniqueChanged t o = true then [TOp.dropUnique (t.name ++ suffix)] else [] : List (TOp LqAttr)), Steady op := by
    intro op h
    split at h
    · rw [List.mem_singleton.1 h]; trivial
    · cases h
  have h5 : ∀ op ∈ (notRenamed (columnRenames t o uc).1).map (fun c => TOp.addColumn c.name (arrival env uc t o c)), Steady op := by
    intro op h
    obtain ⟨n, _, rfl⟩ := List.mem_map.1 h; trivial
  have h6 := fun op h => (endSets_steady env t o suffix op h).1
  have hmv : ∀ s s', Carry ((sched (renamedPairs (columnRenames t o uc).1)).flatMap (moveOps env)) s s' ↔
      s' = fun n => (∃ p ∈ renamedPairs (columnRenames t o uc).1, n = p.1.name ∧ s p.2.name) ∨
        (n ∉ (renamedPairs (columnRenames t o uc).1).map (fun p => p.2.name) ∧ s n) := by
    intro s s'
    rw [carry_moves env ((hperm.map _).nodup_iff.2 hpnd)]
    · refine Iff.of_eq (congrArg (s' = ·) ?_)
      funext n
      apply propext
      rw [(hperm.map (fun p => p.2.name)).mem_iff]
      refine or_congr ?_ Iff.rfl
      exact exists_congr fun p => and_congr hperm.mem_iff Iff.rfl
    · intro p hp q hq e
      obtain ⟨_, _, _, h4, _⟩ := columnPairs_spec (hperm.mem_iff.1 hp)
      exact h4 (by rw [e]; exact List.mem_map_of_mem (columnPairs_spec (hperm.mem_iff.1 hq)).1)
  unfold tableOps
  constructor
  · intro h
    obtain ⟨s1, a1, h⟩ := carry_append.1 h
    cases (carry_steady h1).1 a1
    obtain ⟨s2, a2, h⟩ := carry_append.1 h
    cases (carry_steady h2).1 a2
    obtain ⟨s3, a3, h⟩ := carry_append.1 h
    cases (carry_steady h3).1 a3
    obtain ⟨s4, a4, h⟩ := carry_append.1 h
    obtain ⟨b4, e⟩ := carry_drops.1 a4
    cases e
    obtain ⟨s5, a5, h⟩ := carry_append.1 h
    obtain ⟨s6, a6, h⟩ := carry_append.1 h
    cases (carry_steady h5).1 a6
    cases (carry_steady h6).1 h
    exact ⟨fun n hn => b4 n (mem_slice.2 hn), (hmv _ _).1 a5⟩
  · rintro ⟨h, e⟩
    refine carry_append.2 ⟨s, (carry_steady h1).2 rfl, carry_append.2 ⟨s, (carry_steady h2).2 rfl,
      carry_append.2 ⟨s, (carry_steady h3).2 rfl, carry_append.2 ⟨s, carry_drops.2 ⟨fun n hn => h n (mem_slice.1 hn), rfl⟩,
      carry_append.2 ⟨s', (hmv _ _).2 e, carry_append.2 ⟨s', (carry_steady h5).2 rfl, (carry_steady h6).2 rfl⟩⟩⟩⟩⟩⟩

end Octo.Lq
