import Verif.Spec.Database

/-! Lemmas about executing lists of database statements. -/

namespace Octo
open Spec

variable {γ : Type}

@[simp] theorem upd_same {α : Type} (f : Str → Option α) (n : Str) (v : Option α) : upd f n v n = v := by
  simp [upd]

theorem upd_ne {α : Type} (f : Str → Option α) {n m : Str} (v : Option α) (h : m ≠ n) : upd f n v m = f m := by
  simp [upd, h]

theorem upd_self {α : Type} (f : Str → Option α) (n : Str) : upd f n (f n) = f := by
  funext m; by_cases h : m = n
  · subst h; simp
  · rw [upd_ne _ _ h]

theorem upd_upd {α : Type} (f : Str → Option α) (n : Str) (v w : Option α) :
    upd (upd f n v) n w = upd f n w := by
  funext m; by_cases h : m = n
  · subst h; simp
  · simp [upd_ne _ _ h]

theorem tRuns_append {a b : List (TOp γ)} {t t' t'' : DbTable γ} (h1 : TRuns a t t') (h2 : TRuns b t' t'') :
    TRuns (a ++ b) t t'' := by
  induction a generalizing t with
  | nil => cases h1; exact h2
  | cons o r ih => obtain ⟨u, hs, hr⟩ := h1; exact ⟨u, hs, ih hr⟩

theorem runs_append {a b : List (DbOp γ)} {t t' t'' : Db γ} (h1 : Runs a t t') (h2 : Runs b t' t'') :
    Runs (a ++ b) t t'' := by
  induction a generalizing t with
  | nil => cases h1; exact h2
  | cons o r ih => obtain ⟨u, hs, hr⟩ := h1; exact ⟨u, hs, ih hr⟩

theorem tRuns_one {o : TOp γ} {t t' : DbTable γ} (h : TStep o t t') : TRuns [o] t t' := ⟨t', h, rfl⟩

theorem runs_one {o : DbOp γ} {t t' : Db γ} (h : Step o t t') : Runs [o] t t' := ⟨t', h, rfl⟩

theorem runs_alter {ops : List (TOp γ)} {d : Db γ} {n : Str} {t t' : DbTable γ} (hd : d n = some t)
    (h : TRuns ops t t') : Runs (ops.map (.alter n)) d (upd d n (some t')) := by
  induction ops generalizing d t with
  | nil => cases h; rw [← hd, upd_self]; rfl
  | cons o r ih =>
    obtain ⟨u, hs, hr⟩ := h
    refine ⟨upd d n (some u), ⟨t, u, hd, hs, rfl⟩, ?_⟩
    have := ih (d := upd d n (some u)) (by simp) hr
    rwa [upd_upd] at this

/-- Runs of a conditional statement. -/
theorem tRuns_modifyIf (b : Bool) (n : Str) (f : γ → γ) (t : DbTable γ) (g : γ) (hg : t.cols n = some g) :
    TRuns (if b then [.modify n f] else []) t
      { t with cols := upd t.cols n (some (if b then f g else g)) } := by
  cases b
  · simp only [TRuns, Bool.false_eq_true, if_false]; rw [← hg, upd_self]
  · exact tRuns_one ⟨g, hg, rfl⟩

/-- Changing attributes of several columns. -/
theorem tRuns_columns {κ : Type} (name : κ → Str) (g g' : κ → γ) (ops : κ → List (TOp γ)) (ks : List κ)
    (pk : Str → Prop)
    (hstep : ∀ k ∈ ks, ∀ t : DbTable γ, t.pk = pk → t.cols (name k) = some (g k) →
      TRuns (ops k) t { t with cols := upd t.cols (name k) (some (g' k)) })
    (hn : (ks.map name).Nodup) (t : DbTable γ) (hpk : t.pk = pk) (hp : ∀ k ∈ ks, t.cols (name k) = some (g k)) :
    ∃ c, TRuns (ks.flatMap ops) t { t with cols := c } ∧ (∀ k ∈ ks, c (name k) = some (g' k)) ∧
      ∀ m, m ∉ ks.map name → c m = t.cols m := by
  induction ks generalizing t with
  | nil => exact ⟨t.cols, rfl, by simp, fun _ _ => rfl⟩
  | cons k ks ih =>
    rw [List.map_cons, List.nodup_cons] at hn
    obtain ⟨c, h1, h2, h3⟩ := ih (fun k' hk' => hstep k' (by simp [hk'])) hn.2
      { t with cols := upd t.cols (name k) (some (g' k)) } hpk (by
        intro k' hk'
        have : name k' ≠ name k := fun e => hn.1 (e ▸ List.mem_map_of_mem hk')
        simp only [upd_ne _ _ this]
        exact hp k' (by simp [hk']))
    refine ⟨c, tRuns_append (hstep k (by simp) t hpk (hp k (by simp))) h1, ?_, ?_⟩
    · intro k' hk'
      rcases List.mem_cons.1 hk' with rfl | hk'
      · rw [h3 _ hn.1]; simp
      · exact h2 k' hk'
    · intro m hm
      simp only [List.map_cons, List.mem_cons, not_or] at hm
      rw [h3 m hm.2]; simp [upd_ne _ _ hm.1]

/-- Dropping several columns. -/
theorem tRuns_dropColumns (ns : List Str) (hn : ns.Nodup) (t : DbTable γ)
    (hp : ∀ n ∈ ns, (t.cols n).isSome) (hu : ∀ k s, t.uniques k = some s → ∀ n ∈ ns, ¬s n) :
    ∃ t', TRuns (ns.map .dropColumn) t t' ∧ t'.uniques = t.uniques ∧ (∀ n ∈ ns, t'.cols n = none) ∧
      (∀ n, n ∉ ns → t'.cols n = t.cols n) ∧ ∀ n, t'.pk n ↔ n ∉ ns ∧ t.pk n := by
  induction ns generalizing t with
  | nil => exact ⟨t, rfl, rfl, by simp, fun _ _ => rfl, fun _ => by simp⟩
  | cons n ns ih =>
    rw [List.nodup_cons] at hn
    obtain ⟨t', h1, h2, h3, h4, h5⟩ := ih hn.2
      { t with cols := upd t.cols n none, pk := fun m => m ≠ n ∧ t.pk m } (by
        intro m hm
        have : m ≠ n := fun e => hn.1 (e ▸ hm)
        simp only [upd_ne _ _ this]; exact hp m (by simp [hm]))
      (fun k s hs m hm => hu k s hs m (by simp [hm]))
    refine ⟨t', ⟨_, ⟨hp n (by simp), fun k s hs => hu k s hs n (by simp), rfl⟩, h1⟩, h2, ?_, ?_, ?_⟩
    · intro m hm
      rcases List.mem_cons.1 hm with rfl | hm
      · rw [h4 m hn.1]; simp
      · exact h3 m hm
    · intro m hm
      simp only [List.mem_cons, not_or] at hm
      rw [h4 m hm.2]; simp [upd_ne _ _ hm.1]
    · intro m
      rw [h5 m]
      simp only [List.mem_cons, not_or]
      exact ⟨fun h => ⟨⟨h.2.1, h.1⟩, h.2.2⟩, fun h => ⟨h.1.2, h.1.1, h.2⟩⟩

theorem renameIn_of_not {a b : Str} {s : Str → Prop} (h : ¬s a) : renameIn a b s = s := by
  funext n
  apply propext
  constructor
  · rintro (⟨_, h'⟩ | ⟨_, h'⟩)
    · exact absurd h' h
    · exact h'
  · intro hn; exact Or.inr ⟨fun e => h (e ▸ hn), hn⟩

/-- The table after renaming column `a` to `b`. -/
def renamedT (t : DbTable γ) (a b : Str) : DbTable γ :=
  { cols := upd (upd t.cols a none) b (t.cols a), pk := renameIn a b t.pk,
    uniques := fun k => (t.uniques k).map (renameIn a b) }

/-- The table after renaming column `a` to `b`, which gets the attributes `g`. -/
def renamedTo (t : DbTable γ) (a b : Str) (g : γ) : DbTable γ :=
  { cols := upd (upd t.cols a none) b (some g), pk := renameIn a b t.pk,
    uniques := fun k => (t.uniques k).map (renameIn a b) }

/-- Renaming several columns, each by some statements with the effect of a rename that may change attributes. -/
theorem tRuns_renames_to {κ : Type} (old new : κ → Str) (g : κ → γ) (ops : κ → List (TOp γ)) (ks : List κ) (t : DbTable γ)
    (hstep : ∀ k ∈ ks, ∀ u : DbTable γ, u.cols (old k) = t.cols (old k) → u.cols (new k) = none →
      TRuns (ops k) u (renamedTo u (old k) (new k) (g k)))
    (ho : (ks.map old).Nodup) (hn : (ks.map new).Nodup)
    (hp : ∀ k ∈ ks, (t.cols (old k)).isSome) (ha : ∀ k ∈ ks, t.cols (new k) = none)
    (hu : ∀ k s, t.uniques k = some s → ∀ e ∈ ks, ¬s (old e)) :
    ∃ t', TRuns (ks.flatMap ops) t t' ∧ t'.uniques = t.uniques ∧
      (∀ k ∈ ks, t'.cols (new k) = some (g k)) ∧
      (∀ n, n ∉ ks.map old → n ∉ ks.map new → t'.cols n = t.cols n) ∧
      (∀ n, n ∈ ks.map old → t'.cols n = none) ∧
      ∀ n, t'.pk n ↔ (∃ k ∈ ks, n = new k ∧ t.pk (old k)) ∨ (n ∉ ks.map old ∧ t.pk n) := by
  have hdisj : ∀ k ∈ ks, ∀ k' ∈ ks, old k ≠ new k' := by
    intro k hk k' hk' e
    have := hp k hk; rw [e, ha k' hk'] at this; cases this
  induction ks generalizing t with
  | nil => exact ⟨t, rfl, rfl, by simp, fun _ _ _ => rfl, by simp, fun _ => by simp⟩
  | cons k ks ih =>
    rw [List.map_cons, List.nodup_cons] at ho hn
    have hok : ∀ k' ∈ ks, old k' ≠ old k := fun k' hk' e => ho.1 (e ▸ List.mem_map_of_mem hk')
    have hnk : ∀ k' ∈ ks, new k' ≠ new k := fun k' hk' e => hn.1 (e ▸ List.mem_map_of_mem hk')
    have hcol : ∀ n, n ≠ old k → n ≠ new k → (renamedTo t (old k) (new k) (g k)).cols n = t.cols n := by
      intro n h1 h2; simp [renamedTo, upd_ne _ _ h2, upd_ne _ _ h1]
    have huq : (renamedTo t (old k) (new k) (g k)).uniques = t.uniques := by
      funext x
      simp only [renamedTo]
      cases hx : t.uniques x with
      | none => rfl
      | some s => simp [renameIn_of_not (hu x s hx k (by simp))]
    obtain ⟨t', h1, h2, h3, h4, h5, h6⟩ := ih (renamedTo t (old k) (new k) (g k))
      (fun k' hk' u hu1 hu2 => hstep k' (by simp [hk']) u (by
        rw [hu1, hcol _ (hok k' hk') (hdisj k' (by simp [hk']) k (by simp))]) hu2)
      ho.2 hn.2
      (fun k' hk' => by rw [hcol _ (hok k' hk') (hdisj k' (by simp [hk']) k (by simp))]; exact hp k' (by simp [hk']))
      (fun k' hk' => by
        rw [hcol _ (fun e => hdisj k (by simp) k' (by simp [hk']) e.symm) (hnk k' hk')]; exact ha k' (by simp [hk']))
      (by rw [huq]; exact fun x s hx e he => hu x s hx e (by simp [he]))
      (fun a ha b hb => hdisj a (by simp [ha]) b (by simp [hb]))
    refine ⟨t', tRuns_append (hstep k (by simp) t rfl (ha k (by simp))) h1, h2.trans huq, ?_, ?_, ?_, ?_⟩
    · intro k' hk'
      rcases List.mem_cons.1 hk' with rfl | hk'
      · rw [h4 _ ?_ hn.1]
        · simp [renamedTo]
        · intro hm
          obtain ⟨k2, hk2, e⟩ := List.mem_map.1 hm
          exact hdisj k2 (by simp [hk2]) k' (by simp) e
      · exact h3 k' hk'
    · intro n h7 h8
      simp only [List.map_cons, List.mem_cons, not_or] at h7 h8
      rw [h4 n h7.2 h8.2, hcol n h7.1 h8.1]
    · intro n hm
      rcases List.mem_cons.1 hm with rfl | hm
      · have hne : old k ≠ new k := hdisj k (by simp) k (by simp)
        rw [h4 _ ho.1 ?_]
        · simp [renamedTo, upd_ne _ _ hne]
        · intro hm'
          obtain ⟨k2, hk2, e⟩ := List.mem_map.1 hm'
          exact hdisj k (by simp) k2 (by simp [hk2]) e.symm
      · exact h5 n hm
    · intro n
      rw [h6 n]
      have hpk : ∀ m, (renamedTo t (old k) (new k) (g k)).pk m ↔ (m = new k ∧ t.pk (old k)) ∨ (m ≠ old k ∧ t.pk m) :=
        fun m => Iff.rfl
      simp only [hpk, List.map_cons, List.mem_cons, not_or]
      constructor
      · rintro (⟨e, he, rfl, h | h⟩ | ⟨h7, ⟨rfl, h⟩ | h⟩)
        · exact absurd h.1 (hdisj e (by simp [he]) k (by simp))
        · exact Or.inl ⟨e, Or.inr he, rfl, h.2⟩
        · exact Or.inl ⟨k, Or.inl rfl, rfl, h⟩
        · exact Or.inr ⟨⟨h.1, h7⟩, h.2⟩
      · rintro (⟨e, rfl | he, rfl, h⟩ | ⟨⟨h7, h8⟩, h⟩)
        · refine Or.inr ⟨?_, Or.inl ⟨rfl, h⟩⟩
          intro hm
          obtain ⟨k2, hk2, e⟩ := List.mem_map.1 hm
          exact hdisj k2 (by simp [hk2]) _ (by simp) e
        · exact Or.inl ⟨e, he, rfl, Or.inr ⟨hok e he, h⟩⟩
        · exact Or.inr ⟨h8, Or.inr ⟨h7, h⟩⟩

/-- Renaming several columns, each by some statements with the effect of a rename. -/
theorem tRuns_renames {κ : Type} (old new : κ → Str) (ops : κ → List (TOp γ)) (ks : List κ) (t : DbTable γ)
    (hstep : ∀ k ∈ ks, ∀ u : DbTable γ, u.cols (old k) = t.cols (old k) → u.cols (new k) = none →
      TRuns (ops k) u (renamedT u (old k) (new k)))
    (ho : (ks.map old).Nodup) (hn : (ks.map new).Nodup)
    (hp : ∀ k ∈ ks, (t.cols (old k)).isSome) (ha : ∀ k ∈ ks, t.cols (new k) = none)
    (hu : ∀ k s, t.uniques k = some s → ∀ e ∈ ks, ¬s (old e)) :
    ∃ t', TRuns (ks.flatMap ops) t t' ∧ t'.uniques = t.uniques ∧
      (∀ k ∈ ks, t'.cols (new k) = t.cols (old k)) ∧
      (∀ n, n ∉ ks.map old → n ∉ ks.map new → t'.cols n = t.cols n) ∧
      (∀ n, n ∈ ks.map old → t'.cols n = none) ∧
      ∀ n, t'.pk n ↔ (∃ k ∈ ks, n = new k ∧ t.pk (old k)) ∨ (n ∉ ks.map old ∧ t.pk n) := by
  by_cases hks : ks = []
  · subst hks
    exact ⟨t, rfl, rfl, by simp, fun _ _ _ => rfl, by simp, fun _ => by simp⟩
  obtain ⟨k0, hk0⟩ := List.exists_mem_of_ne_nil ks hks
  have : Nonempty γ := ⟨(t.cols (old k0)).get (hp k0 hk0)⟩
  have hget : ∀ k, ∃ g : γ, k ∈ ks → t.cols (old k) = some g := by
    intro k
    by_cases hk : k ∈ ks
    · exact ⟨_, fun _ => (Option.some_get (hp k hk)).symm⟩
    · exact ⟨Classical.choice this, fun h => absurd h hk⟩
  choose g hg using hget
  obtain ⟨t', h1, h2, h3, h4⟩ := tRuns_renames_to old new g ops ks t (by
    intro k hk u h1 h2
    have := hstep k hk u h1 h2
    unfold renamedT at this
    rw [h1, hg k hk] at this
    exact this) ho hn hp ha hu
  exact ⟨t', h1, h2, fun k hk => by rw [h3 k hk, hg k hk], h4⟩

/-- Adding several columns. -/
theorem tRuns_adds {κ : Type} (name : κ → Str) (g : κ → γ) (ks : List κ) (hn : (ks.map name).Nodup)
    (t : DbTable γ) (ha : ∀ k ∈ ks, t.cols (name k) = none) :
    ∃ c, TRuns (ks.map fun k => .addColumn (name k) (g k)) t { t with cols := c } ∧
      (∀ k ∈ ks, c (name k) = some (g k)) ∧ ∀ m, m ∉ ks.map name → c m = t.cols m := by
  induction ks generalizing t with
  | nil => exact ⟨t.cols, rfl, by simp, fun _ _ => rfl⟩
  | cons k ks ih =>
    rw [List.map_cons, List.nodup_cons] at hn
    obtain ⟨c, h1, h2, h3⟩ := ih hn.2 { t with cols := upd t.cols (name k) (some (g k)) } (by
      intro k' hk'
      have : name k' ≠ name k := fun e => hn.1 (e ▸ List.mem_map_of_mem hk')
      simp only [upd_ne _ _ this]
      exact ha k' (by simp [hk']))
    refine ⟨c, ⟨_, ⟨ha k (by simp), rfl⟩, h1⟩, ?_, ?_⟩
    · intro k' hk'
      rcases List.mem_cons.1 hk' with rfl | hk'
      · rw [h3 _ hn.1]; simp
      · exact h2 k' hk'
    · intro m hm
      simp only [List.map_cons, List.mem_cons, not_or] at hm
      rw [h3 m hm.2]; simp [upd_ne _ _ hm.1]

/-- Altering several tables. -/
theorem runs_alters {κ : Type} (name : κ → Str) (T T' : κ → DbTable γ) (ops : κ → List (TOp γ)) (ks : List κ)
    (hstep : ∀ k ∈ ks, TRuns (ops k) (T k) (T' k)) (hn : (ks.map name).Nodup) (d : Db γ)
    (hp : ∀ k ∈ ks, d (name k) = some (T k)) :
    ∃ d', Runs (ks.flatMap fun k => (ops k).map (.alter (name k))) d d' ∧
      (∀ k ∈ ks, d' (name k) = some (T' k)) ∧ ∀ m, m ∉ ks.map name → d' m = d m := by
  induction ks generalizing d with
  | nil => exact ⟨d, rfl, by simp, fun _ _ => rfl⟩
  | cons k ks ih =>
    rw [List.map_cons, List.nodup_cons] at hn
    obtain ⟨d', h1, h2, h3⟩ := ih (fun k' hk' => hstep k' (by simp [hk'])) hn.2
      (upd d (name k) (some (T' k))) (by
        intro k' hk'
        have : name k' ≠ name k := fun e => hn.1 (e ▸ List.mem_map_of_mem hk')
        rw [upd_ne _ _ this]; exact hp k' (by simp [hk']))
    refine ⟨d', runs_append (runs_alter (hp k (by simp)) (hstep k (by simp))) h1, ?_, ?_⟩
    · intro k' hk'
      rcases List.mem_cons.1 hk' with rfl | hk'
      · rw [h3 _ hn.1]; simp
      · exact h2 k' hk'
    · intro m hm
      simp only [List.map_cons, List.mem_cons, not_or] at hm
      rw [h3 m hm.2, upd_ne _ _ hm.1]

/-- Dropping several tables. -/
theorem runs_drops (ns : List Str) (hn : ns.Nodup) (d : Db γ) (hp : ∀ n ∈ ns, (d n).isSome) :
    ∃ d', Runs (ns.map .dropTable) d d' ∧ (∀ n ∈ ns, d' n = none) ∧ ∀ m, m ∉ ns → d' m = d m := by
  induction ns generalizing d with
  | nil => exact ⟨d, rfl, by simp, fun _ _ => rfl⟩
  | cons n ns ih =>
    rw [List.nodup_cons] at hn
    obtain ⟨d', h1, h2, h3⟩ := ih hn.2 (upd d n none) (by
      intro m hm
      have : m ≠ n := fun e => hn.1 (e ▸ hm)
      rw [upd_ne _ _ this]; exact hp m (by simp [hm]))
    refine ⟨d', ⟨_, ⟨hp n (by simp), rfl⟩, h1⟩, ?_, ?_⟩
    · intro m hm
      rcases List.mem_cons.1 hm with rfl | hm
      · rw [h3 m hn.1]; simp
      · exact h2 m hm
    · intro m hm
      simp only [List.mem_cons, not_or] at hm
      rw [h3 m hm.2, upd_ne _ _ hm.1]

/-- Renaming several tables, each by statements that move the table and bring it into a new shape. -/
theorem runs_renames {κ : Type} (old new : κ → Str) (T T' : κ → DbTable γ) (ops : κ → List (DbOp γ))
    (ks : List κ)
    (hstep : ∀ k ∈ ks, ∀ e : Db γ, e (old k) = some (T k) → e (new k) = none →
      Runs (ops k) e (upd (upd e (old k) none) (new k) (some (T' k))))
    (ho : (ks.map old).Nodup) (hn : (ks.map new).Nodup) (d : Db γ)
    (hp : ∀ k ∈ ks, d (old k) = some (T k)) (ha : ∀ k ∈ ks, d (new k) = none) :
    ∃ d', Runs (ks.flatMap ops) d d' ∧ (∀ k ∈ ks, d' (new k) = some (T' k)) ∧
      (∀ m ∈ ks.map old, d' m = none) ∧ ∀ m, m ∉ ks.map old → m ∉ ks.map new → d' m = d m := by
  have hdisj : ∀ k ∈ ks, ∀ k' ∈ ks, old k ≠ new k' := by
    intro k hk k' hk' e
    have := hp k hk; rw [e, ha k' hk'] at this; cases this
  induction ks generalizing d with
  | nil => exact ⟨d, rfl, by simp, by simp, fun _ _ _ => rfl⟩
  | cons k ks ih =>
    rw [List.map_cons, List.nodup_cons] at ho hn
    have hok : ∀ k' ∈ ks, old k' ≠ old k := fun k' hk' e => ho.1 (e ▸ List.mem_map_of_mem hk')
    have hnk : ∀ k' ∈ ks, new k' ≠ new k := fun k' hk' e => hn.1 (e ▸ List.mem_map_of_mem hk')
    have hcol : ∀ n, n ≠ old k → n ≠ new k → upd (upd d (old k) none) (new k) (some (T' k)) n = d n := by
      intro n h1 h2; simp [upd_ne _ _ h2, upd_ne _ _ h1]
    obtain ⟨d', h1, h3, h5, h4⟩ := ih (fun k' hk' => hstep k' (by simp [hk'])) ho.2 hn.2
      (upd (upd d (old k) none) (new k) (some (T' k)))
      (fun k' hk' => by rw [hcol _ (hok k' hk') (hdisj k' (by simp [hk']) k (by simp))]; exact hp k' (by simp [hk']))
      (fun k' hk' => by
        rw [hcol _ (fun e => hdisj k (by simp) k' (by simp [hk']) e.symm) (hnk k' hk')]; exact ha k' (by simp [hk']))
      (fun a ha b hb => hdisj a (by simp [ha]) b (by simp [hb]))
    refine ⟨d', runs_append (hstep k (by simp) d (hp k (by simp)) (ha k (by simp))) h1, ?_, ?_, ?_⟩
    · intro k' hk'
      rcases List.mem_cons.1 hk' with rfl | hk'
      · rw [h4 _ ?_ hn.1]
        · simp
        · intro hm
          obtain ⟨k2, hk2, e⟩ := List.mem_map.1 hm
          exact hdisj k2 (by simp [hk2]) k' (by simp) e
      · exact h3 k' hk'
    · intro n hm
      rcases List.mem_cons.1 hm with rfl | hm
      · have hne : old k ≠ new k := hdisj k (by simp) k (by simp)
        rw [h4 _ ho.1 ?_]
        · simp [upd_ne _ _ hne]
        · intro hm'
          obtain ⟨k2, hk2, e⟩ := List.mem_map.1 hm'
          exact hdisj k (by simp) k2 (by simp [hk2]) e.symm
      · exact h5 n hm
    · intro n h7 h8
      simp only [List.map_cons, List.mem_cons, not_or] at h7 h8
      rw [h4 n h7.2 h8.2, hcol n h7.1 h8.1]

/-- Creating several tables, each by statements with the effect of a creation. -/
theorem runs_creates {κ : Type} (name : κ → Str) (T : κ → DbTable γ) (ops : κ → List (DbOp γ)) (ks : List κ)
    (hstep : ∀ k ∈ ks, ∀ e : Db γ, e (name k) = none → Runs (ops k) e (upd e (name k) (some (T k))))
    (hn : (ks.map name).Nodup) (d : Db γ) (ha : ∀ k ∈ ks, d (name k) = none) :
    ∃ d', Runs (ks.flatMap ops) d d' ∧ (∀ k ∈ ks, d' (name k) = some (T k)) ∧
      ∀ m, m ∉ ks.map name → d' m = d m := by
  induction ks generalizing d with
  | nil => exact ⟨d, rfl, by simp, fun _ _ => rfl⟩
  | cons k ks ih =>
    rw [List.map_cons, List.nodup_cons] at hn
    obtain ⟨d', h1, h2, h3⟩ := ih (fun k' hk' => hstep k' (by simp [hk'])) hn.2
      (upd d (name k) (some (T k))) (by
        intro k' hk'
        have : name k' ≠ name k := fun e => hn.1 (e ▸ List.mem_map_of_mem hk')
        rw [upd_ne _ _ this]; exact ha k' (by simp [hk']))
    refine ⟨d', runs_append (hstep k (by simp) d (ha k (by simp))) h1, ?_, ?_⟩
    · intro k' hk'
      rcases List.mem_cons.1 hk' with rfl | hk'
      · rw [h3 _ hn.1]; simp
      · exact h2 k' hk'
    · intro m hm
      simp only [List.map_cons, List.mem_cons, not_or] at hm
      rw [h3 m hm.2, upd_ne _ _ hm.1]

end Octo
