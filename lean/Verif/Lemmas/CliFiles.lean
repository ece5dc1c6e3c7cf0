import Verif.Spec.Cli
import Verif.Lemmas.Str

/-! Lemmas on paths and on the files that the commands write. -/

namespace Octo.Cli
open Spec

/-! ### Paths -/

theorem split_append {sep : Char} (a b : Str) : split sep (a ++ sep :: b) = split sep a ++ split sep b := by
  induction a with
  | nil => show split sep (sep :: b) = [] :: split sep b; conv_lhs => rw [split, if_pos rfl]
  | cons c a ih =>
    by_cases hc : c = sep
    · subst hc; rw [List.cons_append, split, if_pos rfl, ih, split, if_pos rfl]; rfl
    · rw [List.cons_append, split_cons_ne hc, split_cons_ne hc, ih]
      cases hs : split sep a with
      | nil => exact absurd hs (split_ne_nil _ _)
      | cons x l => rfl

theorem mem_of_split {sep c : Char} {s p : Str} (hp : p ∈ split sep s) (hc : c ∈ p) : c ∈ s := by
  induction s generalizing p with
  | nil => rw [split, List.mem_singleton] at hp; subst hp; cases hc
  | cons x s ih =>
    by_cases hx : x = sep
    · rw [split, if_pos hx] at hp
      rcases List.mem_cons.mp hp with rfl | hp
      · cases hc
      · exact List.mem_cons_of_mem _ (ih hp hc)
    · rw [split_cons_ne hx] at hp
      cases hs : split sep s with
      | nil => exact absurd hs (split_ne_nil _ _)
      | cons y l =>
        rw [hs] at hp ih
        rcases List.mem_cons.mp hp with rfl | hp
        · rcases List.mem_cons.mp hc with rfl | hc
          · exact List.mem_cons_self ..
          · exact List.mem_cons_of_mem _ (ih (List.mem_cons_self ..) hc)
        · exact List.mem_cons_of_mem _ (ih (List.mem_cons_of_mem _ hp) hc)

/-- Elements that are kept by `path.Clean`. -/
def kept (l : List Str) : List Str := l.filter fun e => e ≠ [] ∧ e ≠ "."ₛ

theorem foldl_clean {rooted : Bool} {l : List Str} (h : ".."ₛ ∉ l) (acc : List Str) :
    l.foldl (cleanStep rooted) acc = (kept l).reverse ++ acc := by
  induction l generalizing acc with
  | nil => rfl
  | cons e l ih =>
    have he : e ≠ ".."ₛ := fun e' => h (e' ▸ List.mem_cons_self ..)
    rw [List.foldl_cons, ih fun hm => h (List.mem_cons_of_mem _ hm)]
    unfold kept cleanStep
    by_cases h1 : e = [] ∨ e = "."ₛ
    · rw [if_pos h1, List.filter_cons_of_neg]
      simp only [decide_eq_true_eq, not_and_or, not_not]; exact h1
    · rw [if_neg h1, if_neg he, List.filter_cons_of_pos]
      · rw [List.reverse_cons, List.append_assoc]; rfl
      · simp only [decide_eq_true_eq]; exact not_or.mp h1

theorem kept_clean {l : List Str} (h : ".."ₛ ∉ l) : ".."ₛ ∉ kept l := fun hm => h (List.mem_filter.mp hm).1

/-- A path that continues another one is below it. -/
theorem below_append {a b : Str} (ha : a ≠ []) (hb : ".."ₛ ∉ split '/' b) : Below (pathOf a) (pathOf (a ++ '/' :: b)) := by
  have hr : ((a ++ '/' :: b).head? == some '/') = (a.head? == some '/') := by
    cases a with
    | nil => exact absurd rfl ha
    | cons c a => rfl
  refine ⟨?_, kept (split '/' b), ?_, kept_clean hb⟩
  · show (a.head? == some '/') = ((a ++ '/' :: b).head? == some '/'); rw [hr]
  · show (((split '/' (a ++ '/' :: b)).foldl (cleanStep ((a ++ '/' :: b).head? == some '/')) []).reverse) =
      ((split '/' a).foldl (cleanStep (a.head? == some '/')) []).reverse ++ _
    rw [hr, split_append, List.foldl_append, foldl_clean hb, List.reverse_append, List.reverse_reverse]

theorem below_self (p : Path) : Below p p := ⟨rfl, [], (List.append_nil _).symm, List.not_mem_nil⟩

/-- Relative paths without `..` are below the working directory. -/
theorem below_empty {b : Str} (h0 : b.head? ≠ some '/') (hb : ".."ₛ ∉ split '/' b) : Below (pathOf []) (pathOf b) := by
  refine ⟨?_, kept (split '/' b), ?_, kept_clean hb⟩
  · show false = (b.head? == some '/')
    cases hh : b.head? with
    | none => rfl
    | some c => rw [hh] at h0; exact (beq_eq_false_iff_ne.mpr h0).symm
  · show ((split '/' b).foldl (cleanStep (b.head? == some '/')) []).reverse = _
    rw [foldl_clean hb, List.append_nil, List.reverse_reverse]; rfl

theorem dots_join {l : List Str} (hne : l ≠ []) (h : ∀ e ∈ l, '/' ∉ e) (hd : ".."ₛ ∉ l) : ".."ₛ ∉ split '/' (join "/"ₛ l) := by
  rw [show "/"ₛ = ['/'] from rfl, split_join hne h]; exact hd

theorem head_join {l : List Str} (h : ∀ e ∈ l, '/' ∉ e) (h0 : ∀ e ∈ l, e ≠ []) : (join "/"ₛ l).head? ≠ some '/' := by
  cases l with
  | nil => decide
  | cons e l =>
    have h1 := h e (List.mem_cons_self ..)
    cases e with
    | nil => exact absurd rfl (h0 [] (List.mem_cons_self ..))
    | cons c e =>
      have hc : c ≠ '/' := fun e' => h1 (e' ▸ List.mem_cons_self ..)
      cases l with
      | nil => intro e'; injection e' with e'; exact hc e'
      | cons x l => intro e'; injection e' with e'; exact hc e'

/-- Joining simple names to a directory. -/
theorem below_join (out : Str) {l : List Str} (h : ∀ e ∈ l, '/' ∉ e) (hd : ".."ₛ ∉ l) :
    Below (pathOf out) (joined (Jpa.pathJoin (out :: l))) := by
  have h' : ∀ e ∈ l.filter (· ≠ []), '/' ∉ e := fun e he => h e (List.mem_filter.mp he).1
  have hd' : ".."ₛ ∉ l.filter (· ≠ []) := fun he => hd (List.mem_filter.mp he).1
  have h0 : ∀ e ∈ l.filter (· ≠ []), e ≠ [] := fun e he => of_decide_eq_true (List.mem_filter.mp he).2
  unfold joined Jpa.pathJoin
  by_cases ho : out = []
  · subst ho
    rw [List.filter_cons_of_neg (by decide)]
    by_cases hl : l.filter (· ≠ []) = []
    · rw [hl]; exact below_self _
    · exact below_empty (head_join h' h0) (dots_join hl h' hd')
  · rw [List.filter_cons_of_pos (by simpa using ho)]
    cases hl : l.filter (· ≠ []) with
    | nil => exact below_self _
    | cons x r =>
      rw [hl] at h' hd' h0
      show Below (pathOf out) (pathOf (out ++ "/"ₛ ++ join "/"ₛ (x :: r)))
      have e : out ++ "/"ₛ ++ join "/"ₛ (x :: r) = out ++ '/' :: join "/"ₛ (x :: r) := by rw [List.append_assoc]; rfl
      rw [e]
      exact below_append ho (dots_join (List.cons_ne_nil _ _) h' hd')

theorem pathJoin_pathJoin (a b : List Str) : Jpa.pathJoin (Jpa.pathJoin a ++ b) = Jpa.pathJoin (a ++ b) := by
  unfold Jpa.pathJoin; rw [List.filter_append, List.filter_filter, List.filter_append]; simp only [Bool.and_self]

/-- The files in the directory of a package. -/
theorem below_package (out : Str) {pkg name : Str} (hp : pkg ≠ []) (h1 : '/' ∉ pkg) (h2 : '/' ∉ name) (h3 : name ≠ ".."ₛ) :
    Below (pathOf out) (joined (Jpa.pathJoin (Jpa.packageDir out pkg ++ [name]))) := by
  unfold Jpa.packageDir
  rw [if_neg hp, pathJoin_pathJoin, List.cons_append]
  refine below_join out ?_ ?_
  · intro e he
    rcases List.mem_append.mp he with he | he
    · exact fun hc => h1 (mem_of_split he hc)
    · rw [List.mem_singleton] at he; subst he; exact h2
  · intro he
    rcases List.mem_append.mp he with he | he
    · exact not_mem_split he (by decide)
    · rw [List.mem_singleton] at he; exact h3 he.symm

/-! ### Writing -/

/-- Sets several files. -/
def applyWrites (fs : Files) (ws : List (Path × Content)) : Files := ws.foldl (fun fs p => fs.set p.1 p.2) fs

theorem applyWrites_of_not_mem {ws : List (Path × Content)} {p : Path} (h : ∀ q ∈ ws, q.1 ≠ p) (fs : Files) : applyWrites fs ws p = fs p := by
  induction ws generalizing fs with
  | nil => rfl
  | cons q ws ih =>
    show applyWrites (fs.set q.1 q.2) ws p = _
    rw [ih fun r hr => h r (List.mem_cons_of_mem _ hr)]
    exact if_neg fun e => h q (List.mem_cons_self ..) e.symm

theorem applyWrites_of_mem {ws : List (Path × Content)} {p : Path} (h : ∃ q ∈ ws, q.1 = p) (fs fs' : Files) :
    applyWrites fs ws p = applyWrites fs' ws p := by
  induction ws generalizing fs fs' with
  | nil => obtain ⟨q, hq, _⟩ := h; cases hq
  | cons q ws ih =>
    show applyWrites (fs.set q.1 q.2) ws p = applyWrites (fs'.set q.1 q.2) ws p
    by_cases hm : ∃ r ∈ ws, r.1 = p
    · exact ih hm _ _
    · have hm' : ∀ r ∈ ws, r.1 ≠ p := fun r hr e => hm ⟨r, hr, e⟩
      rw [applyWrites_of_not_mem hm', applyWrites_of_not_mem hm']
      obtain ⟨r, hr, e⟩ := h
      rcases List.mem_cons.mp hr with rfl | hr
      · show (if p = r.1 then _ else _) = (if p = r.1 then _ else _); rw [if_pos e.symm, if_pos e.symm]
      · exact absurd ⟨r, hr, e⟩ hm

/-- Writing twice. -/
theorem applyWrites_twice (ws : List (Path × Content)) (fs : Files) : applyWrites (applyWrites fs ws) ws = applyWrites fs ws := by
  funext p
  by_cases h : ∃ q ∈ ws, q.1 = p
  · exact applyWrites_of_mem h _ _
  · exact applyWrites_of_not_mem (fun r hr e => h ⟨r, hr, e⟩) _

theorem writeAll_writes (w : World) (last : Status) (l : List (Path × Content)) :
    ∃ ws st, ws <+: l ∧ ∀ fs, writeAll w last fs l = ⟨applyWrites fs ws, st⟩ := by
  induction l with
  | nil => exact ⟨[], last, List.prefix_rfl, fun _ => rfl⟩
  | cons p l ih =>
    obtain ⟨ws, st, hp, h⟩ := ih
    by_cases hw : w.writable p.1 = true
    · refine ⟨p :: ws, st, (List.prefix_append_right_inj [p]).mpr hp, fun fs => ?_⟩
      rw [writeAll, if_pos hw, h]; rfl
    · exact ⟨[], .error, List.nil_prefix, fun fs => by rw [writeAll, if_neg hw]; rfl⟩

end Octo.Cli
