import Verif.Spec.Paths
import Verif.Lemmas.CliFiles

/-! Lemmas on cleaned paths and walking. -/

namespace Octo.Cli
open Spec

/-- Where a cleaned path leads. -/
def leads (cwd : List Str) (p : Path) : List Str := p.elems.foldl walkStep (if p.rooted then [] else cwd)

/-- A cleaned path, in reverse order: proper names after leading `..`, which a path from the root does not have. -/
def Cleaned (rooted : Bool) (acc : List Str) : Prop :=
  ∃ r k, acc = r ++ List.replicate k ".."ₛ ∧ (∀ e ∈ r, e ≠ [] ∧ e ≠ "."ₛ ∧ e ≠ ".."ₛ) ∧ (rooted = true → k = 0)

theorem cleanStep_cleaned {rooted : Bool} {acc : List Str} (h : Cleaned rooted acc) (e : Str) : Cleaned rooted (cleanStep rooted acc e) := by
  obtain ⟨r, k, rfl, hr, hk⟩ := h
  unfold cleanStep
  by_cases h1 : e = [] ∨ e = "."ₛ
  · rw [if_pos h1]; exact ⟨r, k, rfl, hr, hk⟩
  · rw [if_neg h1]
    by_cases h2 : e = ".."ₛ
    · rw [if_pos h2]
      cases r with
      | nil =>
        cases k with
        | zero =>
          cases rooted with
          | true => exact ⟨[], 0, rfl, by simp, fun _ => rfl⟩
          | false => exact ⟨[], 1, rfl, by simp, fun e => (by cases e)⟩
        | succ k =>
          refine ⟨[], k + 2, ?_, by simp, fun e => (by cases hk e)⟩
          show (if ".."ₛ = ".."ₛ then ".."ₛ :: List.replicate (k + 1) ".."ₛ else List.replicate k ".."ₛ) = _
          rw [if_pos rfl]
          rfl
      | cons a r =>
        have ha := hr a List.mem_cons_self
        refine ⟨r, k, ?_, fun e he => hr e (List.mem_cons_of_mem _ he), hk⟩
        show (if a = ".."ₛ then _ else _) = _
        rw [if_neg ha.2.2]
        rfl
    · rw [if_neg h2]
      refine ⟨e :: r, k, rfl, fun x hx => ?_, hk⟩
      rcases List.mem_cons.1 hx with rfl | hx
      · exact ⟨fun h => h1 (.inl h), fun h => h1 (.inr h), h2⟩
      · exact hr x hx

theorem foldl_cleaned {rooted : Bool} (l acc : List Str) (h : Cleaned rooted acc) : Cleaned rooted (l.foldl (cleanStep rooted) acc) := by
  induction l generalizing acc with
  | nil => exact h
  | cons e l ih => exact ih _ (cleanStep_cleaned h e)

theorem cleaned_nil (rooted : Bool) : Cleaned rooted [] := ⟨[], 0, rfl, by simp, fun _ => rfl⟩

theorem walkStep_up {x : List Str} {a : Str} (h : a ≠ [] ∧ a ≠ "."ₛ ∧ a ≠ ".."ₛ) : walkStep (walkStep x a) ".."ₛ = x := by
  have e : walkStep x a = x ++ [a] := by
    unfold walkStep
    rw [if_neg (fun h' => h'.elim h.1 h.2.1), if_neg h.2.2]
  rw [e]
  show (x ++ [a]).dropLast = x
  exact List.dropLast_concat

theorem walkStep_clean {rooted : Bool} {acc : List Str} (h : Cleaned rooted acc) (cwd : List Str) (e : Str) :
    (cleanStep rooted acc e).reverse.foldl walkStep (if rooted then [] else cwd) =
      walkStep (acc.reverse.foldl walkStep (if rooted then [] else cwd)) e := by
  have hsnoc : ∀ a (acc : List Str), (a :: acc).reverse.foldl walkStep (if rooted then [] else cwd) =
      walkStep (acc.reverse.foldl walkStep (if rooted then [] else cwd)) a := fun a acc => by
    rw [List.reverse_cons, List.foldl_append]; rfl
  by_cases h1 : e = [] ∨ e = "."ₛ
  · conv_rhs => rw [walkStep, if_pos h1]
    rw [cleanStep.eq_def, if_pos h1]
  · by_cases h2 : e = ".."ₛ
    · subst h2
      rw [cleanStep.eq_def, if_neg h1, if_pos rfl]
      obtain ⟨r, k, rfl, hr, hk⟩ := h
      cases r with
      | nil =>
        cases k with
        | zero =>
          cases rooted with
          | true => rfl
          | false => rfl
        | succ k =>
          show (if ".."ₛ = ".."ₛ then ".."ₛ :: ([] ++ List.replicate (k + 1) ".."ₛ) else List.replicate k ".."ₛ).reverse.foldl walkStep _ = _
          rw [if_pos rfl, hsnoc]
      | cons a r =>
        have ha := hr a List.mem_cons_self
        show (if a = ".."ₛ then _ else _ : List Str).reverse.foldl walkStep _ = _
        rw [if_neg ha.2.2, List.cons_append, hsnoc, walkStep_up ha]
        rfl
    · rw [cleanStep.eq_def, if_neg h1, if_neg h2, hsnoc]

theorem foldl_walk {rooted : Bool} (cwd : List Str) (l acc : List Str) (h : Cleaned rooted acc) :
    (l.foldl (cleanStep rooted) acc).reverse.foldl walkStep (if rooted then [] else cwd) =
      l.foldl walkStep (acc.reverse.foldl walkStep (if rooted then [] else cwd)) := by
  induction l generalizing acc with
  | nil => rfl
  | cons e l ih => rw [List.foldl_cons, List.foldl_cons, ih _ (cleanStep_cleaned h e), walkStep_clean h]

/-- A path leads where its cleaned form leads. -/
theorem walk_pathOf (cwd : List Str) (s : Str) : walk cwd s = leads cwd (pathOf s) := by
  have := foldl_walk (rooted := s.head? == some '/') cwd (split '/' s) [] (cleaned_nil _)
  unfold leads pathOf
  dsimp only
  rw [this]
  unfold walk
  simp only [List.reverse_nil, List.foldl_nil, beq_iff_eq]

theorem pathOf_cleaned (s : Str) : Cleaned (pathOf s).rooted (pathOf s).elems.reverse := by
  unfold pathOf
  dsimp only
  rw [List.reverse_reverse]
  exact foldl_cleaned _ _ (cleaned_nil _)

theorem foldl_ups (k : Nat) (d : List Str) : (List.replicate k ".."ₛ).foldl walkStep d = d.take (d.length - k) := by
  induction k generalizing d with
  | zero => simp
  | succ k ih =>
    rw [List.replicate_succ, List.foldl_cons, ih, show walkStep d ".."ₛ = d.dropLast from rfl, List.dropLast_eq_take, List.take_take,
      List.length_take]
    congr 1
    omega

theorem foldl_names (r d : List Str) (h : ∀ e ∈ r, e ≠ [] ∧ e ≠ "."ₛ ∧ e ≠ ".."ₛ) : r.foldl walkStep d = d ++ r := by
  induction r generalizing d with
  | nil => simp
  | cons e r ih =>
    have he := h e List.mem_cons_self
    rw [List.foldl_cons, ih _ fun x hx => h x (List.mem_cons_of_mem _ hx), walkStep, if_neg (fun h' => h'.elim he.1 he.2.1), if_neg he.2.2,
      List.append_assoc]
    rfl

/-- Cleaned paths that lead to the same place from everywhere are equal. -/
theorem leads_injective {p q : Path} (hp : Cleaned p.rooted p.elems.reverse) (hq : Cleaned q.rooted q.elems.reverse)
    (h : ∀ cwd, (∀ e ∈ cwd, DirName e) → leads cwd p = leads cwd q) : p = q := by
  obtain ⟨a, l⟩ := p
  obtain ⟨b, m⟩ := q
  obtain ⟨r, k, e1, hr, hk⟩ := hp
  obtain ⟨r', k', e2, hr', hk'⟩ := hq
  have e1 : l = List.replicate k ".."ₛ ++ r.reverse := by
    have := congrArg List.reverse e1
    simpa only [List.reverse_reverse, List.reverse_append, List.reverse_replicate] using this
  have e2 : m = List.replicate k' ".."ₛ ++ r'.reverse := by
    have := congrArg List.reverse e2
    simpa only [List.reverse_reverse, List.reverse_append, List.reverse_replicate] using this
  have hl : ∀ (b : Bool) (k : Nat) (r cwd : List Str), (∀ e ∈ r, e ≠ [] ∧ e ≠ "."ₛ ∧ e ≠ ".."ₛ) →
      leads cwd ⟨b, List.replicate k ".."ₛ ++ r.reverse⟩ =
        (if b then [] else cwd).take ((if b then [] else cwd).length - k) ++ r.reverse := by
    intro b k r cwd h
    unfold leads
    dsimp only
    rw [List.foldl_append, foldl_ups, foldl_names _ _ fun e he => h e (List.mem_reverse.1 he)]
  subst e1 e2
  have hname : ∀ c : Char, c ≠ '.' → c ≠ '/' → DirName [c] := fun c h1 h2 => by
    refine ⟨by simp, ?_, ?_, ?_⟩
    · intro h; injection h with h _; exact h1 h
    · intro h; injection h with _ h; cases h
    · intro h; rw [List.mem_singleton] at h; exact h2 h.symm
  have key : ∀ (n : Nat) (c : Char), c ≠ '.' → c ≠ '/' →
      (if a then [] else List.replicate n [c]).take ((if a then [] else List.replicate n [c]).length - k) ++ r.reverse =
      (if b then [] else List.replicate n [c]).take ((if b then [] else List.replicate n [c]).length - k') ++ r'.reverse := by
    intro n c h1 h2
    have := h (List.replicate n [c]) fun e he => by rw [List.eq_of_mem_replicate he]; exact hname c h1 h2
    rw [hl a k r _ hr, hl b k' r' _ hr'] at this
    exact this
  have hlen : ∀ n, (if a then 0 else n - k) + r.length = (if b then 0 else n - k') + r'.length := by
    intro n
    have := congrArg List.length (key n 'x' (by decide) (by decide))
    cases a <;> cases b <;> simpa using this
  cases a with
  | true =>
    cases b with
    | true =>
      have hk := hk rfl
      have hk' := hk' rfl
      subst hk hk'
      have := key 0 'x' (by decide) (by decide)
      have : r.reverse = r'.reverse := this
      rw [this]
    | false =>
      exfalso
      have h1 := hlen (k' + r.length + 1)
      simp only [if_true, Bool.false_eq_true, if_false] at h1
      omega
  | false =>
    cases b with
    | true =>
      exfalso
      have h1 := hlen (k + r'.length + 1)
      simp only [if_true, Bool.false_eq_true, if_false] at h1
      omega
    | false =>
      have key : ∀ (n : Nat) (c : Char), c ≠ '.' → c ≠ '/' →
          List.replicate (n - k) [c] ++ r.reverse = List.replicate (n - k') [c] ++ r'.reverse := by
        intro n c h1 h2
        have := key n c h1 h2
        simp only [Bool.false_eq_true, if_false, List.length_replicate, List.take_replicate] at this
        rwa [Nat.min_eq_left (Nat.sub_le ..), Nat.min_eq_left (Nat.sub_le ..)] at this
      have fin : ∀ (k k' : Nat) (r r' : List Str), (∀ (n : Nat) (c : Char), c ≠ '.' → c ≠ '/' →
          List.replicate (n - k) [c] ++ r = List.replicate (n - k') [c] ++ r') → k ≤ k' → k = k' := by
        intro k k' r r' key hle
        have h1 := key k' 'x' (by decide) (by decide)
        have h2 := key k' 'y' (by decide) (by decide)
        rw [Nat.sub_self] at h1 h2
        have h3 : List.replicate (k' - k) ['x'] ++ r = List.replicate (k' - k) ['y'] ++ r := h1.trans h2.symm
        have h3 := List.append_cancel_right h3
        by_contra hne
        obtain ⟨d, hd⟩ : ∃ d, k' - k = d + 1 := ⟨k' - k - 1, by omega⟩
        rw [hd, List.replicate_succ, List.replicate_succ] at h3
        injection h3 with h3 _
        revert h3
        decide
      have hkk : k = k' := by
        rcases Nat.le_total k k' with hle | hle
        · exact fin k k' _ _ key hle
        · exact (fin k' k _ _ (fun n c h1 h2 => (key n c h1 h2).symm) hle).symm
      subst hkk
      have := List.append_cancel_left (key k 'x' (by decide) (by decide))
      rw [this]

theorem pathOf_eq_iff (a b : Str) : pathOf a = pathOf b ↔ SameFile a b := by
  constructor
  · intro h cwd _
    rw [walk_pathOf, walk_pathOf, h]
  · intro h
    refine leads_injective (pathOf_cleaned a) (pathOf_cleaned b) fun cwd hc => ?_
    rw [← walk_pathOf, ← walk_pathOf]
    exact h cwd hc

theorem pathOf_slash {a : Str} (ha : a ≠ []) (x : Str) : pathOf (a ++ '/' :: x) =
    ⟨(pathOf a).rooted, ((split '/' x).foldl (cleanStep (pathOf a).rooted) (pathOf a).elems.reverse).reverse⟩ := by
  have hr : ((a ++ '/' :: x).head? == some '/') = (a.head? == some '/') := by
    cases a with
    | nil => exact absurd rfl ha
    | cons c a => rfl
  unfold pathOf
  dsimp only
  rw [hr, split_append, List.foldl_append, List.reverse_reverse]

theorem pathOf_slash_congr {a b : Str} (ha : a ≠ []) (hb : b ≠ []) (h : pathOf a = pathOf b) (x : Str) :
    pathOf (a ++ '/' :: x) = pathOf (b ++ '/' :: x) := by
  rw [pathOf_slash ha, pathOf_slash hb, h]

/-- Joining the same names to two spellings of a directory. -/
theorem joined_congr {a b : Str} (h0 : a = [] ↔ b = []) (h : pathOf a = pathOf b) (l : List Str) :
    joined (Jpa.pathJoin (a :: l)) = joined (Jpa.pathJoin (b :: l)) := by
  by_cases ha : a = []
  · rw [ha, h0.1 ha]
  · have hb : b ≠ [] := fun e => ha (h0.2 e)
    unfold joined Jpa.pathJoin
    rw [List.filter_cons_of_pos (by simp [ha]), List.filter_cons_of_pos (by simp [hb])]
    cases l.filter (· ≠ []) with
    | nil => exact h
    | cons x m =>
      have e : ∀ c : Str, join "/"ₛ (c :: x :: m) = c ++ '/' :: join "/"ₛ (x :: m) := fun c => by
        show c ++ "/"ₛ ++ join "/"ₛ (x :: m) = _
        rw [List.append_assoc]
        rfl
      rw [e, e]
      exact pathOf_slash_congr ha hb h _

theorem last_slash (a : Str) : '/' ∉ a ∨ ∃ x y, a = x ++ '/' :: y ∧ '/' ∉ y := by
  induction a with
  | nil => exact .inl List.not_mem_nil
  | cons c a ih =>
    rcases ih with h | ⟨x, y, rfl, h⟩
    · by_cases hc : c = '/'
      · exact .inr ⟨[], a, by rw [hc]; rfl, h⟩
      · exact .inl (by rw [List.mem_cons]; rintro (rfl | h'); exacts [hc rfl, h h'])
    · exact .inr ⟨c :: x, y, rfl, h⟩

/-- A file whose extension is more than a dot has a proper name. -/
theorem proper_of_ext {x y : Str} (hx : x = [] ∨ x.getLast? = some '/') (h : fileExt (x ++ y) ≠ [] ∧ fileExt (x ++ y) ≠ "."ₛ) :
    y ≠ [] ∧ y ≠ "."ₛ ∧ y ≠ ".."ₛ := by
  have hrev : x.reverse = [] ∨ ∃ z, x.reverse = '/' :: z := by
    rcases hx with rfl | hx
    · exact .inl rfl
    · rw [List.getLast?_eq_head?_reverse] at hx
      cases hr : x.reverse with
      | nil => exact .inl rfl
      | cons c z => rw [hr] at hx; injection hx with hx; exact .inr ⟨z, by rw [hx]⟩
  refine ⟨?_, ?_, ?_⟩
  · rintro rfl
    apply h.1
    unfold fileExt
    rw [List.append_nil]
    rcases hrev with e | ⟨z, e⟩
    · rw [e]; rfl
    · rw [e]; rfl
  · rintro rfl
    apply h.2
    unfold fileExt
    rw [List.reverse_append]
    rfl
  · rintro rfl
    apply h.2
    unfold fileExt
    rw [List.reverse_append]
    rfl

theorem pathOf_name {y : Str} (h : '/' ∉ y) (hy : y ≠ [] ∧ y ≠ "."ₛ ∧ y ≠ ".."ₛ) : pathOf y = ⟨false, [y]⟩ := by
  have hh : (y.head? == some '/') = false := by
    cases y with
    | nil => rfl
    | cons c y => exact beq_eq_false_iff_ne.2 fun e => h (by injection e with e; rw [e]; exact List.mem_cons_self)
  unfold pathOf
  dsimp only
  rw [hh, split_no_sep h, List.foldl_cons, List.foldl_nil, cleanStep.eq_def, if_neg (fun h' => h'.elim hy.1 hy.2.1), if_neg hy.2.2]
  rfl

/-- The directory of a file. -/
theorem pathOf_dirOf {a : Str} (h : fileExt a ≠ [] ∧ fileExt a ≠ "."ₛ) :
    dirOf a ≠ [] ∧ pathOf (dirOf a) = ⟨(pathOf a).rooted, (pathOf a).elems.dropLast⟩ := by
  rcases last_slash a with hs | ⟨x, y, rfl, hy⟩
  · have hp := proper_of_ext (x := []) (y := a) (.inl rfl) h
    have e : dirOf a = "."ₛ := by
      unfold dirOf
      have e : a.reverse.dropWhile (· ≠ '/') = [] := by
        have := List.dropWhile_append_of_pos (p := (· ≠ '/')) (l₁ := a.reverse) (l₂ := [])
          fun c hc => decide_eq_true fun e => hs (e ▸ List.mem_reverse.1 hc)
        rwa [List.append_nil] at this
      rw [e]
    rw [e, pathOf_name hs hp]
    exact ⟨by decide, rfl⟩
  · have hp : y ≠ [] ∧ y ≠ "."ₛ ∧ y ≠ ".."ₛ := by
      refine proper_of_ext (x := x ++ ['/']) (y := y) (.inr (by simp)) ?_
      rw [List.append_assoc]
      exact h
    have e : (x ++ '/' :: y).reverse.dropWhile (· ≠ '/') = '/' :: x.reverse := by
      rw [List.reverse_append, List.reverse_cons, List.append_assoc, List.dropWhile_append_of_pos]
      · rfl
      · intro c hc
        exact decide_eq_true fun e => hy (e ▸ List.mem_reverse.1 hc)
    by_cases hx : x = []
    · subst hx
      have e' : dirOf ([] ++ '/' :: y) = "/"ₛ := by
        unfold dirOf
        rw [e]
        rfl
      rw [e']
      refine ⟨by decide, ?_⟩
      have : pathOf ([] ++ '/' :: y) = ⟨true, [y]⟩ := by
        unfold pathOf
        dsimp only
        rw [split_append, split_no_sep hy]
        show Path.mk true (List.foldl (cleanStep true) [] [[], y]).reverse = _
        rw [List.foldl_cons, List.foldl_cons, List.foldl_nil, cleanStep.eq_def, cleanStep.eq_def, if_neg (fun h' => h'.elim hp.1 hp.2.1), if_neg hp.2.2]
        rfl
      rw [this]
      rfl
    · have e' : dirOf (x ++ '/' :: y) = x := by
        unfold dirOf
        rw [e]
        cases hr : x.reverse with
        | nil => exact absurd (List.reverse_eq_nil_iff.1 hr) hx
        | cons c z => show (c :: z).reverse = x; rw [← hr, List.reverse_reverse]
      rw [e']
      refine ⟨hx, ?_⟩
      rw [pathOf_slash hx, split_no_sep hy, List.foldl_cons, List.foldl_nil, cleanStep.eq_def, if_neg (fun h' => h'.elim hp.1 hp.2.1), if_neg hp.2.2,
        List.reverse_cons, List.reverse_reverse, List.dropLast_concat]

end Octo.Cli
