import Verif.Props.Groups
import Verif.Props.Diff

/-! Property C145: the groups of a diff restrict the new schema only. -/

namespace Octo
open Spec Cli

theorem zipIdx_filter_fst {α : Type} (p : α → Bool) (l : List α) (k : Nat) :
    ((l.zipIdx k).filter fun e => p e.1).map Prod.fst = l.filter p := by
  induction l generalizing k with
  | nil => rfl
  | cons a l ih =>
    rw [List.zipIdx_cons]
    by_cases h : p a = true
    · rw [List.filter_cons_of_pos (by exact h), List.filter_cons_of_pos h, List.map_cons, ih]
    · rw [List.filter_cons_of_neg (by exact h), List.filter_cons_of_neg h, ih]

/-- A fold over the elements with new positions. -/
theorem foldl_positions {α β : Type} (f g : β → α × Nat → β) (l : List (α × Nat)) (k : Nat) (b : β)
    (h : ∀ n e, l[n]? = some e → ∀ b, g b (e.1, k + n) = f b e) :
    ((l.map Prod.fst).zipIdx k).foldl g b = l.foldl f b := by
  induction l generalizing k b with
  | nil => rfl
  | cons e l ih =>
    rw [List.map_cons, List.zipIdx_cons, List.foldl_cons, List.foldl_cons, (show g b (e.1, k) = f b e from h 0 e rfl b)]
    refine ih (k + 1) _ fun n e hn b => ?_
    rw [← h (n + 1) e (by rw [List.getElem?_cons_succ]; exact hn) b, Nat.add_assoc, Nat.add_comm 1 n]

theorem foldlM_positions {α β : Type} (f g : β → α × Nat → Option β) (l : List (α × Nat)) (k : Nat) (b : β)
    (h : ∀ n e, l[n]? = some e → ∀ b, g b (e.1, k + n) = f b e) :
    ((l.map Prod.fst).zipIdx k).foldlM g b = l.foldlM f b := by
  induction l generalizing k b with
  | nil => rfl
  | cons e l ih =>
    rw [List.map_cons, List.zipIdx_cons, List.foldlM_cons, List.foldlM_cons, (show g b (e.1, k) = f b e from h 0 e rfl b)]
    congr 1
    funext b
    refine ih (k + 1) _ fun n e hn b => ?_
    rw [← h (n + 1) e (by rw [List.getElem?_cons_succ]; exact hn) b, Nat.add_assoc, Nat.add_comm 1 n]

theorem foldl_skip {α β : Type} (p : α → Bool) (f : β → α → β) (h : ∀ b a, p a = false → f b a = b) (l : List α) (b : β) :
    l.foldl f b = (l.filter p).foldl f b := by
  induction l generalizing b with
  | nil => rfl
  | cons a l ih =>
    rw [List.foldl_cons]
    by_cases hp : p a = true
    · rw [List.filter_cons_of_pos hp, List.foldl_cons, ih]
    · rw [List.filter_cons_of_neg hp, h b a (Bool.not_eq_true _ ▸ hp), ih]

theorem foldlM_skip {α β : Type} (p : α → Bool) (f : β → α → Option β) (h : ∀ b a, p a = false → f b a = some b) (l : List α) (b : β) :
    l.foldlM f b = (l.filter p).foldlM f b := by
  induction l generalizing b with
  | nil => rfl
  | cons a l ih =>
    rw [List.foldlM_cons]
    by_cases hp : p a = true
    · rw [List.filter_cons_of_pos hp, List.foldlM_cons]
      congr 1
      funext b
      exact ih b
    · rw [List.filter_cons_of_neg hp, h b a (Bool.not_eq_true _ ▸ hp)]
      exact ih b

/-- The tables of a schema that pass a filter, with their positions. -/
def placed (filter : Option (Table → Bool)) (s : Schema) : List (Table × Nat) := s.tables.zipIdx.filter fun e => passes filter e.1

/-- A schedule for the tables that pass a filter: every table keeps the orders of its maps. -/
def placedSched (filter : Option (Table → Bool)) (s : Schema) (sched : Sched) : Sched :=
  ⟨sched.tables, fun n => sched.columns (((placed filter s)[n]?.map Prod.snd).getD 0)⟩

theorem placedSched_fair {filter : Option (Table → Bool)} {s : Schema} {sched : Sched} (h : sched.Fair) :
    (placedSched filter s sched).Fair := ⟨h.1, fun _ _ => h.2 _ _⟩

section
variable {text : Str} {gs : List Str} (hg : NamesGroups text gs)
include hg

theorem restrict_placed (s : Schema) : (restrict gs s).tables = (placed (getTableFilterFn text) s).map Prod.fst := by
  unfold placed
  rw [zipIdx_filter_fst, filter_groups hg s]
  exact (List.filter_eq_self.2 fun _ _ => rfl).symm

/-- C145: the diff of two schemas, restricted to groups, is the diff of the old schema and the tables of these groups of the new one. -/
theorem C145_new_schema (a b : Schema) (author suffix : Str) (uc : Bool) (sched : Sched) :
    getDiff ⟨getTableFilterFn text, a, b, author, suffix, uc⟩ sched =
      getDiff ⟨getTableFilterFn [], a, restrict gs b, author, suffix, uc⟩ (placedSched (getTableFilterFn text) b sched) := by
  have e : ∀ (au : Str) (l : TabLoop), b.tables.zipIdx.foldl (tabStep ⟨getTableFilterFn text, a, b, author, suffix, uc⟩ sched au) l =
      (restrict gs b).tables.zipIdx.foldl (tabStep ⟨getTableFilterFn [], a, restrict gs b, author, suffix, uc⟩
        (placedSched (getTableFilterFn text) b sched) au) l := by
    intro au l
    rw [foldl_skip (fun e => passes (getTableFilterFn text) e.1), restrict_placed hg]
    · refine (foldl_positions _ _ _ 0 l fun n e hn l => ?_).symm
      have hp := (List.mem_filter.1 (List.mem_of_getElem? hn)).2
      unfold tabStep
      dsimp only at hp ⊢
      rw [hp]
      have hc : (placedSched (getTableFilterFn text) b sched).columns (0 + n) = sched.columns e.2 := by
        unfold placedSched placed
        dsimp only
        rw [Nat.zero_add, hn]
        rfl
      rw [hc]
      rfl
    · intro l e hp
      unfold tabStep
      dsimp only at hp ⊢
      rw [hp]
      rfl
  unfold getDiff
  dsimp only
  rw [e]
  rfl

/-- C145: the same for the changelog of `diff liquibase`. -/
theorem C145_changelog (pf : Str → Option Str) (a b : Schema) (author suffix : Str) (uc : Bool) (sched : Sched) :
    Lq.generate pf ⟨getTableFilterFn text, a, b, author, suffix, uc⟩ sched =
      Lq.generate pf ⟨getTableFilterFn [], a, restrict gs b, author, suffix, uc⟩ (placedSched (getTableFilterFn text) b sched) := by
  have e : ∀ (au : Str) (l : Lq.TabLoop),
      b.tables.zipIdx.foldlM (Lq.tabStep pf ⟨getTableFilterFn text, a, b, author, suffix, uc⟩ sched au) l =
      (restrict gs b).tables.zipIdx.foldlM (Lq.tabStep pf ⟨getTableFilterFn [], a, restrict gs b, author, suffix, uc⟩
        (placedSched (getTableFilterFn text) b sched) au) l := by
    intro au l
    rw [foldlM_skip (fun e => passes (getTableFilterFn text) e.1), restrict_placed hg]
    · refine (foldlM_positions _ _ _ 0 l fun n e hn l => ?_).symm
      have hp := (List.mem_filter.1 (List.mem_of_getElem? hn)).2
      unfold Lq.tabStep
      dsimp only at hp ⊢
      rw [hp]
      have hc : (placedSched (getTableFilterFn text) b sched).columns (0 + n) = sched.columns e.2 := by
        unfold placedSched placed
        dsimp only
        rw [Nat.zero_add, hn]
        rfl
      rw [hc]
      rfl
    · intro l e hp
      unfold Lq.tabStep
      dsimp only at hp ⊢
      rw [hp]
      rfl
  unfold Lq.generate
  dsimp only
  rw [e]
  rfl

/-- C145, exactly: the diff of two schemas, restricted to groups, is the diff of the tables of these groups of both if and only if all old
tables are in these groups. -/
theorem C145_exact (a b : Schema) (author suffix : Str) (uc : Bool) (sched : Sched) (hs : sched.Fair)
    (hd : (a.tables.map (·.name)).Nodup) :
    (∃ sched' : Sched, sched'.Fair ∧ getDiff ⟨getTableFilterFn text, a, b, author, suffix, uc⟩ sched =
      getDiff ⟨getTableFilterFn [], restrict gs a, restrict gs b, author, suffix, uc⟩ sched') ↔ ∀ t ∈ a.tables, t.group ∈ gs := by
  constructor
  · rintro ⟨sched', hs', e⟩ u hu
    by_contra hug
    obtain ⟨h1, h2⟩ := C26_tables_accounted ⟨getTableFilterFn text, a, b, author, suffix, uc⟩ sched hs hd
    obtain ⟨h3, h4⟩ := C26_tables_accounted ⟨getTableFilterFn [], restrict gs a, restrict gs b, author, suffix, uc⟩ sched' hs'
      (hd.sublist (List.filter_sublist.map _))
    rw [e] at h1 h2
    dsimp only at h1 h2 h3 h4
    have hd1 := h1.symm.trans h3
    have hd2 := h2.symm.trans h4
    rw [filter_groups hg b] at hd1 hd2
    generalize List.filter (passes (getTableFilterFn [])) (restrict gs b).tables = sel at hd1 hd2
    by_cases hn : u.name ∈ sel.map (·.name)
    · obtain ⟨t, ht, htn⟩ := List.mem_map.1 hn
      have hm : t ∈ sel.filter fun t => decide (t.name ∉ (restrict gs a).tables.map (·.name)) := by
        refine List.mem_filter.2 ⟨ht, decide_eq_true fun h => ?_⟩
        obtain ⟨x, hx, hxn⟩ := List.mem_map.1 h
        obtain ⟨hx, hxg⟩ := mem_restrict.1 hx
        have : x = u := List.inj_on_of_nodup_map hd hx hu (hxn.trans htn)
        rw [this] at hxg
        exact hug hxg
      have := (List.mem_filter.1 (hd2.mem_iff.2 hm)).2
      exact of_decide_eq_true this (by rw [htn]; exact List.mem_map.2 ⟨u, hu, rfl⟩)
    · have hm := hd1.mem_iff.1 (List.mem_filter.2 ⟨hu, decide_eq_true hn⟩)
      exact hug (mem_restrict.1 (List.mem_filter.1 hm).1).2
  · intro h
    have e : restrict gs a = a := by
      unfold restrict
      rw [List.filter_eq_self.2 fun t ht => decide_eq_true (h t ht)]
    refine ⟨_, placedSched_fair (filter := getTableFilterFn text) (s := b) hs, ?_⟩
    rw [e]
    exact C145_new_schema hg a b author suffix uc sched

end

/-- The commands that compare two schemas. -/
def diffCommands : List Cmd := [.diffFlyway, .diffLiquibase, .diffMd]

/-- C145: on the command line, the three diff commands with `--groups` do what they do without it when the file of the new schema holds the
tables of these groups only. -/
theorem C145_commands (w : World) (c : Cmd) (hc : c ∈ diffCommands) (v v' : Values) (gs : List Str)
    (hg : NamesGroups (v "groups"ₛ) gs) (hv : v' "groups"ₛ = []) (hother : ∀ n, n ≠ "groups"ₛ → n ≠ "to"ₛ → v' n = v n)
    (fs : Files) (hload : load w fs (v' "to"ₛ) = (load w fs (v "to"ₛ)).map (restrict gs)) :
    ∃ sched', (w.sched.Fair → sched'.Fair) ∧ action w c v fs = action { w with sched := sched' } c v' fs := by
  have hb : ∀ n, n ≠ "groups"ₛ → n ≠ "to"ₛ → v'.bool n = v.bool n := fun n h1 h2 => by unfold Values.bool; rw [hother n h1 h2]
  have hfrom := hother "from"ₛ (by decide) (by decide)
  have hk : ∀ (k k' : Schema → Schema → Result) (s' : Sched),
      (∀ a b, load w fs (v "to"ₛ) = some b → k a b = k' a (restrict gs b)) →
      withSchemas w v fs k = withSchemas { w with sched := s' } v' fs k' := by
    intro k k' s' h
    have e1 : load { w with sched := s' } fs (v' "from"ₛ) = load w fs (v "from"ₛ) := by rw [hfrom]; rfl
    have e2 : load { w with sched := s' } fs (v' "to"ₛ) = (load w fs (v "to"ₛ)).map (restrict gs) := hload
    unfold withSchemas withSchema
    rw [e1, e2]
    cases load w fs (v "from"ₛ) with
    | none => rfl
    | some a =>
      cases hl : load w fs (v "to"ₛ) with
      | none => rfl
      | some b => exact h a b hl
  refine ⟨match load w fs (v "to"ₛ) with
    | none => w.sched
    | some b => placedSched (getTableFilterFn (v "groups"ₛ)) b w.sched, ?_, ?_⟩
  · intro h
    split
    · exact h
    · exact placedSched_fair h
  · unfold diffCommands at hc
    simp only [List.mem_cons, List.not_mem_nil, or_false] at hc
    rcases hc with rfl | rfl | rfl
    · refine hk _ _ _ fun a b hl => ?_
      dsimp only
      rw [hl]
      unfold diffOption
      rw [hv, hother "output"ₛ (by decide) (by decide), hother "uniqueNameSuffix"ₛ (by decide) (by decide),
        hother "author"ₛ (by decide) (by decide), hb "comments"ₛ (by decide) (by decide), C145_new_schema hg]
      rfl
    · refine hk _ _ _ fun a b hl => ?_
      dsimp only
      rw [hl]
      rw [hv, hother "output"ₛ (by decide) (by decide),
        hother "author"ₛ (by decide) (by decide), hb "comments"ₛ (by decide) (by decide), C145_changelog hg]
      rfl
    · refine hk _ _ _ fun a b hl => ?_
      dsimp only
      rw [hl]
      unfold diffOption
      rw [hv, hother "output"ₛ (by decide) (by decide), hother "uniqueNameSuffix"ₛ (by decide) (by decide),
        hother "author"ₛ (by decide) (by decide), hb "comments"ₛ (by decide) (by decide), C145_new_schema hg]
      rfl

/-- C145: the conditions can be met; the diff against the tables of group `h` of the same schema drops the tables of the other group. -/
example :
    let fs := twoFiles ["h"ₛ] demoA
    let v := given [("from"ₛ, "a.json"ₛ), ("to"ₛ, "a.json"ₛ), ("output"ₛ, "o"ₛ), ("groups"ₛ, "h"ₛ)]
    let v' := given [("from"ₛ, "a.json"ₛ), ("to"ₛ, "b.json"ₛ), ("output"ₛ, "o"ₛ)]
    NamesGroups (v "groups"ₛ) ["h"ₛ] ∧ v' "groups"ₛ = [] ∧ (∀ n, n ≠ "groups"ₛ → n ≠ "to"ₛ → v' n = v n) ∧
    load demoWorld fs (v' "to"ₛ) = (load demoWorld fs (v "to"ₛ)).map (restrict ["h"ₛ]) ∧
    (action demoWorld .diffMd v fs).status = .ok ∧
    (getDiff ⟨getTableFilterFn "h"ₛ, demoA, demoA, [], [], false⟩ idSched) ≠ [] := by
  dsimp only
  refine ⟨⟨by decide +kernel, by decide +kernel, by decide +kernel⟩, by decide +kernel, ?_, by decide +kernel, by decide +kernel,
    by decide +kernel⟩
  intro n h1 h2
  unfold given
  simp only [List.lookup]
  rw [beq_eq_false_iff_ne.2 h2, beq_eq_false_iff_ne.2 h1]

/-- C145, exactly: both sides occur. -/
example : (demoA.tables.map (·.name)).Nodup ∧ (¬∀ t ∈ demoA.tables, t.group ∈ ["h"ₛ]) ∧ (∀ t ∈ demoA.tables, t.group ∈ ["g"ₛ, "h"ₛ]) ∧
    NamesGroups "g,h"ₛ ["g"ₛ, "h"ₛ] :=
  ⟨by decide +kernel, by decide +kernel, by decide +kernel, ⟨by decide +kernel, by decide +kernel, by decide +kernel⟩⟩

end Octo
