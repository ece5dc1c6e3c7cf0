import Verif.Props.LqReport
import Verif.Spec.LqHistory

/-! Property C150: stored values along the changelogs of a history. -/

namespace Octo
open Spec
namespace Spec

/-- A cell of a schema: the names of a table and of one of its columns. -/
def IsCell (s : Schema) (x : Str × Str) : Prop := ∃ o ∈ s.tables, ∃ c ∈ o.columns, x = (o.name, c.name)

/-- All versions of a history have distinct names, and maps are visited in some order. -/
def NamedHistory : Schema → List Release → Prop
  | s, [] => DistinctNames s
  | s, r :: rs => DistinctNames s ∧ r.sched.Fair ∧ NamedHistory r.schema rs

/-- A changelog drops a cell. -/
def Drops (l : List Lq.LqChangeSet) (x : Str × Str) : Prop :=
  .dropTable x.1 ∈ changelogEvents l ∨ .dropColumn x.1 x.2 ∈ changelogEvents l

/-- Where the value of a cell is found after several changelogs. -/
def valueAfter (ls : List (List Lq.LqChangeSet)) (x : Str × Str) : Option (Str × Str) := eventsAfter (changelogEvents ls.flatten) x

end Spec

theorem eventsAfter_append (es fs : List Event) (x : Str × Str) :
    eventsAfter (es ++ fs) x = (eventsAfter es x).bind (eventsAfter fs) := by
  induction es generalizing x with
  | nil => rfl
  | cons e es ih =>
    show (eventStep e x).bind (eventsAfter (es ++ fs)) = ((eventStep e x).bind (eventsAfter es)).bind (eventsAfter fs)
    rw [Option.bind_assoc]
    exact congrArg _ (funext ih)

theorem valueAfter_nil (x : Str × Str) : valueAfter [] x = some x := rfl

theorem valueAfter_cons (l : List Lq.LqChangeSet) (ls : List (List Lq.LqChangeSet)) (x : Str × Str) :
    valueAfter (l :: ls) x = (valueAfter [l] x).bind (valueAfter ls) := by
  unfold valueAfter
  rw [List.flatten_cons, List.flatten_cons, List.flatten_nil, List.append_nil]
  unfold changelogEvents
  rw [List.flatMap_append, eventsAfter_append]

/-- The options of a step. -/
def stepOption (uc : Bool) (suffix : Str) (s : Schema) (r : Release) : DiffOption :=
  { diffFrom := s, diffTo := r.schema, author := r.author, uniqueNameSuffix := suffix, useComments := uc }

theorem value_step {pf : Str → Option Str} {uc : Bool} {suffix : Str} {s : Schema} {r : Release} {l : List Lq.LqChangeSet}
    (h : Lq.generate pf (stepOption uc suffix s r) r.sched = some l) (x : Str × Str) :
    valueAfter [l] x = cellAfter (changesOf (getDiff (stepOption uc suffix s r) r.sched)) x := by
  rw [← C148_values pf _ _ l h x]
  unfold valueAfter
  rw [List.flatten_cons, List.flatten_nil, List.append_nil]

theorem named_head {s : Schema} {rs : List Release} (h : NamedHistory s rs) : DistinctNames s := by
  cases rs with
  | nil => exact h
  | cons r rs => exact h.1

variable {pf : Str → Option Str} {uc : Bool} {suffix : Str}

/-- C150: after the changelogs of a history, a value that is not lost is in a cell of the last version. -/
theorem C150_place {s : Schema} {rs : List Release} {ls : List (List Lq.LqChangeSet)} (hl : Logs pf uc suffix s rs ls)
    (hn : NamedHistory s rs) {x y : Str × Str} (hx : IsCell s x) (h : valueAfter ls x = some y) : IsCell (latest s rs) y := by
  induction rs generalizing s ls x with
  | nil =>
    cases ls with
    | nil => cases h; exact hx
    | cons l ls => exact hl.elim
  | cons r rs ih =>
    cases ls with
    | nil => exact hl.elim
    | cons l ls =>
      rw [valueAfter_cons] at h
      obtain ⟨z, hz, h⟩ := Option.bind_eq_some_iff.1 h
      rw [value_step hl.1] at hz
      obtain ⟨o, ho, c, hc, rfl⟩ := hx
      obtain ⟨t, ht, n, hn', rfl, _⟩ := C147_place (stepOption uc suffix s r) r.sched hn.2.1 rfl hn.1 o ho c hc z hz
      exact ih hl.2 hn.2.2 ⟨t, ht, n, hn', rfl⟩ h

/-- C150: no two values of the first version are in the same cell after the changelogs of a history. -/
theorem C150_apart {s : Schema} {rs : List Release} {ls : List (List Lq.LqChangeSet)} (hl : Logs pf uc suffix s rs ls)
    (hn : NamedHistory s rs) {x x' y : Str × Str} (hx : IsCell s x) (hx' : IsCell s x') (h : valueAfter ls x = some y)
    (h' : valueAfter ls x' = some y) : x = x' := by
  induction rs generalizing s ls x x' with
  | nil =>
    cases ls with
    | nil => cases h; cases h'; rfl
    | cons l ls => exact hl.elim
  | cons r rs ih =>
    cases ls with
    | nil => exact hl.elim
    | cons l ls =>
      rw [valueAfter_cons] at h h'
      obtain ⟨z, hz, h⟩ := Option.bind_eq_some_iff.1 h
      obtain ⟨z', hz', h'⟩ := Option.bind_eq_some_iff.1 h'
      rw [value_step hl.1] at hz hz'
      obtain ⟨o, ho, c, hc, rfl⟩ := hx
      obtain ⟨o', ho', c', hc', rfl⟩ := hx'
      obtain ⟨t, ht, n, hm, rfl, _⟩ := C147_place (stepOption uc suffix s r) r.sched hn.2.1 rfl hn.1 o ho c hc z hz
      obtain ⟨t', ht', n', hm', rfl, _⟩ := C147_place (stepOption uc suffix s r) r.sched hn.2.1 rfl hn.1 o' ho' c' hc' z' hz'
      have e := ih hl.2 hn.2.2 ⟨t, ht, n, hm, rfl⟩ ⟨t', ht', n', hm', rfl⟩ h h'
      rw [← e] at hz'
      obtain ⟨rfl, rfl⟩ := C147_apart (stepOption uc suffix s r) r.sched hn.2.1 rfl hn.1 (named_head hn.2.2) o ho c hc o' ho' c' hc' _ hz hz'
      rfl

/-- C150: a value whose table and column all versions have stays where it is. -/
theorem C150_stays {s : Schema} {rs : List Release} {ls : List (List Lq.LqChangeSet)} (hl : Logs pf uc suffix s rs ls)
    (hn : NamedHistory s rs) {x : Str × Str} (hx : IsCell s x) (h : ∀ r ∈ rs, IsCell r.schema x) : valueAfter ls x = some x := by
  induction rs generalizing s ls with
  | nil =>
    cases ls with
    | nil => rfl
    | cons l ls => exact hl.elim
  | cons r rs ih =>
    cases ls with
    | nil => exact hl.elim
    | cons l ls =>
      rw [valueAfter_cons, value_step hl.1]
      obtain ⟨o, ho, c, hc, rfl⟩ := hx
      have hr := h r List.mem_cons_self
      obtain ⟨t, ht, n, hm, e⟩ := hr
      rw [Prod.mk.injEq] at e
      rw [(C147_lost_exact (stepOption uc suffix s r) r.sched hn.2.1 rfl hn.1 (named_head hn.2.2).1 o ho c hc).2 t ht e.1.symm
        (by rw [e.2]; exact List.mem_map_of_mem (f := fun c : Column => c.name) hm)]
      exact ih hl.2 hn.2.2 ⟨t, ht, n, hm, by rw [e.1, e.2]⟩ fun r' hr' => h r' (List.mem_cons_of_mem _ hr')

/-- A changelog loses the value of a cell exactly when it drops it. -/
theorem step_lost {s : Schema} {r : Release} {l : List Lq.LqChangeSet} (h : Lq.generate pf (stepOption uc suffix s r) r.sched = some l)
    (hs : r.sched.Fair) (ha : DistinctNames s) (hc : DistinctNames r.schema) {x : Str × Str} (hx : IsCell s x) :
    valueAfter [l] x = none ↔ Drops l x := by
  obtain ⟨o, ho, c, hco, rfl⟩ := hx
  rw [value_step h, (C147_lost_exact (stepOption uc suffix s r) r.sched hs rfl ha hc.1 o ho c hco).1]
  unfold Drops
  rw [C148_events pf _ _ l h]
  refine or_congr ⟨fun hd => ?_, fun hd => ?_⟩ ⟨?_, fun hd => ?_⟩
  · exact List.mem_filterMap.2 ⟨.dropTable o, mem_dropTable.2 hd, rfl⟩
  · obtain ⟨ch, hch, e⟩ := List.mem_filterMap.1 hd
    cases ch <;> first | cases e | skip
    rename_i t
    have e' : t.name = o.name := by
      have := Option.some.inj e
      exact Event.dropTable.inj this
    rw [mem_dropTable] at hch
    have ht : t ∈ s.tables := by
      rw [droppedTables_diff] at hch
      obtain ⟨n, _, hn⟩ := List.mem_filterMap.1 hch
      exact (lastBy_some hn).1
    rwa [← eq_of_nodup_map ha.1 ht ho e']
  · rintro ⟨t, ht, e⟩
    exact List.mem_filterMap.2 ⟨_, ht, by show some (Event.dropColumn t.name c.name) = _; rw [e]⟩
  · obtain ⟨ch, hch, e⟩ := List.mem_filterMap.1 hd
    cases ch <;> first | cases e | skip
    rename_i t n
    have := Event.dropColumn.inj (Option.some.inj e)
    refine ⟨t, ?_, this.1⟩
    rw [show c.name = n from this.2.symm]
    exact hch

/-- C150: a value is lost exactly when a changelog drops the table or the column where the changelogs before it have left it. -/
theorem C150_lost_exact {s : Schema} {rs : List Release} {ls : List (List Lq.LqChangeSet)} (hl : Logs pf uc suffix s rs ls)
    (hn : NamedHistory s rs) {x : Str × Str} (hx : IsCell s x) :
    valueAfter ls x = none ↔ ∃ pre l post y, ls = pre ++ l :: post ∧ valueAfter pre x = some y ∧ Drops l y := by
  induction rs generalizing s ls x with
  | nil =>
    cases ls with
    | nil =>
      refine ⟨fun h => (by cases h), ?_⟩
      rintro ⟨pre, l, post, y, e, _⟩
      exact absurd e.symm (by simp)
    | cons l ls => exact hl.elim
  | cons r rs ih =>
    cases ls with
    | nil => exact hl.elim
    | cons l ls =>
      have hstep := step_lost hl.1 hn.2.1 hn.1 (named_head hn.2.2) hx
      rw [valueAfter_cons, Option.bind_eq_none_iff]
      cases hv : valueAfter [l] x with
      | none =>
        exact ⟨fun _ => ⟨[], l, ls, x, rfl, rfl, hstep.1 hv⟩, fun _ y e => (by cases e)⟩
      | some z =>
        have hz : IsCell r.schema z := by
          have hv' := hv
          rw [value_step hl.1] at hv'
          obtain ⟨o, ho, c, hc, rfl⟩ := hx
          obtain ⟨t, ht, n, hm, rfl, _⟩ := C147_place (stepOption uc suffix s r) r.sched hn.2.1 rfl hn.1 o ho c hc z hv'
          exact ⟨t, ht, n, hm, rfl⟩
        have hi := ih hl.2 hn.2.2 hz
        constructor
        · intro h
          obtain ⟨pre, l', post, y, e, hy, hd⟩ := hi.1 (h z rfl)
          refine ⟨l :: pre, l', post, y, by rw [e]; rfl, ?_, hd⟩
          rw [valueAfter_cons, hv]
          exact hy
        · rintro ⟨pre, l', post, y, e, hy, hd⟩ w hw
          cases hw
          cases pre with
          | nil =>
            rw [List.nil_append, List.cons.injEq] at e
            cases hy
            rw [← e.1] at hd
            rw [hstep.2 hd] at hv
            cases hv
          | cons a pre =>
            rw [List.cons_append, List.cons.injEq] at e
            rw [← e.1, valueAfter_cons, hv] at hy
            exact hi.2 ⟨pre, l', post, y, e.2, hy, hd⟩

/-- C150: where a value is found does not depend on the authors and on the iteration orders of maps of the runs. -/
theorem C150_orders {s : Schema} {rs rs' : List Release} {ls ls' : List (List Lq.LqChangeSet)} (hl : Logs pf uc suffix s rs ls)
    (hl' : Logs pf uc suffix s rs' ls') (hn : NamedHistory s rs) (hn' : NamedHistory s rs') (he : rs.map (·.schema) = rs'.map (·.schema))
    (x : Str × Str) : valueAfter ls x = valueAfter ls' x := by
  induction rs generalizing s rs' ls ls' x with
  | nil =>
    cases rs' with
    | cons r' rs' => cases he
    | nil =>
      cases ls with
      | cons l ls => exact hl.elim
      | nil =>
        cases ls' with
        | cons l ls => exact hl'.elim
        | nil => rfl
  | cons r rs ih =>
    cases rs' with
    | nil => cases he
    | cons r' rs' =>
      cases ls with
      | nil => exact hl.elim
      | cons l ls =>
        cases ls' with
        | nil => exact hl'.elim
        | cons l' ls' =>
          rw [List.map_cons, List.map_cons, List.cons.injEq] at he
          rw [valueAfter_cons, valueAfter_cons l', value_step hl.1, value_step hl'.1]
          have e1 : changesOf (getDiff (stepOption uc suffix s r') r'.sched) = changesOf (getDiff (stepOption uc suffix s r) r'.sched) := by
            unfold stepOption
            rw [he.1, changesOf_eq, changesOf_eq, allChanges_eq, allChanges_eq]
            rfl
          rw [e1, C147_orders (stepOption uc suffix s r) r.sched r'.sched hn.2.1 hn'.2.1 rfl hn.1 (named_head hn.2.2).1 x]
          have hl2 := hl'.2
          have hn2 := hn'.2.2
          rw [← he.1] at hl2 hn2
          exact congrArg _ (funext fun y => ih hl.2 hl2 hn.2.2 hn2 he.2 y)

/-- A third version of the running example: a type is changed, and a table is renamed again. -/
def exThird : Schema :=
  { author := "me"ₛ, version := "3"ₛ, tables := [
      { name := "user"ₛ, columns := [
          { name := "id"ₛ, type := "int64"ₛ, primaryKey := true, notNull := true },
          { name := "years"ₛ, type := "int64"ₛ }] },
      { name := "diary"ₛ, columns := [{ name := "msg"ₛ, type := "varchar"ₛ, size := 10, uniqueKey := true }] },
      { name := "new"ₛ, columns := [{ name := "y"ₛ, type := "date"ₛ }] } ] }

theorem exThird_distinct : DistinctNames exThird := by unfold DistinctNames exThird; decide

/-- The later versions of the running example. -/
def exReleases : List Release := [⟨exTo, "me"ₛ, idSched⟩, ⟨exThird, "you"ₛ, revSched⟩]

theorem exReleases_named : NamedHistory exFrom exReleases :=
  ⟨exFrom_distinct, idSched_fair, exTo_distinct, revSched_fair, exThird_distinct⟩

/-- The changelogs of the running example, and the fate of its values: kept, moved with the column, moved with the table twice, lost with
the table, lost with the column. -/
example : ∃ ls, Logs (fun _ => none) false "_uq"ₛ exFrom exReleases ls ∧
    ([("user"ₛ, "id"ₛ), ("user"ₛ, "age"ₛ), ("log"ₛ, "msg"ₛ), ("old"ₛ, "x"ₛ), ("user"ₛ, "name"ₛ)].map (valueAfter ls)) =
      [some ("user"ₛ, "id"ₛ), some ("user"ₛ, "years"ₛ), some ("diary"ₛ, "msg"ₛ), none, none] := by
  refine ⟨[(Lq.generate (fun _ => none) (stepOption false "_uq"ₛ exFrom ⟨exTo, "me"ₛ, idSched⟩) idSched).get (by decide +kernel),
    (Lq.generate (fun _ => none) (stepOption false "_uq"ₛ exTo ⟨exThird, "you"ₛ, revSched⟩) revSched).get (by decide +kernel)],
    ⟨(Option.some_get _).symm, (Option.some_get _).symm, trivial⟩, ?_⟩
  decide +kernel

/-- C150: a history is more than its ends. A changelog straight from the first version to the last one can lose values that the changelogs
of the versions between keep: a column that was renamed and then got another type. -/
theorem C150_between : ∃ (s : Schema) (rs : List Release) (r : Release) (ls ms : List (List Lq.LqChangeSet)) (x y : Str × Str),
    NamedHistory s rs ∧ NamedHistory s [r] ∧ latest s rs = latest s [r] ∧ IsCell s x ∧ Logs (fun _ => none) false "_uq"ₛ s rs ls ∧
    Logs (fun _ => none) false "_uq"ₛ s [r] ms ∧ valueAfter ls x = some y ∧ valueAfter ms x = none :=
  ⟨exFrom, exReleases, ⟨exThird, "you"ₛ, revSched⟩,
    [(Lq.generate (fun _ => none) (stepOption false "_uq"ₛ exFrom ⟨exTo, "me"ₛ, idSched⟩) idSched).get (by decide +kernel),
      (Lq.generate (fun _ => none) (stepOption false "_uq"ₛ exTo ⟨exThird, "you"ₛ, revSched⟩) revSched).get (by decide +kernel)],
    [(Lq.generate (fun _ => none) (stepOption false "_uq"ₛ exFrom ⟨exThird, "you"ₛ, revSched⟩) revSched).get (by decide +kernel)],
    ("user"ₛ, "age"ₛ), ("user"ₛ, "years"ₛ), exReleases_named, ⟨exFrom_distinct, revSched_fair, exThird_distinct⟩, rfl,
    ⟨_, List.mem_cons_self, _, List.mem_cons_of_mem _ (List.mem_cons_of_mem _ List.mem_cons_self), rfl⟩,
    ⟨(Option.some_get _).symm, (Option.some_get _).symm, trivial⟩, ⟨(Option.some_get _).symm, trivial⟩, by decide +kernel, by decide +kernel⟩

end Octo
