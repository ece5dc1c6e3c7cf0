import Verif.Props.LqYaml

/-! Exact conditions for C41, C42, C43, C44 and C122. -/

namespace Octo
open Spec Lq Spec.LqDoc

namespace Lq

theorem mem_fromSets_of {k : Nat} {ps : Sets} {p : Bool × List LqChange} (h : p ∈ ps) : ∃ i, (i, p) ∈ fromSets k ps := by
  induction ps generalizing k with
  | nil => cases h
  | cons q ps ih =>
    rcases List.mem_cons.1 h with rfl | h
    · exact ⟨k + 1, List.mem_cons_self⟩
    · obtain ⟨i, hi⟩ := ih (k := k + 1) h
      exact ⟨i, List.mem_cons_of_mem _ hi⟩

theorem mem_number_of {author : Str} {m : Nat} {bs : List LqBlock} {b : LqBlock} (hb : b ∈ bs) {p : Nat × Bool × List LqChange}
    (hp : p ∈ b) : ∃ s ∈ number author m bs, s.preConditions = p.2.1 ∧ s.changes = p.2.2 := by
  induction bs generalizing m with
  | nil => cases hb
  | cons c bs ih =>
    rw [number]
    rcases List.mem_cons.1 hb with rfl | hb
    · exact ⟨_, List.mem_append_left _ (List.mem_map.2 ⟨p, hp, rfl⟩), rfl, rfl⟩
    · obtain ⟨s, hs, h⟩ := ih (m := m + 1) hb
      exact ⟨s, List.mem_append_right _ hs, h⟩

/-- Every change set of a table of both schemas is in the changelog. -/
theorem kept_sets_mem {pf : Str → Option Str} {opt : DiffOption} {sched : Sched} {sets : List LqChangeSet}
    (h : generate pf opt sched = some sets) {e : Nat × Table × Table} (he : e ∈ keptTables opt) :
    ∃ ps, tableSets pf (sched.columns e.1) e.2.1 e.2.2 opt.useComments opt.uniqueNameSuffix = some ps ∧
      ∀ p ∈ ps, ∃ s ∈ sets, s.preConditions = p.1 ∧ s.changes = p.2 := by
  rw [generate_eq] at h
  obtain ⟨ks, hks, h⟩ := Option.bind_eq_some_iff.1 h
  obtain ⟨cs, hcs, rfl⟩ := Option.map_eq_some_iff.1 h
  obtain ⟨ps, hps, h3⟩ := forall₂_left (mapM_some_iff.1 hks) he
  refine ⟨ps, h3, fun p hp => ?_⟩
  obtain ⟨i, hi⟩ := mem_fromSets_of (k := 0) hp
  have hb : fromSets 0 ps ∈ diffBlocks opt sched ks cs := by
    unfold diffBlocks
    refine List.mem_append_left _ (List.mem_filter.2 ⟨List.mem_map.2 ⟨ps, hps, rfl⟩, ?_⟩)
    cases hf : fromSets 0 ps with
    | nil => rw [hf] at hi; cases hi
    | cons _ _ => rfl
  obtain ⟨s, hs, h1, h2⟩ := mem_number_of hb hi
  exact ⟨s, hs, h1, h2⟩

theorem unique_sets_mem {pf : Str → Option Str} {sched : List (Column × Column) → List (Column × Column)} {t o : Table}
    {uc : Bool} {suffix : Str} {ps : Sets} (h : tableSets pf sched t o uc suffix = some ps) (hu : uniqueChanged t o = true) :
    (false, [.dropUniqueConstraint t.name (t.name ++ suffix)]) ∈ ps ∧ (false, uqChanges t suffix) ∈ ps := by
  unfold tableSets at h
  obtain ⟨cs, _, h⟩ := Option.bind_eq_some_iff.1 h
  obtain ⟨add, _, rfl⟩ := Option.map_eq_some_iff.1 h
  constructor
  · refine List.mem_append_right _ (List.mem_append_right _ (List.mem_append_left _ (List.mem_append_left _ ?_)))
    exact mem_whenS.2 ⟨hu, rfl⟩
  · refine List.mem_append_right _ (List.mem_append_right _ (List.mem_append_right _ (List.mem_append_right _ (List.mem_append_right _ ?_))))
    exact mem_whenS.2 ⟨hu, rfl⟩

theorem uniqueChanged_of {t o : Table} (h : HasUnique t ↔ ¬HasUnique o) : uniqueChanged t o = true := by
  by_contra hc
  have hc : uniqueChanged t o = false := Bool.eq_false_iff.2 hc
  rw [uniqueChanged_iff] at hc
  by_cases ho : HasUnique o
  · obtain ⟨c, h1, h2⟩ := ho
    obtain ⟨d, h3, h4, _⟩ := (hc c.name).2 ⟨c, h1, h2, rfl⟩
    exact h.1 ⟨d, h3, h4⟩ ⟨c, h1, h2⟩
  · obtain ⟨c, h1, h2⟩ := h.2 ho
    obtain ⟨d, h3, h4, _⟩ := (hc c.name).1 ⟨c, h1, h2, rfl⟩
    exact ho ⟨d, h3, h4⟩

theorem not_uniqueChanged {t o : Table} (ht : ¬HasUnique t) (ho : ¬HasUnique o) : uniqueChanged t o = false := by
  rw [uniqueChanged_iff]
  intro m
  constructor
  · rintro ⟨c, hc, hq, _⟩; exact absurd ⟨c, hc, hq⟩ ht
  · rintro ⟨c, hc, hq, _⟩; exact absurd ⟨c, hc, hq⟩ ho

end Lq

/-- C41, exactly: constraints are only dropped from tables that had one if and only if no selected table that is in both schemas gets
its first unique column. -/
theorem C41_exact (pf : Str → Option Str) (opt : DiffOption) (sched : Sched) (hs : sched.Fair)
    (hn : (opt.diffFrom.tables.map (·.name)).Nodup) (sets : List LqChangeSet) (h : generate pf opt sched = some sets) :
    (∀ n k, .dropUniqueConstraint n k ∈ changesIn sets → ∃ o ∈ opt.diffFrom.tables, o.name = n ∧ HasUnique o) ↔
    ∀ t ∈ opt.diffTo.tables, passes opt.tableFilter t = true → ∀ o ∈ opt.diffFrom.tables, o.name = t.name →
      HasUnique t → HasUnique o := by
  have hone : ∀ o ∈ opt.diffFrom.tables, ∀ o' ∈ opt.diffFrom.tables, o.name = o'.name → o = o' := fun o ho o' ho' e => by
    have h1 := lastBy_nodup hn ho
    have h2 := lastBy_nodup hn ho'
    rw [e] at h1
    exact Option.some.inj (h1.symm.trans h2)
  constructor
  · intro hd t ht hp o ho e hu
    by_contra hno
    obtain ⟨i, hi⟩ := List.mem_iff_getElem?.1 ht
    have hk : (i, t, o) ∈ keptTables opt := mem_keptTables.2 ⟨hi, hp, by rw [← e]; exact lastBy_nodup hn ho⟩
    obtain ⟨ps, hps, hall⟩ := kept_sets_mem h hk
    obtain ⟨s, hsm, _, h2⟩ := hall _ (unique_sets_mem hps (uniqueChanged_of ⟨fun _ => hno, fun _ => hu⟩)).1
    obtain ⟨o', ho', e', hu'⟩ := hd t.name (t.name ++ opt.uniqueNameSuffix)
      (List.mem_flatMap.2 ⟨s, hsm, by rw [h2]; exact List.mem_singleton.2 rfl⟩)
    exact hno (hone _ ho _ ho' (e.trans e'.symm) ▸ hu')
  · intro hd n k hm
    obtain ⟨s, hsm, hc⟩ := List.mem_flatMap.1 hm
    rcases mem_generate hs h hsm with ⟨x, he, ps, hps, hp⟩ | ⟨m, _, e⟩ | ⟨p, hp, e | ⟨hu, e⟩ | ⟨_, e⟩⟩ | ⟨t, _, ps, hps, hp⟩
    · obtain ⟨i, t, o⟩ := x
      obtain ⟨h1, hf, h3⟩ := mem_keptTables.1 he
      have ho := (lastBy_some h3).1
      have e0 := (lastBy_some h3).2
      rcases mem_tableSets hps hp with ⟨r, e⟩ | ⟨q, _, cs, hcs, hq⟩ | ⟨hu, e⟩ | ⟨m, _, e⟩ | ⟨q, _, hq⟩ | ⟨ch, hch, e⟩ | ⟨_, e⟩ | ⟨_, e⟩
      · rw [(Prod.mk.inj e).2] at hc; simp at hc
      · obtain ⟨ch, e, h4⟩ := mem_columnSets hcs hq
        rw [(Prod.mk.inj e).2, List.mem_singleton] at hc
        subst hc
        simp at h4
      · rw [(Prod.mk.inj e).2, List.mem_singleton] at hc
        cases hc
        refine ⟨o, ho, e0, ?_⟩
        by_contra hno
        by_cases ht : HasUnique t
        · exact hno (hd t (List.mem_of_getElem? h1) hf o ho e0 ht)
        · rw [not_uniqueChanged ht hno] at hu; cases hu
      · rw [(Prod.mk.inj e).2] at hc; simp at hc
      · rcases mem_renameSets hq with e | e <;> rw [(Prod.mk.inj e).2] at hc <;> simp at hc
      · obtain ⟨lcs, _, rfl⟩ := Option.map_eq_some_iff.1 hch
        rw [(Prod.mk.inj e).2] at hc; simp at hc
      · rw [(Prod.mk.inj e).2] at hc
        unfold pkChanges at hc
        rcases List.mem_append.1 hc with hc | hc <;> split at hc <;> simp at hc
      · rw [(Prod.mk.inj e).2] at hc
        unfold uqChanges at hc
        split at hc <;> simp at hc
    · rw [e] at hc; simp at hc
    · rw [e] at hc; simp at hc
    · rw [e, List.mem_singleton] at hc
      cases hc
      obtain ⟨_, _, _, h4⟩ := renamedPairs_source hp
      exact ⟨p.2, (lastBy_some h4).1, rfl, hu⟩
    · rw [e] at hc; simp at hc
    · rcases mem_createSets hps hp with ⟨lcs, _, e⟩ | ⟨m, e⟩ | ⟨m, k, e⟩ <;> simp only at e <;> rw [e] at hc <;> simp at hc

/-- C42, exactly: no change set of a diff is empty if and only if no selected table that is in both schemas loses its last unique
column. -/
theorem C42_exact (pf : Str → Option Str) (opt : DiffOption) (sched : Sched) (hs : sched.Fair)
    (hn : (opt.diffFrom.tables.map (·.name)).Nodup) (sets : List LqChangeSet) (h : generate pf opt sched = some sets) :
    (∀ s ∈ sets, s.changes ≠ []) ↔
    ∀ t ∈ opt.diffTo.tables, passes opt.tableFilter t = true → ∀ o ∈ opt.diffFrom.tables, o.name = t.name →
      HasUnique o → HasUnique t := by
  constructor
  · intro hd t ht hp o ho e hu
    by_contra hno
    obtain ⟨i, hi⟩ := List.mem_iff_getElem?.1 ht
    have hk : (i, t, o) ∈ keptTables opt := mem_keptTables.2 ⟨hi, hp, by rw [← e]; exact lastBy_nodup hn ho⟩
    obtain ⟨ps, hps, hall⟩ := kept_sets_mem h hk
    obtain ⟨s, hsm, _, h2⟩ := hall _ (unique_sets_mem hps (uniqueChanged_of ⟨fun h => absurd h hno, fun h => absurd hu h⟩)).2
    refine hd s hsm (h2.trans ?_)
    dsimp only [uqChanges]
    rw [if_neg fun hz => hno (size_pos_unique.1 hz)]
  · intro hno s hsm
    rcases mem_generate hs h hsm with ⟨x, he, ps, hps, hp⟩ | ⟨m, _, e⟩ | ⟨p, hp, e | ⟨hu, e⟩ | ⟨_, e⟩⟩ | ⟨t, _, ps, hps, hp⟩
    · obtain ⟨i, t, o⟩ := x
      obtain ⟨h1, hf, h3⟩ := mem_keptTables.1 he
      rcases mem_tableSets hps hp with ⟨r, e⟩ | ⟨q, _, cs, hcs, hq⟩ | ⟨hu, e⟩ | ⟨m, _, e⟩ | ⟨q, _, hq⟩ | ⟨ch, hch, e⟩ | ⟨hpk, e⟩ | ⟨hu, e⟩
      · rw [(Prod.mk.inj e).2]; simp
      · obtain ⟨ch, e, h4⟩ := mem_columnSets hcs hq
        rw [(Prod.mk.inj e).2]; simp
      · rw [(Prod.mk.inj e).2]; simp
      · rw [(Prod.mk.inj e).2]; simp
      · rcases mem_renameSets hq with e | e <;> rw [(Prod.mk.inj e).2] <;> simp
      · rw [(Prod.mk.inj e).2]; simp
      · rw [(Prod.mk.inj e).2]; exact pkChanges_ne_nil hpk
      · rw [(Prod.mk.inj e).2]
        have ht : HasUnique t := by
          by_contra ht
          have ho : ¬HasUnique o := fun ho =>
            ht (hno _ (List.mem_of_getElem? h1) hf _ (lastBy_some h3).1 (lastBy_some h3).2 ho)
          dsimp only at hu
          rw [not_uniqueChanged ht ho] at hu; cases hu
        unfold uqChanges
        rw [if_pos (size_pos_unique.2 ht)]
        simp
    · rw [e]; simp
    · rw [e]; simp
    · rw [e]; simp
    · rw [e]; simp
    · rcases mem_createSets hps hp with ⟨lcs, _, e⟩ | ⟨m, e⟩ | ⟨m, k, e⟩ <;> simp only at e <;> rw [e] <;> simp

/-! ### C43 -/

theorem defaultGiven_iff {pf : Str → Option Str} {c : Column} {d : DefaultValue}
    (h : DefaultGiven pf ["decimal"ₛ, "float"ₛ, "double"ₛ] c d) :
    DefaultGiven pf numericTypes c d ↔
      (lower c.type ∈ ["int8"ₛ, "int16"ₛ, "int24"ₛ, "int32"ₛ, "int64"ₛ] → c.defaultValue = []) := by
  constructor
  · intro hg hi
    by_contra hv
    obtain ⟨_, h2⟩ := h
    obtain ⟨_, _, _, h6⟩ := h2 hv
    obtain ⟨_, h4, _, _⟩ := hg.2 hv
    have hnot : lower c.type ∉ ["bool"ₛ, "boolean"ₛ, "date"ₛ, "datetime"ₛ, "long"ₛ, "bigint"ₛ, "int"ₛ, "smallint"ₛ, "number"ₛ] ++
        ["decimal"ₛ, "float"ₛ, "double"ₛ] ++ ["decimal"ₛ, "float"ₛ, "double"ₛ] := by
      revert hi
      generalize lower c.type = y
      revert y
      decide
    have hnum : lower c.type ∈ numericTypes := by
      revert hi
      generalize lower c.type = y
      revert y
      decide
    obtain ⟨x, _, hx⟩ := h4 hnum
    rw [h6 hnot] at hx
    have : (none : Option Num) = some (.float x) := congrArg DefaultValue.numeric hx
    cases this
  · intro hi
    refine ⟨h.1, fun hv => ?_⟩
    obtain ⟨h3, h4, h5, h6⟩ := h.2 hv
    have hni : lower c.type ∉ ["int8"ₛ, "int16"ₛ, "int24"ₛ, "int32"ₛ, "int64"ₛ] := fun h' => hv (hi h')
    refine ⟨h3, fun hn => h4 ?_, h5, fun hn => h6 ?_⟩
    · revert hni hn
      generalize lower c.type = y
      intro h1 h2
      revert h1
      revert y
      decide
    · revert hn
      generalize lower c.type = y
      intro h1 h2
      refine h1 ?_
      clear h1
      revert h2
      revert y
      decide

/-- C43, exactly: a column of a generated changelog carries its default value in the field for its type if and only if it is no
integer or has no default value. -/
theorem C43_exact (pf : Str → Option Str) (opt : GenOption) (schema : Schema) (sets : List LqChangeSet)
    (h : generateAll pf opt schema = some sets) (n r : Str) (lcs : List LqColumn)
    (hm : .createTable n r lcs ∈ changesIn sets) :
    ∃ t ∈ schema.tables, t.name = n ∧ List.Forall₂ (fun c lc => lc.name = c.name ∧ (DefaultGiven pf numericTypes c lc.default ↔
      (lower c.type ∈ ["int8"ₛ, "int16"ₛ, "int24"ₛ, "int32"ₛ, "int64"ₛ] → c.defaultValue = []))) t.columns lcs := by
  obtain ⟨t, ht, hn, hl⟩ := C43_generated_partial pf opt schema sets h n r lcs hm
  exact ⟨t, ht, hn, hl.imp fun c lc h => ⟨h.1, defaultGiven_iff h.2⟩⟩

/-! ### C44 -/

theorem placeAfter_head (x : Str) (o : List Str) (n a : Str) : ∃ o', placeAfter (x :: o) n a = x :: o' := by
  unfold placeAfter
  split
  · by_cases e : x = a
    · subst e
      exact ⟨_, by rw [List.takeWhile_cons_of_neg (by simp)]; rfl⟩
    · exact ⟨_, by rw [List.takeWhile_cons_of_pos (by simpa using e)]; rfl⟩
  · exact ⟨_, rfl⟩

theorem place_head (after : Str → Str) (ns : List Str) (x : Str) (o : List Str) :
    ∃ o', ns.foldl (fun o n => placeAfter o n (after n)) (x :: o) = x :: o' := by
  induction ns generalizing o with
  | nil => exact ⟨o, rfl⟩
  | cons n ns ih =>
    obtain ⟨o1, h1⟩ := placeAfter_head x o n (after n)
    rw [List.foldl_cons, h1]
    exact ih o1

/-- Placing columns one after the other restores the order exactly when the first one was there, or none was. -/
theorem place_exact (l : List Str) (hl : l.Nodup) (p : Str → Bool) (after : Str → Str)
    (ha : ∀ n ∈ l, ∀ b, before n l = some b → after n = b) (first : Str) (rest : List Str) (e : l = first :: rest) :
    (l.filter p).foldl (fun o n => placeAfter o n (after n)) (l.filter fun n => !p n) = l ↔ p first = false ∨ ∀ n ∈ l, p n = true := by
  constructor
  · intro h
    by_contra hn
    rw [not_or] at hn
    obtain ⟨h1, h2⟩ := hn
    have h1 : p first = true := by simpa using h1
    obtain ⟨n, hn, hp⟩ : ∃ n ∈ l, p n = false := by
      by_contra hc
      exact h2 fun n hn => by
        by_contra hp
        exact hc ⟨n, hn, by simpa using hp⟩
    cases hk : l.filter fun n => !p n with
    | nil =>
      have := (List.mem_filter (p := fun n => !p n)).2 ⟨hn, by rw [hp]; rfl⟩
      rw [hk] at this
      cases this
    | cons x o =>
      rw [hk] at h
      obtain ⟨o', h'⟩ := place_head after (l.filter p) x o
      rw [h', e] at h
      have hx : x ∈ l.filter fun n => !p n := by rw [hk]; exact List.mem_cons_self
      have := (List.mem_filter.1 hx).2
      rw [(List.cons.inj h).1, h1] at this
      cases this
  · rintro (h | h)
    · have key := place_all l hl p after ha rest [] first e
      rw [e, List.filter_cons_of_neg (p := p) (by simp [h]), List.filter_cons_of_pos (p := fun n => !p n) (by simp [h]), ← e]
      exact key
    · have hall : l.filter p = l := List.filter_eq_self.2 h
      have hnone : (l.filter fun n => !p n) = [] := List.filter_eq_nil_iff.2 fun n hn => by simp [h n hn]
      have key := place_all l hl p after ha rest [] first e
      have hr : rest.filter p = rest := List.filter_eq_self.2 fun n hn => h n (by rw [e]; exact List.mem_cons_of_mem _ hn)
      have hr' : (rest.filter fun n => !p n) = [] :=
        List.filter_eq_nil_iff.2 fun n hn => by simp [h n (by rw [e]; exact List.mem_cons_of_mem _ hn)]
      rw [hr, hr'] at key
      rw [hall, hnone, e, List.foldl_cons, ← e]
      have : placeAfter [] first (after first) = [first] := by
        unfold placeAfter
        rw [if_neg List.not_mem_nil]
        rfl
      rw [this]
      exact key

/-- C44, exactly: executing the additions one after the other on a table that has the other columns of the new table in their order
yields the order of the new table if and only if the first column is not among the added ones, or all columns are. -/
theorem C44_exact (pf : Str → Option Str) (opt : DiffOption) (sched : Sched) (hs : sched.Fair)
    (hto : ∀ t ∈ opt.diffTo.tables, (t.columns.map (·.name)).Nodup)
    (sets : List LqChangeSet) (h : generate pf opt sched = some sets) (n : Str) (lcs : List LqColumn)
    (hm : .addColumn n lcs ∈ changesIn sets) :
    ∃ t ∈ opt.diffTo.tables, t.name = n ∧ ∀ first rest, t.columns = first :: rest →
      (lcs.foldl (fun order lc => placeAfter order lc.name lc.afterColumn)
          ((t.columns.map (·.name)).filter fun m => decide (m ∉ lcs.map (·.name))) = t.columns.map (·.name) ↔
        first.name ∉ lcs.map (·.name) ∨ ∀ c ∈ t.columns, c.name ∈ lcs.map (·.name)) := by
  obtain ⟨t, ht, hn, cs, hsub, hl⟩ := addColumn_origin hs h hm
  refine ⟨t, ht, hn, ?_⟩
  intro first rest hcols
  have hnd := hto t ht
  have hnames : lcs.map (·.name) = cs.map (·.name) := by
    clear h hm hsub
    induction hl with
    | nil => rfl
    | cons h _ ih => rw [List.map_cons, List.map_cons, h.1, ih]
  have hafter : ∀ lc ∈ lcs, lc.afterColumn = (before lc.name (t.columns.map (·.name))).getD [] := by
    intro lc hlc
    obtain ⟨c, hc, h1, h2⟩ := forall₂_right hl hlc
    rw [h1, h2, lastColName_before hnd (hsub.subset hc)]
    cases before c.name (t.columns.map (·.name)) <;> rfl
  have hfold : ∀ (o : List Str) (ls : List LqColumn), (∀ lc ∈ ls, lc.afterColumn = (before lc.name (t.columns.map (·.name))).getD []) →
      ls.foldl (fun order lc => placeAfter order lc.name lc.afterColumn) o =
      (ls.map (·.name)).foldl (fun o n => placeAfter o n ((before n (t.columns.map (·.name))).getD [])) o := by
    intro o ls
    induction ls generalizing o with
    | nil => intro _; rfl
    | cons a ls ih =>
      intro hh
      rw [List.foldl_cons, List.map_cons, List.foldl_cons, hh a (by simp)]
      exact ih _ fun lc hlc => hh lc (by simp [hlc])
  rw [hfold _ _ hafter]
  have hfilter := sublist_eq_filter (hsub.map (·.name)) hnd
  rw [← hnames] at hfilter
  have key := place_exact (t.columns.map (·.name)) hnd (fun x => decide (x ∈ lcs.map (·.name)))
    (fun n => (before n (t.columns.map (·.name))).getD []) (fun n _ b hb => by simp only [hb, Option.getD_some])
    first.name (rest.map (·.name)) (by rw [hcols]; rfl)
  rw [hfilter] at key
  have e : ((t.columns.map (·.name)).filter fun m => decide (m ∉ lcs.map (·.name))) =
      (t.columns.map (·.name)).filter fun m => !decide (m ∈ lcs.map (·.name)) :=
    List.filter_congr fun m _ => by rw [decide_not]
  rw [e, key]
  simp only [decide_eq_false_iff_not, decide_eq_true_eq, List.mem_map, forall_exists_index, and_imp, forall_apply_eq_imp_iff₂]

/-! ### C122 -/

theorem tableRemarks_mem {pf : Str → Option Str} {sched : List (Column × Column) → List (Column × Column)} {t o : Table}
    {suffix : Str} {ps : Sets} (h : tableSets pf sched t o true suffix = some ps) (hd : t.description ≠ o.description) :
    (false, [.setTableRemarks t.name t.description]) ∈ ps := by
  unfold tableSets at h
  obtain ⟨cs, _, h⟩ := Option.bind_eq_some_iff.1 h
  obtain ⟨add, _, rfl⟩ := Option.map_eq_some_iff.1 h
  refine List.mem_append_left _ (mem_whenS.2 ⟨?_, rfl⟩)
  rw [Bool.true_and, bne_iff_ne]
  exact hd

theorem columnRemarks_mem {pf : Str → Option Str} {sched : List (Column × Column) → List (Column × Column)} {t o : Table}
    {suffix : Str} {ps : Sets} (h : tableSets pf sched t o true suffix = some ps) {q : Column × Column} (hq : q ∈ keptColumns t o)
    (hd : q.1.description ≠ q.2.description) : (false, [.setColumnRemarks t.name q.1.name q.1.description]) ∈ ps := by
  unfold tableSets at h
  obtain ⟨cs, hcs, h⟩ := Option.bind_eq_some_iff.1 h
  obtain ⟨add, _, rfl⟩ := Option.map_eq_some_iff.1 h
  obtain ⟨l, hl, h3⟩ := forall₂_left (mapM_some_iff.1 hcs) hq
  refine List.mem_append_right _ (List.mem_append_left _ (List.mem_flatten.2 ⟨l, hl, ?_⟩))
  obtain ⟨d, _, rfl⟩ := Option.map_eq_some_iff.1 h3
  refine List.mem_append_left _ (List.mem_append_right _ (List.mem_append_right _ (List.mem_append_left _ (mem_whenS.2 ⟨?_, rfl⟩))))
  rw [Bool.true_and, bne_iff_ne]
  exact hd

/-- C122 for diffs, exactly: the document of a diff that is not empty is acceptable if and only if there is an author, and comments
are not compared or none of a selected table or its columns disappears. -/
theorem C122_diff_exact (pf : Str → Option Str) (opt : DiffOption) (sched : Sched) (hs : sched.Fair) (hn : DistinctNames opt.diffFrom)
    (sets : List LqChangeSet) (h : generate pf opt sched = some sets) :
    ChangelogOk (changelogDoc sets) ↔ sets = [] ∨ (opt.author ≠ [] ∨ opt.diffTo.author ≠ []) ∧
      (opt.useComments = true → ∀ t ∈ opt.diffTo.tables, passes opt.tableFilter t = true → ∀ o ∈ opt.diffFrom.tables,
        o.name = t.name → (o.description ≠ [] → t.description ≠ []) ∧
          ∀ c ∈ t.columns, ∀ d ∈ o.columns, d.name = c.name → d.description ≠ [] → c.description ≠ []) := by
  rw [changelog_ok_iff]
  constructor
  · intro hok
    cases hsets : sets with
    | nil => exact Or.inl rfl
    | cons s0 l =>
      refine Or.inr ⟨?_, ?_⟩
      · have hm : s0 ∈ sets := by rw [hsets]; exact List.mem_cons_self
        obtain ⟨h1, h2⟩ := C123_diff_author pf opt sched sets h s0 hm
        by_cases ha : opt.author = []
        · exact Or.inr (h2 ha ▸ (hok s0 hm).1)
        · exact Or.inl ha
      · intro huc t ht hp o ho e
        obtain ⟨i, hi⟩ := List.mem_iff_getElem?.1 ht
        have hk : (i, t, o) ∈ keptTables opt := mem_keptTables.2 ⟨hi, hp, by rw [← e]; exact lastBy_nodup hn.1 ho⟩
        obtain ⟨ps, hps, hall⟩ := kept_sets_mem h hk
        rw [huc] at hps
        constructor
        · intro hd he
          obtain ⟨s, hsm, _, h2⟩ := hall _ (tableRemarks_mem hps (by rw [he]; exact hd.symm))
          have := (hok s hsm).2 (.setTableRemarks t.name t.description) (by rw [h2]; exact List.mem_singleton.2 rfl)
          rw [he] at this
          cases this
        · intro c hc d hd hcd hne he
          have hq : (c, d) ∈ keptColumns t o := mem_keptColumns.2 ⟨hc, by
            show o.columnNameMap c.name = some d
            rw [← hcd]; exact lastBy_nodup (hn.2 o ho) hd⟩
          obtain ⟨s, hsm, _, h2⟩ := hall _ (columnRemarks_mem hps hq (by rw [he]; exact hne.symm))
          have := (hok s hsm).2 (.setColumnRemarks t.name c.name c.description) (by rw [h2]; exact List.mem_singleton.2 rfl)
          rw [he] at this
          cases this
  · rintro (rfl | ⟨hauthor, hkeep⟩)
    · intro s hs; cases hs
    · intro s hm
      refine ⟨?_, ?_⟩
      · obtain ⟨h1, h2⟩ := C123_diff_author pf opt sched sets h s hm
        by_cases ha : opt.author = []
        · rw [h2 ha]; exact hauthor.resolve_left (not_not.2 ha)
        · rw [h1 ha]; exact ha
      · rcases mem_generate hs h hm with ⟨x, he, ps, hps, hp⟩ | ⟨m, _, e⟩ | ⟨p, hp, e | ⟨hu, e⟩ | ⟨_, e⟩⟩ | ⟨t, _, ps, hps, hp⟩
        · obtain ⟨i, t, o⟩ := x
          obtain ⟨h1, hf, h3⟩ := mem_keptTables.1 he
          exact tableSets_remarks hps
            (fun hu => hkeep hu _ (List.mem_of_getElem? h1) hf _ (lastBy_some h3).1 (lastBy_some h3).2) hp
        · rw [e]; intro c hc; rw [List.mem_singleton.1 hc]; rfl
        · rw [e]; intro c hc; rw [List.mem_singleton.1 hc]; rfl
        · rw [e]; intro c hc; rw [List.mem_singleton.1 hc]; rfl
        · rw [e]; intro c hc; rw [List.mem_singleton.1 hc]; rfl
        · rcases mem_createSets hps hp with ⟨_, _, e⟩ | ⟨_, e⟩ | ⟨_, _, e⟩ <;>
            (change s.changes = _ at e; rw [e]; intro c hc; rw [List.mem_singleton.1 hc]; rfl)

/-- The demonstration diff meets the hypotheses and both conditions. -/
example : idSched.Fair ∧ (lqDemoDiff.diffFrom.tables.map (·.name)).Nodup ∧ (generate some lqDemoDiff idSched).isSome ∧
    ∀ t ∈ lqDemoDiff.diffTo.tables, passes lqDemoDiff.tableFilter t = true → ∀ o ∈ lqDemoDiff.diffFrom.tables, o.name = t.name →
      (HasUnique o ↔ HasUnique t) := by
  refine ⟨idSched_fair, by decide, by decide +kernel, ?_⟩
  unfold HasUnique
  decide

/-- C41, C42 and C44 for the diff of the demo, and C43 for its first table. -/
example := C41_exact some lqDemoDiff idSched idSched_fair (by decide) _ (show generate some lqDemoDiff idSched =
  some ((generate some lqDemoDiff idSched).getD []) by decide +kernel)

example := C42_exact some lqDemoDiff idSched idSched_fair (by decide) _ (show generate some lqDemoDiff idSched =
  some ((generate some lqDemoDiff idSched).getD []) by decide +kernel)

example : ∃ n r lcs, .createTable n r lcs ∈ changesIn ((generateAll some { uniqueNameSuffix := "_uq"ₛ } lqDemo).getD []) ∧
    generateAll some { uniqueNameSuffix := "_uq"ₛ } lqDemo = some ((generateAll some { uniqueNameSuffix := "_uq"ₛ } lqDemo).getD []) :=
  ⟨_, _, _, .head _, by decide +kernel⟩

example : (∀ t ∈ lqDemoDiff.diffTo.tables, (t.columns.map (·.name)).Nodup) ∧
    ∃ n lcs, .addColumn n lcs ∈ changesIn ((generate some lqDemoDiff idSched).getD []) ∧ lcs.length = 3 := by
  refine ⟨by decide, ?_⟩
  have h : ((changesIn ((generate some lqDemoDiff idSched).getD [])).any fun
    | .addColumn _ lcs => lcs.length == 3
    | _ => false) = true := by decide +kernel
  obtain ⟨x, hx, h⟩ := List.any_eq_true.1 h
  split at h
  · exact ⟨_, _, hx, by simpa using h⟩
  · cases h

end Octo
