import Verif.Lemmas.LqYaml
import Verif.Props.Liquibase

/-! # Properties of the YAML documents of changelogs -/

namespace Octo
open Lq Spec Spec.LqDoc

/-! ## C121 -/

/-- C121: what Liquibase reads from the document of a changelog is the quoting strategy followed by
exactly its change sets, with ids, authors, preconditions and all attributes of all changes. -/
theorem C121_round_trip (sets : List LqChangeSet) :
    readChangelog (changelogDoc sets) =
      some (.quoting "QUOTE_ALL_OBJECTS"ₛ :: sets.map fun s => .changeSet (readAs s)) :=
  readChangelog_doc sets

/-- C121: no two changelogs have the same document. -/
theorem C121_injective (a b : List LqChangeSet) (h : changelogDoc a = changelogDoc b) : a = b := by
  have := congrArg readChangelog h
  rw [readChangelog_doc, readChangelog_doc] at this
  injection this with this
  injection this with _ this
  have hi : Function.Injective fun s => Entry.changeSet (readAs s) := fun x y hxy => by
    injection hxy with hxy
    exact readAs_injective hxy
  exact List.map_injective_iff.2 hi this

/-- A changelog with a default of zero, a comment and preconditions; all of it is read. -/
example :
    let sets : List LqChangeSet :=
      [⟨"1"ₛ, "me"ₛ, false, [.createTable "t"ₛ [] [{ name := "a"ₛ, type := "int"ₛ, default := { numeric := some (.int 0) }
                                                     constraints := some { unique := some true } }]]⟩,
       ⟨"1-1"ₛ, "me"ₛ, true, [.addUniqueConstraint "t"ₛ "a"ₛ "t_uq"ₛ]⟩]
    ∃ es, readChangelog (changelogDoc sets) = some es ∧ es.length = 3 := ⟨_, readChangelog_doc _, rfl⟩

/-! ## C122 -/

/-- C122, exactly: the document of a changelog consists of known changes with known attributes of the
right kind and all required ones, if and only if every change set has an author and no comment is set to the
empty text. -/
theorem C122_exact (sets : List LqChangeSet) :
    ChangelogOk (changelogDoc sets) ↔ ∀ s ∈ sets, s.author ≠ [] ∧ ∀ c ∈ s.changes, emptyRemarks c = false :=
  changelog_ok_iff sets

theorem stamp_author {author : Str} {m : Nat} {bs : List LqBlock} {s : LqChangeSet} (h : s ∈ Lq.number author m bs) :
    s.author = author := by
  induction bs generalizing m with
  | nil => cases h
  | cons b bs ih =>
    rcases List.mem_append.1 (by simpa [Lq.number] using h) with h | h
    · obtain ⟨p, hp, rfl⟩ := List.mem_map.1 h
      rfl
    · exact ih h

/-- C123: the author of all generated change sets is that of the schema. -/
theorem C123_author (pf : Str → Option Str) (opt : GenOption) (schema : Schema) (sets : List LqChangeSet)
    (h : generateAll pf opt schema = some sets) : ∀ s ∈ sets, s.author = schema.author := by
  rw [generateAll_eq] at h
  obtain ⟨pss, _, rfl⟩ := Option.map_eq_some_iff.1 h
  exact fun s hs => stamp_author hs

/-- C123: the author of all change sets of a diff is the one asked for, or that of the new schema when
none is asked for. -/
theorem C123_diff_author (pf : Str → Option Str) (opt : DiffOption) (sched : Sched) (sets : List LqChangeSet)
    (h : generate pf opt sched = some sets) :
    ∀ s ∈ sets, (opt.author ≠ [] → s.author = opt.author) ∧ (opt.author = [] → s.author = opt.diffTo.author) := by
  rw [generate_eq] at h
  obtain ⟨ks, _, h⟩ := Option.bind_eq_some_iff.1 h
  obtain ⟨cs, _, rfl⟩ := Option.map_eq_some_iff.1 h
  intro s hs
  rw [stamp_author hs]
  unfold diffAuthor
  exact ⟨fun h => if_pos h, fun h => if_neg (not_not.2 h)⟩

/-- C122 for generated changelogs: acceptable exactly when the schema has an author (or nothing is
generated). -/
theorem C122_generated_partial (pf : Str → Option Str) (opt : GenOption) (schema : Schema) (sets : List LqChangeSet)
    (h : generateAll pf opt schema = some sets) :
    ChangelogOk (changelogDoc sets) ↔ schema.author ≠ [] ∨ sets = [] := by
  rw [changelog_ok_iff]
  constructor
  · intro hok
    cases sets with
    | nil => exact Or.inr rfl
    | cons s l =>
      refine Or.inl ?_
      rw [← C123_author pf opt schema _ h s List.mem_cons_self]
      exact (hok s List.mem_cons_self).1
  · rintro (ha | rfl)
    · intro s hs
      refine ⟨by rw [C123_author pf opt schema _ h s hs]; exact ha, ?_⟩
      rw [generateAll_eq] at h
      obtain ⟨cs, hcs, rfl⟩ := Option.map_eq_some_iff.1 h
      obtain ⟨b, hb, p, hp, _, h2⟩ := mem_number hs
      obtain ⟨ps, hps, rfl⟩ := List.mem_map.1 hb
      obtain ⟨t, ht, h3⟩ := forall₂_right (mapM_some_iff.1 hcs) hps
      rw [h2]
      rcases mem_createSets h3 (mem_fromSets hp) with ⟨_, _, e⟩ | ⟨_, e⟩ | ⟨_, _, e⟩ <;>
        (rw [e]; intro c hc; rw [List.mem_singleton.1 hc]; rfl)
    · intro s hs; cases hs

/-- No comment disappears between two versions. -/
def KeepsComments (old new : Schema) : Prop :=
  ∀ t ∈ new.tables, ∀ o ∈ old.tables, o.name = t.name → (o.description ≠ [] → t.description ≠ []) ∧
    ∀ c ∈ t.columns, ∀ d ∈ o.columns, d.name = c.name → d.description ≠ [] → c.description ≠ []

theorem columnSets_remarks {pf : Str → Option Str} {t : Table} {c o : Column} {uc : Bool} {ps : Sets}
    (h : columnSets pf t c o uc = some ps) (hk : uc = true → o.description ≠ [] → c.description ≠ [])
    {p : Bool × List LqChange} (hp : p ∈ ps) : ∀ x ∈ p.2, emptyRemarks x = false := by
  obtain ⟨d, hd, rfl⟩ := Option.map_eq_some_iff.1 h
  simp only [List.mem_append, attrSets, mem_whenS] at hp
  rcases hp with (⟨_, rfl⟩ | ⟨_, rfl⟩ | ⟨hc, rfl⟩ | ⟨_, rfl⟩ | ⟨_, rfl⟩) | hp
  · intro x hx; rw [List.mem_singleton.1 hx]; rfl
  · intro x hx; rw [List.mem_singleton.1 hx]; rfl
  · intro x hx
    rw [List.mem_singleton.1 hx]
    rw [Bool.and_eq_true, bne_iff_ne] at hc
    have : c.description ≠ [] := by
      by_cases ho : o.description = []
      · rw [← ho]; exact hc.2
      · exact hk hc.1 ho
    show c.description.isEmpty = false
    rw [List.isEmpty_eq_false_iff]; exact this
  · intro x hx; rw [List.mem_singleton.1 hx]; split <;> rfl
  · intro x hx; rw [List.mem_singleton.1 hx]; rfl
  · unfold defaultSets at hd
    split at hd
    · split at hd
      · rw [← Option.some.inj hd, List.mem_singleton] at hp
        rw [hp]; intro x hx; rw [List.mem_singleton.1 hx]; rfl
      · obtain ⟨ch, hch, rfl⟩ := Option.map_eq_some_iff.1 hd
        obtain ⟨dv, hdv, rfl⟩ := Option.map_eq_some_iff.1 hch
        rw [List.mem_singleton] at hp
        rw [hp]; intro x hx; rw [List.mem_singleton.1 hx]; rfl
    · rw [← Option.some.inj hd] at hp; cases hp

theorem tableSets_remarks {pf : Str → Option Str} {sched : List (Column × Column) → List (Column × Column)} {t o : Table}
    {uc : Bool} {suffix : Str} {ps : Sets} (h : tableSets pf sched t o uc suffix = some ps)
    (hk : uc = true → (o.description ≠ [] → t.description ≠ []) ∧
      ∀ c ∈ t.columns, ∀ d ∈ o.columns, d.name = c.name → d.description ≠ [] → c.description ≠ [])
    {p : Bool × List LqChange} (hp : p ∈ ps) : ∀ x ∈ p.2, emptyRemarks x = false := by
  have h0 := h
  unfold tableSets at h
  obtain ⟨cs, hcs, h⟩ := Option.bind_eq_some_iff.1 h
  obtain ⟨add, hadd, rfl⟩ := Option.map_eq_some_iff.1 h
  rcases List.mem_append.1 hp with hp | hp
  · obtain ⟨hc, rfl⟩ := mem_whenS.1 hp
    intro x hx
    rw [List.mem_singleton.1 hx]
    rw [Bool.and_eq_true, bne_iff_ne] at hc
    have : t.description ≠ [] := by
      by_cases ho : o.description = []
      · rw [← ho]; exact hc.2
      · exact (hk hc.1).1 ho
    show t.description.isEmpty = false
    rw [List.isEmpty_eq_false_iff]; exact this
  rcases List.mem_append.1 hp with hp | hp
  · obtain ⟨l, hl, hp⟩ := List.mem_flatten.1 hp
    obtain ⟨q, hq, h3⟩ := forall₂_right (mapM_some_iff.1 hcs) hl
    obtain ⟨h4, h5⟩ := mem_keptColumns.1 hq
    exact columnSets_remarks h3 (fun hu => (hk hu).2 _ h4 _ (lastBy_some h5).1 (lastBy_some h5).2) hp
  · simp only [List.mem_append, midSets, endSets, mem_whenS] at hp
    rcases hp with (⟨_, rfl⟩ | hp | hp) | hp | ⟨_, rfl⟩ | ⟨_, rfl⟩
    · intro x hx; rw [List.mem_singleton.1 hx]; rfl
    · obtain ⟨n, hn, rfl⟩ := List.mem_map.1 hp
      intro x hx; rw [List.mem_singleton.1 hx]; rfl
    · obtain ⟨q, hq, hp⟩ := List.mem_flatMap.1 hp
      rcases mem_renameSets hp with rfl | rfl <;> (intro x hx; rw [List.mem_singleton.1 hx]; rfl)
    · unfold addSets at hadd
      split at hadd
      · obtain ⟨ch, hch, rfl⟩ := Option.map_eq_some_iff.1 hadd
        obtain ⟨lcs, _, rfl⟩ := Option.map_eq_some_iff.1 hch
        rw [List.mem_singleton] at hp
        rw [hp]; intro x hx; rw [List.mem_singleton.1 hx]; rfl
      · rw [← Option.some.inj hadd] at hp; cases hp
    · intro x hx
      rcases List.mem_append.1 hx with hx | hx <;>
        (split at hx
         · rw [List.mem_singleton.1 hx]; rfl
         · cases hx)
    · intro x hx
      unfold uqChanges at hx
      split at hx
      · rw [List.mem_singleton.1 hx]; rfl
      · cases hx

/-- C122 for diffs, restricted: acceptable when there is an author, and comments are not compared or none
disappears.  The rest is `C122_violated_author` and `C122_violated_remarks`. -/
theorem C122_diff_partial (pf : Str → Option Str) (opt : DiffOption) (sched : Sched) (hs : sched.Fair)
    (hauthor : opt.author ≠ [] ∨ opt.diffTo.author ≠ [])
    (hkeep : opt.useComments = true → KeepsComments opt.diffFrom opt.diffTo)
    (sets : List LqChangeSet) (h : generate pf opt sched = some sets) : ChangelogOk (changelogDoc sets) := by
  rw [changelog_ok_iff]
  intro s hm
  refine ⟨?_, ?_⟩
  · obtain ⟨h1, h2⟩ := C123_diff_author pf opt sched sets h s hm
    by_cases ha : opt.author = []
    · rw [h2 ha]; exact hauthor.resolve_left (not_not.2 ha)
    · rw [h1 ha]; exact ha
  · rcases mem_generate hs h hm with ⟨x, he, ps, hps, hp⟩ | ⟨m, _, e⟩ | ⟨p, hp, e | ⟨hu, e⟩ | ⟨_, e⟩⟩ | ⟨t, _, ps, hps, hp⟩
    · obtain ⟨h1, h2, h3⟩ := kept_mem he
      exact tableSets_remarks hps (fun hu => hkeep hu _ h1 _ h2 h3) hp
    · rw [e]; intro c hc; rw [List.mem_singleton.1 hc]; rfl
    · rw [e]; intro c hc; rw [List.mem_singleton.1 hc]; rfl
    · rw [e]; intro c hc; rw [List.mem_singleton.1 hc]; rfl
    · rw [e]; intro c hc; rw [List.mem_singleton.1 hc]; rfl
    · rcases mem_createSets hps hp with ⟨_, _, e⟩ | ⟨_, e⟩ | ⟨_, _, e⟩ <;>
        (change s.changes = _ at e; rw [e]; intro c hc; rw [List.mem_singleton.1 hc]; rfl)

/-- A diff that satisfies the conditions and is not empty. -/
example : ∃ opt : DiffOption, (opt.author ≠ [] ∨ opt.diffTo.author ≠ []) ∧ opt.useComments = true ∧
    KeepsComments opt.diffFrom opt.diffTo ∧ ∃ sets, generate some opt idSched = some sets ∧ sets.length = 1 := by
  refine ⟨{ author := "me"ₛ, useComments := true
            diffFrom := oneTable "t"ₛ [{ name := "a"ₛ, type := "int32"ₛ, description := "old"ₛ }]
            diffTo := oneTable "t"ₛ [{ name := "a"ₛ, type := "int32"ₛ, description := "new"ₛ }] },
          Or.inl (by decide), rfl, ?_, _, rfl, by decide +kernel⟩
  intro t ht o ho _
  rw [List.mem_singleton.1 ht, List.mem_singleton.1 ho]
  refine ⟨fun h => absurd rfl h, ?_⟩
  intro c hc d hd _ _
  rw [List.mem_singleton.1 hc]
  decide

/-- C122 is violated: without an author in the schema, every generated change set lacks its required
attribute `author`. -/
theorem C122_violated_author (pf : Str → Option Str) (opt : GenOption) (schema : Schema) (sets : List LqChangeSet)
    (h : generateAll pf opt schema = some sets) (ha : schema.author = []) (hne : sets ≠ []) :
    ¬ChangelogOk (changelogDoc sets) := by
  rw [C122_generated_partial pf opt schema sets h]
  rintro (h | h)
  · exact h ha
  · exact hne h

example : ∃ sets, generateAll some {} (oneTable "t"ₛ [{ name := "a"ₛ, type := "int32"ₛ }]) = some sets ∧ sets ≠ [] :=
  ⟨_, rfl, fun e => (by cases e)⟩

/-- C122 is violated: removing the comment of a column is written as a `setColumnRemarks` without its
required attribute `remarks`. -/
theorem C122_violated_remarks : ∃ (opt : DiffOption) (sets : List LqChangeSet), opt.author ≠ [] ∧
    generate some opt idSched = some sets ∧ changesIn sets = [.setColumnRemarks "t"ₛ "a"ₛ []] ∧
    ¬ChangelogOk (changelogDoc sets) := by
  have hg : generate some { author := "me"ₛ
                            useComments := true
                            diffFrom := oneTable "t"ₛ [{ name := "a"ₛ, type := "int32"ₛ, description := "old"ₛ }]
                            diffTo := oneTable "t"ₛ [{ name := "a"ₛ, type := "int32"ₛ }] } idSched =
      some [⟨"1-1"ₛ, "me"ₛ, false, [.setColumnRemarks "t"ₛ "a"ₛ []]⟩] := by decide +kernel
  refine ⟨_, _, by decide, hg, rfl, ?_⟩
  rw [changelog_ok_iff]
  intro h
  have := (h _ List.mem_cons_self).2 _ List.mem_cons_self
  cases this

/-! ## C123 -/

theorem size_one_unique {t : Table} : t.uniqueKeyNameSet.size = 1 ↔ OneUnique t := by
  have hm : ∀ m, m ∈ t.uniqueKeyNameSet.slice ↔ uqNames t m := fun m => mem_slice.trans mem_uniqueKeyNameSet
  have hn : t.uniqueKeyNameSet.slice.Nodup := ((slice_perm _).nodup_iff).2 (nodup_uniqueKeyNameSet t)
  have hl : t.uniqueKeyNameSet.slice.length = t.uniqueKeyNameSet.size := (slice_perm _).length_eq
  rw [← hl]
  constructor
  · intro h
    obtain ⟨n, e⟩ := List.length_eq_one_iff.1 h
    refine ⟨n, fun m => ?_⟩
    rw [← hm, e, List.mem_singleton]
  · rintro ⟨n, h⟩
    have h2 : t.uniqueKeyNameSet.slice.Perm [n] := (List.perm_ext_iff_of_nodup hn (by simp)).2 fun m => by
      rw [hm, h, List.mem_singleton]
    rw [h2.length_eq]; rfl

/-- Which change sets of a created table have preconditions. -/
def GuardedTable (t : Table) (sets : List LqChangeSet) : Prop :=
  ∀ s ∈ sets, s.preConditions = true ↔ OneUnique t ∧ ∃ names k, s.changes = [.addUniqueConstraint t.name names k]

/-- C123: the change sets come in one group per selected table; in it exactly the change set that adds the
unique constraint of a single column has preconditions (that column is declared unique by
`createTable` as well). -/
theorem C123_guarded (pf : Str → Option Str) (opt : GenOption) (schema : Schema) (sets : List LqChangeSet)
    (h : generateAll pf opt schema = some sets) :
    ∃ groups, sets = groups.flatten ∧
      List.Forall₂ GuardedTable (schema.tables.filter (passes opt.tableFilter)) groups := by
  rw [generateAll_eq] at h
  obtain ⟨pss, hp, rfl⟩ := Option.map_eq_some_iff.1 h
  have key : ∀ (ts : List Table) (pss : List Sets) (m : Nat),
      List.Forall₂ (fun t ps => createSets pf opt.uniqueNameSuffix opt.useComments t = some ps) ts pss →
      ∃ groups, Lq.number schema.author m (pss.map (fromSets 0)) = groups.flatten ∧ List.Forall₂ GuardedTable ts groups := by
    intro ts pss m hf
    induction hf generalizing m with
    | nil => exact ⟨[], rfl, .nil⟩
    | @cons t ps ts pss h1 _ ih =>
      obtain ⟨gs, hg, hf⟩ := ih (m + 1)
      refine ⟨Lq.stamp schema.author m (fromSets 0 ps) :: gs, ?_, .cons ?_ hf⟩
      · rw [List.map_cons, Lq.number, hg, List.flatten_cons]
      · intro s hs
        obtain ⟨p, hp, rfl⟩ := List.mem_map.1 hs
        have hp := mem_fromSets hp
        show p.2.1 = true ↔ OneUnique t ∧ ∃ names k, p.2.2 = _
        generalize p.2 = q at hp
        rw [← size_one_unique]
        obtain ⟨lcs, hl, rfl⟩ := Option.map_eq_some_iff.1 h1
        simp only [List.mem_cons, List.mem_append, mem_whenS] at hp
        rcases hp with rfl | ⟨_, rfl⟩ | hp
        · simp
        · simp
        · split at hp
          · rw [List.mem_singleton] at hp
            subst hp
            simp
          · cases hp
  exact key _ _ 1 (mapM_some_iff.1 hp)

theorem notRenamed_added {opt : DiffOption} {t : Table} (ht : t ∈ notRenamed (tableRenames opt).1) :
    t ∈ addedTables opt := by
  have hsplit := findRenames_split opt.diffFrom.tablesByName (fun a b => a.columns == b.columns) (addedTables opt)
    (removedTableNames opt)
  exact hsplit.mem_iff.1 (List.mem_append_right _ ht)

/-- C123 for diffs: only newly created tables with a single unique column have a change set with
preconditions, and it adds that constraint. -/
theorem C123_diff_guarded (pf : Str → Option Str) (opt : DiffOption) (sched : Sched) (sets : List LqChangeSet) (h : generate pf opt sched = some sets) :
    ∀ s ∈ sets, s.preConditions = true → ∃ t ∈ opt.diffTo.tables, (∀ o ∈ opt.diffFrom.tables, o.name ≠ t.name) ∧
      OneUnique t ∧ ∃ names, s.changes = [.addUniqueConstraint t.name names (t.name ++ opt.uniqueNameSuffix)] := by
  rw [generate_eq] at h
  obtain ⟨ks, hks, h⟩ := Option.bind_eq_some_iff.1 h
  obtain ⟨cs, hcs, rfl⟩ := Option.map_eq_some_iff.1 h
  intro s hm hpre
  obtain ⟨b, hb, p, hp, h1, h2⟩ := mem_number hm
  rw [h1] at hpre
  rw [h2]
  simp only [Lq.diffBlocks, List.mem_append] at hb
  rcases hb with hb | hb | hb | hb
  · obtain ⟨ps, hps, rfl⟩ := List.mem_map.1 (List.mem_filter.1 hb).1
    obtain ⟨e, he, h3⟩ := forall₂_right (mapM_some_iff.1 hks) hps
    have h4 : p.2.1 = false := by
      rcases mem_tableSets h3 (mem_fromSets hp) with ⟨r, e⟩ | ⟨q, _, cs, hcs, hq⟩ | ⟨hu, e⟩ | ⟨m, _, e⟩ | ⟨q, _, hq⟩ | ⟨ch, hch, e⟩ | ⟨_, e⟩ | ⟨_, e⟩
      · rw [e]
      · obtain ⟨ch, e, _⟩ := mem_columnSets hcs hq; rw [e]
      · rw [e]
      · rw [e]
      · rcases mem_renameSets hq with e | e <;> rw [e]
      · rw [e]
      · rw [e]
      · rw [e]
    rw [h4] at hpre; cases hpre
  · obtain ⟨n, hn, rfl⟩ := List.mem_map.1 hb
    rw [dropBlock, List.mem_singleton] at hp
    subst hp; cases hpre
  · obtain ⟨q, hq, rfl⟩ := List.mem_map.1 hb
    simp only [Lq.renameBlock, List.mem_append, List.mem_singleton] at hp
    rcases hp with hp | hp | hp
    · split at hp
      · rw [List.mem_singleton] at hp; subst hp; cases hpre
      · cases hp
    · subst hp; cases hpre
    · split at hp
      · rw [List.mem_singleton] at hp; subst hp; cases hpre
      · cases hp
  · obtain ⟨ps, hps, rfl⟩ := List.mem_map.1 hb
    obtain ⟨t, ht, h3⟩ := forall₂_right (mapM_some_iff.1 hcs) hps
    have hadd := mem_addedTables.1 (notRenamed_added ht)
    refine ⟨t, hadd.1, fun o ho e => hadd.2.2 (e ▸ List.mem_map_of_mem ho), ?_⟩
    have hp := mem_fromSets hp
    generalize p.2 = q at hp hpre
    rw [← size_one_unique]
    obtain ⟨lcs, hl, rfl⟩ := Option.map_eq_some_iff.1 h3
    simp only [List.mem_cons, List.mem_append, mem_whenS] at hp
    rcases hp with rfl | ⟨_, rfl⟩ | hp
    · cases hpre
    · cases hpre
    · split at hp
      · rw [List.mem_singleton] at hp
        subst hp
        exact ⟨of_decide_eq_true hpre, _, rfl⟩
      · cases hp

/-! ## C37 -/

theorem newConstraints_minimal (c : Column) (a b : Bool) (k : Constraints) (h : newConstraints c a b = some k) :
    k ≠ {} ∧ k.primaryKey ≠ some false ∧ k.unique ≠ some false ∧
    k.nullable ≠ some true ∧ ¬(k.primaryKey = some true ∧ k.nullable = some false) := by
  unfold newConstraints at h
  generalize c.primaryKey = p, c.notNull = n, c.uniqueKey = u at h
  revert h
  cases p <;> cases n <;> cases u <;> cases a <;> cases b <;>
    (intro h; first | (cases h; done) | (cases h; decide))

theorem newLqColumn_minimal {pf : Str → Option Str} {c : Column} {a b uc : Bool} {lc : LqColumn}
    (h : newLqColumn pf c a b = some lc) : NoRedundancy (stripRemarks uc lc) := by
  have e : (stripRemarks uc lc).constraints = newConstraints c a b := by
    have : (stripRemarks uc lc).constraints = lc.constraints := by cases uc <;> rfl
    rw [this]
    unfold newLqColumn at h
    dsimp only at h
    split at h
    · obtain ⟨dv, _, rfl⟩ := Option.map_eq_some_iff.1 h; rfl
    · rw [← Option.some.inj h]
  intro k hk
  rw [e] at hk
  exact newConstraints_minimal c a b k hk

/-- C37: the constraints of the columns of a generated changelog say nothing twice. -/
theorem C37_minimal (pf : Str → Option Str) (opt : GenOption) (schema : Schema) (sets : List LqChangeSet)
    (h : generateAll pf opt schema = some sets) (n r : Str) (lcs : List LqColumn)
    (hm : .createTable n r lcs ∈ changesIn sets) : ∀ lc ∈ lcs, NoRedundancy lc := by
  obtain ⟨s, hs, hc⟩ := List.mem_flatMap.1 hm
  rw [generateAll_eq] at h
  obtain ⟨cs, hcs, rfl⟩ := Option.map_eq_some_iff.1 h
  obtain ⟨b, hb, p, hp, _, h2⟩ := mem_number hs
  obtain ⟨ps, hps, rfl⟩ := List.mem_map.1 hb
  obtain ⟨t, ht, h3⟩ := forall₂_right (mapM_some_iff.1 hcs) hps
  rw [h2] at hc
  rcases mem_createSets h3 (mem_fromSets hp) with ⟨lcs', hl, e⟩ | ⟨_, e⟩ | ⟨_, _, e⟩
  · rw [e, List.mem_singleton] at hc
    injection hc with _ _ hc
    subst hc
    intro lc hlc
    obtain ⟨c, _, h4⟩ := forall₂_right (mapM_some_iff.1 hl) hlc
    obtain ⟨lc', h5, rfl⟩ := Option.map_eq_some_iff.1 h4
    exact newLqColumn_minimal h5
  · rw [e, List.mem_singleton] at hc; cases hc
  · rw [e, List.mem_singleton] at hc; cases hc

/-- C123, C37: a table with a single unique key column that is not null; the second of its change sets has preconditions. -/
example : ∃ sets, generateAll some {} (oneTable "t"ₛ
      [{ name := "a"ₛ, type := "int32"ₛ, primaryKey := true, notNull := true, uniqueKey := true }]) = some sets ∧
    sets.map (·.preConditions) = [false, true] ∧
    ∃ lc, .createTable "t"ₛ [] [lc] ∈ changesIn sets ∧ lc.constraints = some { primaryKey := some true, unique := some true } :=
  ⟨_, rfl, by decide +kernel, _, List.mem_cons_self, rfl⟩

end Octo
