import Verif.Lemmas.LiquibaseDiff
import Verif.Props.Diff

/-! Property theorems C37, C38, C41-C44 and C73: the shape of Liquibase changelogs. -/

namespace Octo
open Lq Spec

/-! ### C37 -/

theorem newLqColumn_declares {pf : Str → Option Str} {c : Column} {sepPk sepUq uc : Bool} {lc : LqColumn}
    (h : newLqColumn pf c sepPk sepUq = some lc) :
    DeclaresColumn uc c (stripRemarks uc lc) ∧ inlinePk (stripRemarks uc lc) = (c.primaryKey && !sepPk) ∧
      inlineUnique (stripRemarks uc lc) = (c.uniqueKey && !sepUq) := by
  have key : ∀ dv : DefaultValue, ∀ lc : LqColumn, lc = stripRemarks uc
        { name := c.name, type := getLiquibaseType c, remarks := c.description
          autoIncrement := if c.autoIncremental then some true else none
          constraints := newConstraints c sepPk sepUq, default := dv } →
      DeclaresColumn uc c lc ∧ inlinePk lc = (c.primaryKey && !sepPk) ∧
      inlineUnique lc = (c.uniqueKey && !sepUq) := by
    rintro dv _ rfl
    refine ⟨⟨?_, ?_, ?_, ?_, ?_⟩, ?_, ?_⟩
    · cases uc <;> rfl
    · cases uc <;> exact getLiquibaseType_eq c
    · cases uc <;> simp only [stripRemarks, if_true, Bool.false_eq_true, if_false] <;> cases c.autoIncremental <;> simp
    · cases uc <;> simp only [stripRemarks, if_true, Bool.false_eq_true, if_false, inlineNotNull, inlinePk, newConstraints]
      all_goals (cases c.notNull <;> cases c.primaryKey <;> cases sepPk <;> cases c.uniqueKey <;> cases sepUq <;> decide)
    · cases uc <;> rfl
    · cases uc <;> simp only [stripRemarks, if_true, Bool.false_eq_true, if_false, inlinePk, newConstraints]
      all_goals (cases c.notNull <;> cases c.primaryKey <;> cases sepPk <;> cases c.uniqueKey <;> cases sepUq <;> decide)
    · cases uc <;> simp only [stripRemarks, if_true, Bool.false_eq_true, if_false, inlineUnique, newConstraints]
      all_goals (cases c.notNull <;> cases c.primaryKey <;> cases sepPk <;> cases c.uniqueKey <;> cases sepUq <;> decide)
  unfold newLqColumn at h
  dsimp only at h
  split at h
  · obtain ⟨dv, _, rfl⟩ := Option.map_eq_some_iff.1 h
    exact key dv _ rfl
  · cases h
    exact key {} _ rfl

theorem lists_primary (t : Table) : Lists (pkNames t) (t.primaryKeyNameSet.joinKeys ", "ₛ) :=
  ⟨t.primaryKeyNameSet.slice, ((slice_perm _).nodup_iff).2 (nodup_primaryKeyNameSet t),
    fun _ => mem_slice.trans mem_primaryKeyNameSet, rfl⟩

theorem lists_unique (t : Table) : Lists (uqNames t) (t.uniqueKeyNameSet.joinKeys ", "ₛ) :=
  ⟨t.uniqueKeyNameSet.slice, ((slice_perm _).nodup_iff).2 (nodup_uniqueKeyNameSet t),
    fun _ => mem_slice.trans mem_uniqueKeyNameSet, rfl⟩

theorem createSets_declares {pf : Str → Option Str} {suffix : Str} {uc : Bool} {t : Table} {ps : Sets}
    (h : createSets pf suffix uc t = some ps) : DeclaresTable uc suffix t (ps.flatMap (·.2)) := by
  obtain ⟨lcs, hl, rfl⟩ := Option.map_eq_some_iff.1 h
  have hf : List.Forall₂ (fun c lc => DeclaresColumn uc c lc ∧
      inlinePk lc = (c.primaryKey && !decide (t.primaryKeyNameSet.size > 1)) ∧
      inlineUnique lc = (c.uniqueKey && !decide (t.uniqueKeyNameSet.size > 1))) t.columns lcs := by
    have := mapM_some_iff.1 hl
    refine List.Forall₂.imp ?_ this
    intro c lc hc
    obtain ⟨lc', h1, rfl⟩ := Option.map_eq_some_iff.1 hc
    exact newLqColumn_declares h1
  refine ⟨lcs, if t.primaryKeyNameSet.size ≥ 2 then [.addPrimaryKey t.name (t.primaryKeyNameSet.joinKeys ", "ₛ)] else [],
    if t.uniqueKeyNameSet.size ≥ 1 then
      [.addUniqueConstraint t.name (t.uniqueKeyNameSet.joinKeys ", "ₛ) (t.name ++ suffix)] else [],
    ?_, hf.imp fun _ _ h => h.1, ?_, ?_⟩
  · have e : ∀ (b : Prop) [Decidable b] (cs : List LqChange), (whenS (decide b) cs).flatMap (·.2) = if b then cs else [] := by
      intro b _ cs
      by_cases h : b <;> simp [whenS, h]
    rw [List.flatMap_cons, List.flatMap_append, e]
    by_cases h2 : t.uniqueKeyNameSet.size ≥ 1
    · simp only [if_pos h2]; rfl
    · simp only [if_neg h2]; rfl
  · by_cases h1 : t.primaryKeyNameSet.size ≥ 2
    · right
      rw [if_pos h1]
      refine ⟨?_, _, rfl, lists_primary t⟩
      intro lc hlc
      obtain ⟨c, _, hc⟩ := forall₂_right hf hlc
      rw [hc.2.1, decide_eq_true (by omega)]; simp
    · left
      rw [if_neg h1]
      refine ⟨rfl, hf.imp fun c lc h => ?_⟩
      rw [h.2.1, decide_eq_false (by omega)]; simp
  · by_cases hu : HasUnique t
    · right
      have hsz := size_pos_unique.2 hu
      rw [if_pos (show t.uniqueKeyNameSet.size ≥ 1 from hsz)]
      refine ⟨hu, ⟨_, rfl, lists_unique t⟩, ?_⟩
      intro lc hlc hin n
      obtain ⟨c, hc, hd, _, h3⟩ := forall₂_right hf hlc
      rw [h3, Bool.and_eq_true, Bool.not_eq_true', decide_eq_false_iff_not] at hin
      have hmem : uqNames t lc.name := ⟨c, hc, hin.1, hd.name.symm⟩
      constructor
      · intro hn; exact size_le_one hin.2 (mem_uniqueKeyNameSet.2 hn) (mem_uniqueKeyNameSet.2 hmem)
      · rintro rfl; exact hmem
    · left
      rw [if_neg (fun h : t.uniqueKeyNameSet.size ≥ 1 => hu (size_pos_unique.1 h))]
      refine ⟨hu, rfl, ?_⟩
      intro lc hlc
      obtain ⟨c, hc, _, _, h3⟩ := forall₂_right hf hlc
      rw [h3]
      cases hq : c.uniqueKey
      · rfl
      · exact absurd ⟨c, hc, hq⟩ hu

theorem changesIn_number (author : Str) (m : Nat) (bs : List LqBlock) :
    changesIn (Lq.number author m bs) = bs.flatMap fun b => b.flatMap fun p => p.2.2 := by
  induction bs generalizing m with
  | nil => rfl
  | cons b bs ih =>
    have : changesIn (Lq.number author m (b :: bs)) = changesIn (Lq.stamp author m b) ++
        changesIn (Lq.number author (m + 1) bs) := by simp [Lq.number, changesIn]
    rw [this, ih, List.flatMap_cons]
    congr 1
    simp [changesIn, Lq.stamp, List.flatMap_map]

theorem fromSets_changes (k : Nat) (ps : Sets) : (fromSets k ps).flatMap (fun p => p.2.2) = ps.flatMap (·.2) := by
  induction ps generalizing k with
  | nil => rfl
  | cons p ps ih => simp [fromSets, ih]

/-- C37: a generated changelog consists of one group of changes per selected table, in the order of the
tables; the group declares the table: its columns in order with name, type, auto-increment and
nullability, the primary key either inline or by one `addPrimaryKey` listing the key columns, and
one unique constraint over the unique columns when there are any. -/
theorem C37_complete (pf : Str → Option Str) (opt : GenOption) (schema : Schema) (sets : List LqChangeSet)
    (h : generateAll pf opt schema = some sets) :
    ∃ groups, changesIn sets = groups.flatten ∧
      List.Forall₂ (DeclaresTable opt.useComments opt.uniqueNameSuffix)
        (schema.tables.filter (passes opt.tableFilter)) groups := by
  rw [generateAll_eq] at h
  obtain ⟨pss, hp, rfl⟩ := Option.map_eq_some_iff.1 h
  refine ⟨pss.map fun ps => ps.flatMap (·.2), ?_, ?_⟩
  · rw [changesIn_number, List.flatMap_map, List.flatMap_def]
    congr 1
    apply List.map_congr_left
    intro ps _
    exact fromSets_changes 0 ps
  · have := mapM_some_iff.1 hp
    rw [List.forall₂_map_right_iff]
    exact this.imp fun _ _ h => createSets_declares h

/-- C37: a text that lists names without commas and without surrounding blanks is read back as those
names. -/
theorem C37_listed (p : Str → Prop) (names : Str) (h : Lists p names) (hp : ∃ n, p n) (hc : ∀ n, p n → CleanName n) :
    ∀ n, n ∈ listed names ↔ p n := by
  obtain ⟨ns, _, h2, rfl⟩ := h
  have : ns ≠ [] := by
    rintro rfl
    obtain ⟨n, hn⟩ := hp
    exact List.not_mem_nil ((h2 n).2 hn)
  rw [listed_join this (fun n hn => hc n ((h2 n).1 hn))]
  exact h2

/-- C37: generation fails only because of the default value of a column of a numeric type. -/
theorem C37_succeeds (pf : Str → Option Str) (opt : GenOption) (schema : Schema)
    (h : ∀ t ∈ schema.tables, ∀ c ∈ t.columns, c.defaultValue ≠ [] → lower c.type ∉
      ["decimal"ₛ, "float"ₛ, "double"ₛ, "number"ₛ, "long"ₛ, "bigint"ₛ, "int"ₛ, "smallint"ₛ]) :
    (generateAll pf opt schema).isSome := by
  have hcol : ∀ t ∈ schema.tables, ∀ c ∈ t.columns, ∀ a b, (newLqColumn pf c a b).isSome := by
    intro t ht c hc a b
    unfold newLqColumn
    dsimp only
    split
    · rename_i hv
      rw [Option.isSome_map]
      have : isNumericType c.type = false := by
        cases hn : isNumericType c.type
        · rfl
        · refine absurd ?_ (h t ht c hc hv)
          rw [show ["decimal"ₛ, "float"ₛ, "double"ₛ, "number"ₛ, "long"ₛ, "bigint"ₛ, "int"ₛ, "smallint"ₛ] =
            ["decimal"ₛ, "float"ₛ, "double"ₛ, "number"ₛ] ++ ["long"ₛ, "bigint"ₛ, "int"ₛ, "smallint"ₛ] from rfl,
            List.mem_append]
          exact (isNumericType_iff _).1 hn
      unfold newLqDefaultValue
      simp only [this, Bool.false_eq_true, if_false]
      split
      · rfl
      · split
        · rfl
        · split <;> rfl
    · rfl
  have hm : ∀ {α β : Type} (f : α → Option β) (l : List α), (∀ a ∈ l, (f a).isSome) → (l.mapM f).isSome := by
    intro α β f l hl
    induction l with
    | nil => rfl
    | cons a l ih =>
      obtain ⟨b, hb⟩ := Option.isSome_iff_exists.1 (hl a (by simp))
      obtain ⟨bs, hbs⟩ := Option.isSome_iff_exists.1 (ih fun a ha => hl a (by simp [ha]))
      rw [List.mapM_cons, hb, hbs]; rfl
  rw [generateAll_eq, Option.isSome_map]
  apply hm
  intro t ht
  rw [createSets, Option.isSome_map]
  apply hm
  intro c hc
  rw [Option.isSome_map]
  exact hcol t (List.mem_filter.1 ht).1 c hc _ _

/-! ### C38 -/

/-- C38: the change sets of a generated changelog have different ids. -/
theorem C38_generated (pf : Str → Option Str) (opt : GenOption) (schema : Schema) (sets : List LqChangeSet)
    (h : generateAll pf opt schema = some sets) : (sets.map (·.id)).Nodup := by
  rw [generateAll_eq] at h
  obtain ⟨pss, _, rfl⟩ := Option.map_eq_some_iff.1 h
  refine (Lq.number_ids _ _ _ ?_).1
  intro b hb
  obtain ⟨ps, _, rfl⟩ := List.mem_map.1 hb
  exact (fromSets_minors _ _).2

/-- C38: the change sets of a diff changelog have different ids, for every iteration order of maps. -/
theorem C38_diff (pf : Str → Option Str) (opt : DiffOption) (sched : Sched) (sets : List LqChangeSet)
    (h : generate pf opt sched = some sets) : (sets.map (·.id)).Nodup := by
  rw [generate_eq] at h
  obtain ⟨ks, _, h⟩ := Option.bind_eq_some_iff.1 h
  obtain ⟨cs, _, rfl⟩ := Option.map_eq_some_iff.1 h
  exact (Lq.number_ids _ _ _ (Lq.diffBlocks_nodup _ _ _ _)).1

/-! ### The changes of a diff -/

theorem mem_fromSets {k : Nat} {ps : Sets} {p : Nat × Bool × List LqChange} (h : p ∈ fromSets k ps) : p.2 ∈ ps := by
  induction ps generalizing k with
  | nil => cases h
  | cons q ps ih =>
    rcases List.mem_cons.1 h with rfl | h
    · exact List.mem_cons_self
    · exact List.mem_cons_of_mem _ (ih h)

theorem mem_number {author : Str} {m : Nat} {bs : List LqBlock} {s : LqChangeSet}
    (h : s ∈ Lq.number author m bs) : ∃ b ∈ bs, ∃ p ∈ b, s.preConditions = p.2.1 ∧ s.changes = p.2.2 := by
  induction bs generalizing m with
  | nil => cases h
  | cons b bs ih =>
    rcases List.mem_append.1 (by simpa [Lq.number] using h) with h | h
    · obtain ⟨p, hp, rfl⟩ := List.mem_map.1 h
      exact ⟨b, by simp, p, hp, rfl, rfl⟩
    · obtain ⟨b', hb, h'⟩ := ih h
      exact ⟨b', by simp [hb], h'⟩

/-- Where the change sets of a diff come from. -/
theorem mem_generate {pf : Str → Option Str} {opt : DiffOption} {sched : Sched} (hs : sched.Fair)
    {sets : List LqChangeSet} (h : generate pf opt sched = some sets) {s : LqChangeSet} (hm : s ∈ sets) :
    (∃ e ∈ keptTables opt, ∃ ps, tableSets pf (sched.columns e.1) e.2.1 e.2.2 opt.useComments opt.uniqueNameSuffix = some ps ∧
      (s.preConditions, s.changes) ∈ ps) ∨
    (∃ n ∈ (tableRenames opt).2.keys, s.changes = [.dropTable n]) ∨
    (∃ p ∈ renamedPairs (tableRenames opt).1, (s.changes = [.renameTable p.1.name p.2.name]) ∨
      (HasUnique p.2 ∧ s.changes = [.dropUniqueConstraint p.2.name (p.2.name ++ opt.uniqueNameSuffix)]) ∨
      (HasUnique p.1 ∧ s.changes = [.addUniqueConstraint p.1.name (p.1.uniqueKeyNameSet.joinKeys ", "ₛ)
        (p.1.name ++ opt.uniqueNameSuffix)])) ∨
    (∃ t ∈ notRenamed (tableRenames opt).1, ∃ ps, createSets pf opt.uniqueNameSuffix opt.useComments t = some ps ∧
      (s.preConditions, s.changes) ∈ ps) := by
  rw [generate_eq] at h
  obtain ⟨ks, hks, h⟩ := Option.bind_eq_some_iff.1 h
  obtain ⟨cs, hcs, rfl⟩ := Option.map_eq_some_iff.1 h
  obtain ⟨b, hb, p, hp, h1, h2⟩ := mem_number hm
  rw [h1, h2]
  simp only [Lq.diffBlocks, List.mem_append] at hb
  rcases hb with hb | hb | hb | hb
  · left
    obtain ⟨ps, hps, rfl⟩ := List.mem_map.1 (List.mem_filter.1 hb).1
    obtain ⟨e, he, h3⟩ := forall₂_right (mapM_some_iff.1 hks) hps
    exact ⟨e, he, ps, h3, mem_fromSets hp⟩
  · right; left
    obtain ⟨n, hn, rfl⟩ := List.mem_map.1 hb
    rw [dropBlock, List.mem_singleton] at hp
    subst hp
    exact ⟨n, mem_slice.1 hn, rfl⟩
  · right; right; left
    obtain ⟨q, hq, rfl⟩ := List.mem_map.1 hb
    refine ⟨q, (hs.1 _).mem_iff.1 hq, ?_⟩
    simp only [Lq.renameBlock, List.mem_append, List.mem_singleton] at hp
    rcases hp with hp | hp | hp
    · split at hp
      · rename_i hu
        rw [List.mem_singleton] at hp; subst hp
        exact Or.inr (Or.inl ⟨size_pos_unique.1 hu, rfl⟩)
      · cases hp
    · subst hp; exact Or.inl rfl
    · split at hp
      · rename_i hu
        rw [List.mem_singleton] at hp; subst hp
        exact Or.inr (Or.inr ⟨size_pos_unique.1 hu, rfl⟩)
      · cases hp
  · right; right; right
    obtain ⟨ps, hps, rfl⟩ := List.mem_map.1 hb
    obtain ⟨t, ht, h3⟩ := forall₂_right (mapM_some_iff.1 hcs) hps
    exact ⟨t, ht, ps, h3, mem_fromSets hp⟩

theorem mem_whenS {b : Bool} {cs : List LqChange} {p : Bool × List LqChange} :
    p ∈ whenS b cs ↔ b = true ∧ p = (false, cs) := by
  cases b <;> simp [whenS]

/-- The change sets of one column. -/
theorem mem_columnSets {pf : Str → Option Str} {t : Table} {c o : Column} {uc : Bool} {ps : Sets}
    (h : columnSets pf t c o uc = some ps) {p : Bool × List LqChange} (hp : p ∈ ps) :
    ∃ ch, p = (false, [ch]) ∧
      ((∃ r, ch = .renameColumn t.name c.name o.name r) ∨ (∃ r, ch = .modifyDataType t.name c.name r) ∨
       (∃ r, ch = .setColumnRemarks t.name c.name r) ∨ (∃ r d, ch = .addNotNullConstraint t.name c.name r d) ∨
       (∃ r, ch = .dropNotNullConstraint t.name c.name r) ∨ (∃ r, ch = .addAutoIncrement t.name c.name r) ∨
       (∃ r, ch = .dropDefaultValue t.name c.name r) ∨
       (c.defaultValue ≠ [] ∧ ∃ r v, newLqDefaultValue pf c = some v ∧ ch = .addDefaultValue t.name c.name r v)) := by
  obtain ⟨d, hd, rfl⟩ := Option.map_eq_some_iff.1 h
  simp only [List.mem_append, attrSets, mem_whenS] at hp
  rcases hp with (⟨_, rfl⟩ | ⟨_, rfl⟩ | ⟨_, rfl⟩ | ⟨_, rfl⟩ | ⟨_, rfl⟩) | hp
  · exact ⟨_, rfl, Or.inl ⟨_, rfl⟩⟩
  · exact ⟨_, rfl, Or.inr (Or.inl ⟨_, rfl⟩)⟩
  · exact ⟨_, rfl, Or.inr (Or.inr (Or.inl ⟨_, rfl⟩))⟩
  · refine ⟨_, rfl, ?_⟩
    split
    · exact Or.inr (Or.inr (Or.inr (Or.inl ⟨_, _, rfl⟩)))
    · exact Or.inr (Or.inr (Or.inr (Or.inr (Or.inl ⟨_, rfl⟩))))
  · exact ⟨_, rfl, Or.inr (Or.inr (Or.inr (Or.inr (Or.inr (Or.inl ⟨_, rfl⟩)))))⟩
  · unfold defaultSets at hd
    split at hd
    · split at hd
      · rw [← Option.some.inj hd, List.mem_singleton] at hp
        exact ⟨_, hp, Or.inr (Or.inr (Or.inr (Or.inr (Or.inr (Or.inr (Or.inl ⟨_, rfl⟩))))))⟩
      · rename_i hne
        obtain ⟨ch, hch, rfl⟩ := Option.map_eq_some_iff.1 hd
        obtain ⟨dv, hdv, rfl⟩ := Option.map_eq_some_iff.1 hch
        rw [List.mem_singleton] at hp
        exact ⟨_, hp, Or.inr (Or.inr (Or.inr (Or.inr (Or.inr (Or.inr (Or.inr ⟨hne, _, _, hdv, rfl⟩))))))⟩
    · rw [← Option.some.inj hd] at hp; cases hp

/-- The change sets of one table. -/
theorem mem_tableSets {pf : Str → Option Str} {sched : List (Column × Column) → List (Column × Column)} {t o : Table}
    {uc : Bool} {suffix : Str} {ps : Sets} (h : tableSets pf sched t o uc suffix = some ps) {p : Bool × List LqChange}
    (hp : p ∈ ps) :
    (∃ r, p = (false, [.setTableRemarks t.name r])) ∨
    (∃ q ∈ keptColumns t o, ∃ cs, columnSets pf t q.1 q.2 uc = some cs ∧ p ∈ cs) ∨
    (uniqueChanged t o = true ∧ p = (false, [.dropUniqueConstraint t.name (t.name ++ suffix)])) ∨
    (∃ n ∈ (columnRenames t o uc).2.keys, p = (false, [.dropColumn t.name n])) ∨
    (∃ q ∈ sched (renamedPairs (columnRenames t o uc).1), p ∈ renameSets t q) ∨
    (∃ ch, newAddColumn pf t (notRenamed (columnRenames t o uc).1) uc = some ch ∧ p = (false, [ch])) ∨
    (t.primaryKeyNameSet.equals o.primaryKeyNameSet = false ∧ p = (false, pkChanges t o)) ∨
    (uniqueChanged t o = true ∧ p = (false, uqChanges t suffix)) := by
  unfold tableSets at h
  obtain ⟨cs, hcs, h⟩ := Option.bind_eq_some_iff.1 h
  obtain ⟨add, hadd, rfl⟩ := Option.map_eq_some_iff.1 h
  simp only [List.mem_append, midSets, endSets, mem_whenS] at hp
  rcases hp with ⟨_, rfl⟩ | hp | (⟨hu, rfl⟩ | hp | hp) | hp | ⟨he, rfl⟩ | ⟨hu, rfl⟩
  · exact Or.inl ⟨_, rfl⟩
  · obtain ⟨l, hl, hp⟩ := List.mem_flatten.1 hp
    obtain ⟨q, hq, h3⟩ := forall₂_right (mapM_some_iff.1 hcs) hl
    exact Or.inr (Or.inl ⟨q, hq, l, h3, hp⟩)
  · exact Or.inr (Or.inr (Or.inl ⟨hu, rfl⟩))
  · obtain ⟨n, hn, rfl⟩ := List.mem_map.1 hp
    exact Or.inr (Or.inr (Or.inr (Or.inl ⟨n, mem_slice.1 hn, rfl⟩)))
  · obtain ⟨q, hq, hp⟩ := List.mem_flatMap.1 hp
    exact Or.inr (Or.inr (Or.inr (Or.inr (Or.inl ⟨q, hq, hp⟩))))
  · unfold addSets at hadd
    split at hadd
    · obtain ⟨ch, hch, rfl⟩ := Option.map_eq_some_iff.1 hadd
      rw [List.mem_singleton] at hp
      exact Or.inr (Or.inr (Or.inr (Or.inr (Or.inr (Or.inl ⟨ch, hch, hp⟩)))))
    · rw [← Option.some.inj hadd] at hp; cases hp
  · exact Or.inr (Or.inr (Or.inr (Or.inr (Or.inr (Or.inr (Or.inl ⟨by simpa using he, rfl⟩))))))
  · exact Or.inr (Or.inr (Or.inr (Or.inr (Or.inr (Or.inr (Or.inr ⟨hu, rfl⟩))))))

theorem mem_renameSets {t : Table} {q : Column × Column} {p : Bool × List LqChange} (h : p ∈ renameSets t q) :
    p = (false, [.renameColumn t.name q.1.name q.2.name (getLiquibaseType q.1)]) ∨
    p = (false, [.addNotNullConstraint t.name q.1.name (getLiquibaseType q.1) q.1.defaultValue]) := by
  rcases List.mem_cons.1 h with h | h
  · exact Or.inl h
  · exact Or.inr (mem_whenS.1 h).2

theorem mem_createSets {pf : Str → Option Str} {suffix : Str} {uc : Bool} {t : Table} {ps : Sets}
    (h : createSets pf suffix uc t = some ps) {p : Bool × List LqChange} (hp : p ∈ ps) :
    (∃ lcs, createColumns pf t uc = some lcs ∧ p.2 = [.createTable t.name t.description lcs]) ∨
    (∃ n, p.2 = [.addPrimaryKey t.name n]) ∨ (∃ n k, p.2 = [.addUniqueConstraint t.name n k]) := by
  obtain ⟨lcs, hl, rfl⟩ := Option.map_eq_some_iff.1 h
  simp only [List.mem_cons, List.mem_append, mem_whenS] at hp
  rcases hp with rfl | ⟨_, rfl⟩ | hp
  · exact Or.inl ⟨lcs, hl, rfl⟩
  · exact Or.inr (Or.inl ⟨_, rfl⟩)
  · split at hp
    · rw [List.mem_singleton] at hp; subst hp; exact Or.inr (Or.inr ⟨_, _, rfl⟩)
    · cases hp

/-! ### C41 -/

theorem kept_mem {opt : DiffOption} {e : Nat × Table × Table} (he : e ∈ keptTables opt) :
    e.2.1 ∈ opt.diffTo.tables ∧ e.2.2 ∈ opt.diffFrom.tables ∧ e.2.2.name = e.2.1.name := by
  obtain ⟨i, t, o⟩ := e
  obtain ⟨h1, _, h3⟩ := mem_keptTables.1 he
  exact ⟨List.mem_of_getElem? h1, (lastBy_some h3).1, (lastBy_some h3).2⟩

/-- C41, restricted: a `dropUniqueConstraint` is emitted only for a table of the old schema that had the
constraint, or for a table that had no unique column and gets one.  The second case is
`C41_violated`. -/
theorem C41_drop_unique_partial (pf : Str → Option Str) (opt : DiffOption) (sched : Sched) (hs : sched.Fair)
    (sets : List LqChangeSet) (h : generate pf opt sched = some sets) (n k : Str)
    (hm : .dropUniqueConstraint n k ∈ changesIn sets) :
    ∃ o ∈ opt.diffFrom.tables, o.name = n ∧ k = n ++ opt.uniqueNameSuffix ∧
      (HasUnique o ∨ ∃ t ∈ opt.diffTo.tables, t.name = n ∧ HasUnique t) := by
  obtain ⟨s, hsm, hc⟩ := List.mem_flatMap.1 hm
  rcases mem_generate hs h hsm with ⟨x, he, ps, hps, hp⟩ | ⟨m, _, e⟩ | ⟨p, hp, e | ⟨hu, e⟩ | ⟨_, e⟩⟩ | ⟨t, _, ps, hps, hp⟩
  · obtain ⟨h1, h2, h3⟩ := kept_mem he
    rcases mem_tableSets hps hp with ⟨r, e⟩ | ⟨q, _, cs, hcs, hq⟩ | ⟨hu, e⟩ | ⟨m, _, e⟩ | ⟨q, _, hq⟩ | ⟨ch, hch, e⟩ | ⟨_, e⟩ | ⟨_, e⟩
    · rw [(Prod.mk.inj e).2] at hc; simp at hc
    · obtain ⟨ch, e, h4⟩ := mem_columnSets hcs hq
      rw [(Prod.mk.inj e).2, List.mem_singleton] at hc
      subst hc
      simp at h4
    · rw [(Prod.mk.inj e).2, List.mem_singleton] at hc
      cases hc
      refine ⟨_, h2, h3, rfl, ?_⟩
      by_cases ho : HasUnique x.2.2
      · exact Or.inl ho
      · right
        refine ⟨_, h1, rfl, ?_⟩
        by_contra ht
        have : uniqueChanged x.2.1 x.2.2 = false := by
          rw [uniqueChanged_iff]
          intro m
          constructor
          · rintro ⟨c, hc, hq, _⟩; exact absurd ⟨c, hc, hq⟩ ht
          · rintro ⟨c, hc, hq, _⟩; exact absurd ⟨c, hc, hq⟩ ho
        rw [this] at hu; cases hu
    · rw [(Prod.mk.inj e).2] at hc; simp at hc
    · rcases mem_renameSets hq with e | e <;> rw [(Prod.mk.inj e).2] at hc <;> simp at hc
    · obtain ⟨lcs, _, rfl⟩ := Option.map_eq_some_iff.1 hch
      rw [(Prod.mk.inj e).2] at hc; simp at hc
    · rw [(Prod.mk.inj e).2] at hc
      unfold pkChanges at hc
      rcases List.mem_append.1 hc with hc | hc <;> split at hc <;> simp at hc
    · rw [(Prod.mk.inj e).2] at hc
      unfold uqChanges at hc
      split at hc <;> simp at hc
  · rw [e] at hc; simp at hc
  · rw [e] at hc; simp at hc
  · rw [e, List.mem_singleton] at hc
    cases hc
    obtain ⟨_, _, _, h4⟩ := renamedPairs_source hp
    exact ⟨p.2, (lastBy_some h4).1, rfl, rfl, Or.inl hu⟩
  · rw [e] at hc; simp at hc
  · rcases mem_createSets hps hp with ⟨lcs, _, e⟩ | ⟨m, e⟩ | ⟨m, k, e⟩ <;> simp only at e <;> rw [e] at hc <;> simp at hc

/-! ### C42 -/

theorem pkChanges_ne_nil {t o : Table} (h : t.primaryKeyNameSet.equals o.primaryKeyNameSet = false) :
    pkChanges t o ≠ [] := by
  intro e
  unfold pkChanges at e
  obtain ⟨e1, e2⟩ := List.append_eq_nil_iff.1 e
  have h1 : ¬o.primaryKeyNameSet.size > 0 := by intro hs; rw [if_pos hs] at e1; cases e1
  have h2 : ¬t.primaryKeyNameSet.size > 0 := by intro hs; rw [if_pos hs] at e2; cases e2
  rw [size_pos_primary] at h1 h2
  have : t.primaryKeyNameSet.equals o.primaryKeyNameSet = true := by
    rw [primaryChanged_iff]
    intro m
    constructor
    · rintro ⟨c, hc, hq, _⟩; exact absurd ⟨c, hc, hq⟩ h2
    · rintro ⟨c, hc, hq, _⟩; exact absurd ⟨c, hc, hq⟩ h1
  rw [h] at this; cases this

/-- C42, restricted: every change set of a diff has a change, unless a table of both schemas loses its last
unique column.  That case is `C42_violated`. -/
theorem C42_not_empty_partial (pf : Str → Option Str) (opt : DiffOption) (sched : Sched) (hs : sched.Fair)
    (hno : ∀ t ∈ opt.diffTo.tables, ∀ o ∈ opt.diffFrom.tables, o.name = t.name → HasUnique o → HasUnique t)
    (sets : List LqChangeSet) (h : generate pf opt sched = some sets) : ∀ s ∈ sets, s.changes ≠ [] := by
  intro s hsm
  rcases mem_generate hs h hsm with ⟨x, he, ps, hps, hp⟩ | ⟨m, _, e⟩ | ⟨p, hp, e | ⟨hu, e⟩ | ⟨_, e⟩⟩ | ⟨t, _, ps, hps, hp⟩
  · obtain ⟨h1, h2, h3⟩ := kept_mem he
    rcases mem_tableSets hps hp with ⟨r, e⟩ | ⟨q, _, cs, hcs, hq⟩ | ⟨hu, e⟩ | ⟨m, _, e⟩ | ⟨q, _, hq⟩ | ⟨ch, hch, e⟩ | ⟨hpk, e⟩ | ⟨hu, e⟩
    · rw [(Prod.mk.inj e).2]; simp
    · obtain ⟨ch, e, h4⟩ := mem_columnSets hcs hq
      rw [(Prod.mk.inj e).2]; simp
    · rw [(Prod.mk.inj e).2]; simp
    · rw [(Prod.mk.inj e).2]; simp
    · rcases mem_renameSets hq with e | e <;> rw [(Prod.mk.inj e).2] <;> simp
    · rw [(Prod.mk.inj e).2]; simp
    · rw [(Prod.mk.inj e).2]; exact pkChanges_ne_nil hpk
    · rw [(Prod.mk.inj e).2]
      have ht : HasUnique x.2.1 := by
        by_contra ht
        have ho : ¬HasUnique x.2.2 := fun ho => ht (hno _ h1 _ h2 h3 ho)
        have : uniqueChanged x.2.1 x.2.2 = false := by
          rw [uniqueChanged_iff]
          intro m
          constructor
          · rintro ⟨c, hc, hq, _⟩; exact absurd ⟨c, hc, hq⟩ ht
          · rintro ⟨c, hc, hq, _⟩; exact absurd ⟨c, hc, hq⟩ ho
        rw [this] at hu; cases hu
      unfold uqChanges
      rw [if_pos (size_pos_unique.2 ht)]
      simp
  · rw [e]; simp
  · rw [e]; simp
  · rw [e]; simp
  · rw [e]; simp
  · rcases mem_createSets hps hp with ⟨lcs, _, e⟩ | ⟨m, e⟩ | ⟨m, k, e⟩ <;> simp only at e <;> rw [e] <;> simp

/-- C42 for whole changelogs: every change set of a generated changelog has a change. -/
theorem C42_generated (pf : Str → Option Str) (opt : GenOption) (schema : Schema) (sets : List LqChangeSet)
    (h : generateAll pf opt schema = some sets) : ∀ s ∈ sets, s.changes ≠ [] := by
  intro s hsm
  rw [generateAll_eq] at h
  obtain ⟨cs, hcs, rfl⟩ := Option.map_eq_some_iff.1 h
  obtain ⟨b, hb, p, hp, _, h2⟩ := mem_number hsm
  obtain ⟨ps, hps, rfl⟩ := List.mem_map.1 hb
  obtain ⟨t, ht, h3⟩ := forall₂_right (mapM_some_iff.1 hcs) hps
  rw [h2]
  rcases mem_createSets h3 (mem_fromSets hp) with ⟨lcs, _, e⟩ | ⟨m, e⟩ | ⟨m, k, e⟩ <;> rw [e] <;> simp

/-! ### C43 -/

theorem newLqDefaultValue_given {pf : Str → Option Str} {c : Column} {d : DefaultValue} (hv : c.defaultValue ≠ [])
    (h : newLqDefaultValue pf c = some d) : DefaultGiven pf ["decimal"ₛ, "float"ₛ, "double"ₛ] c d := by
  refine ⟨fun e => absurd e hv, fun _ => ⟨?_, ?_, ?_, ?_⟩⟩
  · intro e
    unfold newLqDefaultValue isStringType isBooleanType at h
    rw [e, if_neg (by decide), if_pos (by decide)] at h
    rw [← Option.some.inj h]
    by_cases ht : c.defaultValue = "true"ₛ
    · rw [decide_eq_true ht, beq_iff_eq.2 ht]
    · rw [decide_eq_false ht, beq_eq_false_iff_ne.2 ht]
  · intro e
    have hx : isStringType c.type = false ∧ isBooleanType c.type = false ∧ isNumericType c.type = true ∧
        isIntType c.type = false := by
      unfold isStringType isBooleanType isNumericType isIntType
      revert e
      generalize lower c.type = y
      revert y
      decide
    unfold newLqDefaultValue at h
    rw [if_neg (by rw [hx.1]; decide), if_neg (by rw [hx.2.1]; decide), if_pos hx.2.2.1,
      if_neg (by rw [hx.2.2.2]; decide)] at h
    obtain ⟨x, h1, h2⟩ := Option.map_eq_some_iff.1 h
    exact ⟨x, h1, h2.symm⟩
  · intro e
    have hx : isStringType c.type = false ∧ isBooleanType c.type = false ∧ isNumericType c.type = false ∧
        isDateType c.type = true := by
      have : lower c.type ∈ ["date"ₛ, "datetime"ₛ] := by
        rcases e with e | e <;> rw [e] <;> decide
      unfold isStringType isBooleanType isNumericType isDateType
      revert this
      generalize lower c.type = y
      revert y
      decide
    unfold newLqDefaultValue at h
    rw [if_neg (by rw [hx.1]; decide), if_neg (by rw [hx.2.1]; decide), if_neg (by rw [hx.2.2.1]; decide),
      if_pos hx.2.2.2] at h
    exact (Option.some.inj h).symm
  · intro e
    unfold newLqDefaultValue at h
    split at h
    · exact (Option.some.inj h).symm
    have hb : ¬isBooleanType c.type = true := by
      intro hb
      apply e
      have := (isBooleanType_iff _).1 hb
      revert this
      generalize lower c.type = y
      revert y
      decide
    have hn : ¬isNumericType c.type = true := by
      intro hb
      apply e
      have := (isNumericType_iff _).1 hb
      rw [← List.mem_append] at this
      revert this
      generalize lower c.type = y
      revert y
      decide
    have hd : ¬isDateType c.type = true := by
      intro hb
      apply e
      have := (isDateType_iff _).1 hb
      revert this
      generalize lower c.type = y
      revert y
      decide
    rw [if_neg hb, if_neg hn, if_neg hd] at h
    exact (Option.some.inj h).symm

theorem newLqColumn_default {pf : Str → Option Str} {c : Column} {a b : Bool} {lc : LqColumn}
    (h : newLqColumn pf c a b = some lc) :
    lc.name = c.name ∧ DefaultGiven pf ["decimal"ₛ, "float"ₛ, "double"ₛ] c lc.default := by
  unfold newLqColumn at h
  dsimp only at h
  split at h
  · rename_i hv
    obtain ⟨dv, hdv, rfl⟩ := Option.map_eq_some_iff.1 h
    exact ⟨rfl, newLqDefaultValue_given hv hdv⟩
  · rename_i hv
    rw [← Option.some.inj h]
    refine ⟨rfl, fun _ => rfl, fun hne => absurd hne hv⟩

theorem stripRemarks_default {uc : Bool} {lc : LqColumn} :
    (stripRemarks uc lc).name = lc.name ∧ (stripRemarks uc lc).default = lc.default := by
  unfold stripRemarks
  split <;> exact ⟨rfl, rfl⟩

theorem createColumns_default {pf : Str → Option Str} {t : Table} {uc : Bool} {lcs : List LqColumn}
    (h : createColumns pf t uc = some lcs) :
    List.Forall₂ (fun c lc => lc.name = c.name ∧ DefaultGiven pf ["decimal"ₛ, "float"ₛ, "double"ₛ] c lc.default)
      t.columns lcs := by
  unfold createColumns at h
  refine (mapM_some_iff.1 h).imp ?_
  intro c lc h
  obtain ⟨l, hl, rfl⟩ := Option.map_eq_some_iff.1 h
  obtain ⟨h1, h2⟩ := newLqColumn_default hl
  rw [stripRemarks_default.1, stripRemarks_default.2]
  exact ⟨h1, h2⟩

theorem newAddColumn_default {pf : Str → Option Str} {t : Table} {uc : Bool} {cs : List Column} {ch : LqChange}
    (h : newAddColumn pf t cs uc = some ch) :
    ∃ lcs, ch = .addColumn t.name lcs ∧
      List.Forall₂ (fun c lc => lc.name = c.name ∧ lc.afterColumn = lastColName c t.columns [] ∧
        DefaultGiven pf ["decimal"ₛ, "float"ₛ, "double"ₛ] c lc.default) cs lcs := by
  obtain ⟨lcs, hl, rfl⟩ := Option.map_eq_some_iff.1 h
  refine ⟨lcs, rfl, (mapM_some_iff.1 hl).imp ?_⟩
  intro c lc h
  obtain ⟨l, hl, rfl⟩ := Option.map_eq_some_iff.1 h
  obtain ⟨h1, h2⟩ := newLqColumn_default hl
  refine ⟨?_, rfl, ?_⟩
  · exact stripRemarks_default.1.trans h1
  · show DefaultGiven _ _ c (stripRemarks uc l).default
    rw [stripRemarks_default.2]; exact h2

/-- C43, restricted: in a generated changelog every column carries its default value in the field for its
type, where integer types count as text.  That integers should be numbers, and that functions should not
be taken literally, are `C43_violated` and `C43_violated_function`. -/
theorem C43_generated_partial (pf : Str → Option Str) (opt : GenOption) (schema : Schema) (sets : List LqChangeSet)
    (h : generateAll pf opt schema = some sets) (n r : Str) (lcs : List LqColumn)
    (hm : .createTable n r lcs ∈ changesIn sets) :
    ∃ t ∈ schema.tables, t.name = n ∧ List.Forall₂ (fun c lc => lc.name = c.name ∧
      DefaultGiven pf ["decimal"ₛ, "float"ₛ, "double"ₛ] c lc.default) t.columns lcs := by
  rw [generateAll_eq] at h
  obtain ⟨cs, hcs, rfl⟩ := Option.map_eq_some_iff.1 h
  obtain ⟨s, hsm, hc⟩ := List.mem_flatMap.1 hm
  obtain ⟨b, hb, p, hp, _, h2⟩ := mem_number hsm
  obtain ⟨ps, hps, rfl⟩ := List.mem_map.1 hb
  obtain ⟨t, ht, h3⟩ := forall₂_right (mapM_some_iff.1 hcs) hps
  rw [h2] at hc
  rcases mem_createSets h3 (mem_fromSets hp) with ⟨l, hl, e⟩ | ⟨m, e⟩ | ⟨m, k, e⟩ <;> rw [e] at hc
  · rw [List.mem_singleton] at hc
    cases hc
    exact ⟨t, (List.mem_filter.1 ht).1, rfl, createColumns_default hl⟩
  · simp at hc
  · simp at hc

theorem notRenamed_mem {α : Type} {l : List (α × Option α)} {a : α} (h : a ∈ notRenamed l) : a ∈ l.map (·.1) := by
  unfold notRenamed at h
  obtain ⟨p, hp, h⟩ := List.mem_filterMap.1 h
  split at h
  · cases h
  · exact List.mem_map.2 ⟨p, hp, Option.some.inj h⟩

/-- C43 for diffs, restricted in the same way. -/
theorem C43_diff_partial (pf : Str → Option Str) (opt : DiffOption) (sched : Sched) (hs : sched.Fair)
    (sets : List LqChangeSet) (h : generate pf opt sched = some sets) :
    (∀ n r lcs, .createTable n r lcs ∈ changesIn sets → ∃ t ∈ opt.diffTo.tables, t.name = n ∧
      List.Forall₂ (fun c lc => lc.name = c.name ∧
        DefaultGiven pf ["decimal"ₛ, "float"ₛ, "double"ₛ] c lc.default) t.columns lcs) ∧
    (∀ n lcs, .addColumn n lcs ∈ changesIn sets → ∃ t ∈ opt.diffTo.tables, t.name = n ∧ ∀ lc ∈ lcs, ∃ c ∈ t.columns,
      lc.name = c.name ∧ DefaultGiven pf ["decimal"ₛ, "float"ₛ, "double"ₛ] c lc.default) ∧
    (∀ n k r d, .addDefaultValue n k r d ∈ changesIn sets → ∃ t ∈ opt.diffTo.tables, t.name = n ∧ ∃ c ∈ t.columns,
      c.name = k ∧ c.defaultValue ≠ [] ∧ DefaultGiven pf ["decimal"ₛ, "float"ₛ, "double"ₛ] c d) := by
  have key : ∀ ch ∈ changesIn sets,
      (∀ n r lcs, ch = .createTable n r lcs → ∃ t ∈ opt.diffTo.tables, t.name = n ∧
        List.Forall₂ (fun c lc => lc.name = c.name ∧
          DefaultGiven pf ["decimal"ₛ, "float"ₛ, "double"ₛ] c lc.default) t.columns lcs) ∧
      (∀ n lcs, ch = .addColumn n lcs → ∃ t ∈ opt.diffTo.tables, t.name = n ∧ ∀ lc ∈ lcs, ∃ c ∈ t.columns,
        lc.name = c.name ∧ DefaultGiven pf ["decimal"ₛ, "float"ₛ, "double"ₛ] c lc.default) ∧
      (∀ n k r d, ch = .addDefaultValue n k r d → ∃ t ∈ opt.diffTo.tables, t.name = n ∧ ∃ c ∈ t.columns,
        c.name = k ∧ c.defaultValue ≠ [] ∧ DefaultGiven pf ["decimal"ₛ, "float"ₛ, "double"ₛ] c d) := by
    intro ch hm
    obtain ⟨s, hsm, hc⟩ := List.mem_flatMap.1 hm
    rcases mem_generate hs h hsm with ⟨x, he, ps, hps, hp⟩ | ⟨m, _, e⟩ | ⟨p, hp, e | ⟨hu, e⟩ | ⟨_, e⟩⟩ | ⟨t, ht, ps, hps, hp⟩
    · obtain ⟨h1, h2, h3⟩ := kept_mem he
      rcases mem_tableSets hps hp with ⟨r, e⟩ | ⟨q, hqk, cs, hcs, hq⟩ | ⟨hu, e⟩ | ⟨m, _, e⟩ | ⟨q, _, hq⟩ | ⟨ch, hch, e⟩ | ⟨hpk, e⟩ | ⟨hu, e⟩
      · rw [(Prod.mk.inj e).2, List.mem_singleton] at hc; subst hc; simp
      · obtain ⟨ch', e, h4⟩ := mem_columnSets hcs hq
        rw [(Prod.mk.inj e).2, List.mem_singleton] at hc
        subst hc
        rcases h4 with ⟨_, rfl⟩ | ⟨_, rfl⟩ | ⟨_, rfl⟩ | ⟨_, _, rfl⟩ | ⟨_, rfl⟩ | ⟨_, rfl⟩ | ⟨_, rfl⟩ | ⟨hne, r, v, hv, rfl⟩
        · simp
        · simp
        · simp
        · simp
        · simp
        · simp
        · simp
        · refine ⟨by simp, by simp, ?_⟩
          intro n k r d e
          cases e
          exact ⟨_, h1, rfl, q.1, (mem_keptColumns.1 hqk).1, rfl, hne, newLqDefaultValue_given hne hv⟩
      · rw [(Prod.mk.inj e).2, List.mem_singleton] at hc; subst hc; simp
      · rw [(Prod.mk.inj e).2, List.mem_singleton] at hc; subst hc; simp
      · rcases mem_renameSets hq with e | e <;> rw [(Prod.mk.inj e).2, List.mem_singleton] at hc <;> subst hc <;> simp
      · rw [(Prod.mk.inj e).2, List.mem_singleton] at hc; subst hc
        obtain ⟨lcs, rfl, hl⟩ := newAddColumn_default hch
        refine ⟨by simp, ?_, by simp⟩
        intro n l e
        cases e
        refine ⟨_, h1, rfl, ?_⟩
        intro lc hlc
        obtain ⟨c, hc, h5, _, h6⟩ := forall₂_right hl hlc
        refine ⟨c, ?_, h5, h6⟩
        have := notRenamed_mem hc
        rw [columnRenames, findRenames_fst] at this
        exact (mem_addedColumns.1 this).1
      · rw [(Prod.mk.inj e).2] at hc
        unfold pkChanges at hc
        rcases List.mem_append.1 hc with hc | hc <;> split at hc
        · rw [List.mem_singleton] at hc; subst hc; simp
        · cases hc
        · rw [List.mem_singleton] at hc; subst hc; simp
        · cases hc
      · rw [(Prod.mk.inj e).2] at hc
        unfold uqChanges at hc
        split at hc
        · rw [List.mem_singleton] at hc; subst hc; simp
        · cases hc
    · rw [e, List.mem_singleton] at hc; subst hc; simp
    · rw [e, List.mem_singleton] at hc; subst hc; simp
    · rw [e, List.mem_singleton] at hc; subst hc; simp
    · rw [e, List.mem_singleton] at hc; subst hc; simp
    · rcases mem_createSets hps hp with ⟨lcs, hl, e⟩ | ⟨m, e⟩ | ⟨m, k, e⟩ <;> simp only at e <;> rw [e, List.mem_singleton] at hc <;> subst hc
      · refine ⟨?_, by simp, by simp⟩
        intro n r l e
        cases e
        refine ⟨t, ?_, rfl, createColumns_default hl⟩
        have := notRenamed_mem ht
        rw [tableRenames, findRenames_fst] at this
        exact (mem_addedTables.1 this).1
      · simp
      · simp
  exact ⟨fun n r lcs hm => (key _ hm).1 n r lcs rfl, fun n lcs hm => (key _ hm).2.1 n lcs rfl,
    fun n k r d hm => (key _ hm).2.2 n k r d rfl⟩

/-! ### C44 -/

theorem lastColName_before {c : Column} : ∀ {cs : List Column} {last : Str}, (cs.map (·.name)).Nodup → c ∈ cs →
    lastColName c cs last = match before c.name (cs.map (·.name)) with
      | some b => b
      | none => last := by
  intro cs
  induction cs with
  | nil => intro _ _ h; cases h
  | cons a cs ih =>
    intro last hn hc
    have hn' := List.nodup_cons.1 hn
    by_cases he : a = c
    · subst he
      rw [lastColName, if_pos rfl]
      have : before a.name (a.name :: cs.map (·.name)) = none := by
        have : ∀ (l : List Str) (x : Str), a.name ∉ l → before a.name (x :: l) = none := by
          intro l
          induction l with
          | nil => intro x _; rfl
          | cons y l ih =>
            intro x h
            rw [before, if_neg (fun e => h (by simp [e]))]
            exact ih y (fun e => h (by simp [e]))
        exact this _ _ hn'.1
      rw [List.map_cons, this]
    · rw [lastColName, if_neg he]
      have hc' : c ∈ cs := by
        rcases List.mem_cons.1 hc with h | h
        · exact absurd h.symm he
        · exact h
      rw [ih hn'.2 hc']
      cases cs with
      | nil => cases hc'
      | cons b cs =>
        simp only [List.map_cons, before]
        by_cases hb : b.name = c.name
        · rw [if_pos hb]
          have : before c.name (b.name :: cs.map (·.name)) = none := by
            rw [← hb]
            have h3 := (List.nodup_cons.1 hn'.2).1
            have : ∀ (l : List Str) (x : Str), b.name ∉ l → before b.name (x :: l) = none := by
              intro l
              induction l with
              | nil => intro x _; rfl
              | cons y l ih =>
                intro x h
                rw [before, if_neg (fun e => h (by simp [e]))]
                exact ih y (fun e => h (by simp [e]))
            exact this _ _ h3
          rw [this]
        · rw [if_neg hb]
          have hne : cs.map (·.name) ≠ [] := by
            rcases List.mem_cons.1 hc' with h | h
            · exact absurd (by rw [h]) hb
            · intro e
              rw [List.map_eq_nil_iff] at e
              subst e; cases h
          have : ∃ x, before c.name (b.name :: cs.map (·.name)) = some x := by
            have hm : c.name ∈ cs.map (·.name) := by
              rcases List.mem_cons.1 hc' with h | h
              · exact absurd (by rw [h]) hb
              · exact List.mem_map_of_mem h
            have : ∀ (l : List Str) (x : Str), c.name ∈ l → ∃ y, before c.name (x :: l) = some y := by
              intro l
              induction l with
              | nil => intro x h; cases h
              | cons y l ih =>
                intro x h
                rw [before]
                by_cases e : y = c.name
                · exact ⟨x, if_pos e⟩
                · rw [if_neg e]
                  rcases List.mem_cons.1 h with h | h
                  · exact absurd h.symm e
                  · exact ih y h
            exact this _ _ hm
          obtain ⟨x, hx⟩ := this
          rw [hx]

theorem before_mid {n b : Str} : ∀ {pre post : List Str}, (pre ++ b :: n :: post).Nodup →
    before n (pre ++ b :: n :: post) = some b := by
  intro pre
  induction pre with
  | nil => intro post _; rw [List.nil_append, before, if_pos rfl]
  | cons a pre ih =>
    intro post hn
    have hn' := List.nodup_cons.1 hn
    cases pre with
    | nil =>
      have h1 : b ≠ n := by
        have := (List.nodup_cons.1 hn'.2).1
        intro e; exact this (by simp [e])
      rw [List.cons_append, List.nil_append, before, if_neg h1]
      exact ih hn'.2
    | cons a' pre =>
      have h1 : a' ≠ n := by
        have := (List.nodup_cons.1 hn'.2).1
        intro e; exact this (by simp [e])
      rw [List.cons_append, List.cons_append, before, if_neg h1]
      exact ih hn'.2

theorem placeAfter_mid {b c : Str} {pre post : List Str} (h : b ∉ pre) :
    placeAfter (pre ++ b :: post) c b = pre ++ b :: c :: post := by
  have hp : ∀ x ∈ pre, (x != b) = true := by
    intro x hx
    rw [bne_iff_ne]
    rintro rfl; exact h hx
  unfold placeAfter
  rw [if_pos (by simp), List.takeWhile_append_of_pos hp, List.dropWhile_append_of_pos hp]
  simp

/-- Placing columns one after the other restores the full order. -/
theorem place_all (l : List Str) (hl : l.Nodup) (p : Str → Bool) (after : Str → Str)
    (ha : ∀ n ∈ l, ∀ b, before n l = some b → after n = b) :
    ∀ (rest pre : List Str) (b : Str), l = pre ++ b :: rest →
      (rest.filter p).foldl (fun o n => placeAfter o n (after n)) (pre ++ b :: rest.filter (fun n => !p n)) = l := by
  intro rest
  induction rest with
  | nil => intro pre b e; simp [e]
  | cons c rest ih =>
    intro pre b e
    have e' : l = (pre ++ [b]) ++ c :: rest := by simp [e]
    cases hc : p c
    · rw [List.filter_cons_of_neg (p := p) (by simp [hc]), List.filter_cons_of_pos (p := fun n => !p n) (by simp [hc])]
      have := ih (pre ++ [b]) c e'
      simpa using this
    · rw [List.filter_cons_of_pos (p := p) hc, List.filter_cons_of_neg (p := fun n => !p n) (by simp [hc]), List.foldl_cons]
      have h1 : after c = b := ha c (by simp [e]) b (by rw [e]; exact before_mid (e ▸ hl))
      have h2 : b ∉ pre := by
        intro hb
        rw [e] at hl
        exact (List.disjoint_of_nodup_append hl) hb (by simp)
      rw [h1, placeAfter_mid h2]
      have := ih (pre ++ [b]) c e'
      simpa using this

theorem sublist_eq_filter {s l : List Str} (hs : s.Sublist l) (hl : l.Nodup) : l.filter (fun x => decide (x ∈ s)) = s := by
  induction hs with
  | slnil => rfl
  | @cons s l a h ih =>
    have hn := List.nodup_cons.1 hl
    have : a ∉ s := fun h' => hn.1 (h.subset h')
    rw [List.filter_cons_of_neg (by simpa using this)]
    exact ih hn.2
  | @cons_cons s l a h ih =>
    have hn := List.nodup_cons.1 hl
    rw [List.filter_cons_of_pos (by simp)]
    congr 1
    have : l.filter (fun x => decide (x ∈ a :: s)) = l.filter (fun x => decide (x ∈ s)) := by
      apply List.filter_congr
      intro x hx
      have : x ≠ a := fun e => hn.1 (e ▸ hx)
      simp [this]
    rw [this]
    exact ih hn.2

theorem notRenamed_sublist {α : Type} (l : List (α × Option α)) : (notRenamed l).Sublist (l.map (·.1)) := by
  induction l with
  | nil => exact List.Sublist.slnil
  | cons p l ih =>
    unfold notRenamed
    rw [List.filterMap_cons, List.map_cons]
    split
    · exact ih.cons _
    · rename_i x h
      split at h
      · cases h
      · rw [← Option.some.inj h]; exact ih.cons_cons _

theorem addedColumns_sublist (t o : Table) : (addedColumns t o).Sublist t.columns := by
  unfold addedColumns
  exact List.filter_sublist

theorem addColumn_origin {pf : Str → Option Str} {opt : DiffOption} {sched : Sched} (hs : sched.Fair)
    {sets : List LqChangeSet} (h : generate pf opt sched = some sets) {n : Str} {lcs : List LqColumn}
    (hm : .addColumn n lcs ∈ changesIn sets) :
    ∃ t ∈ opt.diffTo.tables, t.name = n ∧ ∃ cs, cs.Sublist t.columns ∧
      List.Forall₂ (fun c (lc : LqColumn) => lc.name = c.name ∧ lc.afterColumn = lastColName c t.columns []) cs lcs := by
  obtain ⟨s, hsm, hc⟩ := List.mem_flatMap.1 hm
  rcases mem_generate hs h hsm with ⟨x, he, ps, hps, hp⟩ | ⟨m, _, e⟩ | ⟨p, hp, e | ⟨hu, e⟩ | ⟨_, e⟩⟩ | ⟨t, _, ps, hps, hp⟩
  · obtain ⟨h1, h2, h3⟩ := kept_mem he
    rcases mem_tableSets hps hp with ⟨r, e⟩ | ⟨q, _, cs, hcs, hq⟩ | ⟨hu, e⟩ | ⟨m, _, e⟩ | ⟨q, _, hq⟩ | ⟨ch, hch, e⟩ | ⟨_, e⟩ | ⟨_, e⟩
    · rw [(Prod.mk.inj e).2] at hc; simp at hc
    · obtain ⟨ch, e, h4⟩ := mem_columnSets hcs hq
      rw [(Prod.mk.inj e).2, List.mem_singleton] at hc
      subst hc
      simp at h4
    · rw [(Prod.mk.inj e).2] at hc; simp at hc
    · rw [(Prod.mk.inj e).2] at hc; simp at hc
    · rcases mem_renameSets hq with e | e <;> rw [(Prod.mk.inj e).2] at hc <;> simp at hc
    · rw [(Prod.mk.inj e).2, List.mem_singleton] at hc
      subst hc
      obtain ⟨l, e, hl⟩ := newAddColumn_default hch
      cases e
      refine ⟨_, h1, rfl, _, ?_, hl.imp fun c lc h => ⟨h.1, h.2.1⟩⟩
      refine (notRenamed_sublist _).trans ?_
      rw [columnRenames, findRenames_fst]
      exact addedColumns_sublist _ _
    · rw [(Prod.mk.inj e).2] at hc
      unfold pkChanges at hc
      rcases List.mem_append.1 hc with hc | hc <;> split at hc <;> simp at hc
    · rw [(Prod.mk.inj e).2] at hc
      unfold uqChanges at hc
      split at hc <;> simp at hc
  · rw [e] at hc; simp at hc
  · rw [e] at hc; simp at hc
  · rw [e] at hc; simp at hc
  · rw [e] at hc; simp at hc
  · rcases mem_createSets hps hp with ⟨lcs, _, e⟩ | ⟨m, e⟩ | ⟨m, k, e⟩ <;> simp only at e <;> rw [e] at hc <;> simp at hc

/-- C44, placement: a column added to an existing table is placed after the column in front of it in the new
schema; a column that is the first of its table gets no placement. -/
theorem C44_placement (pf : Str → Option Str) (opt : DiffOption) (sched : Sched) (hs : sched.Fair)
    (hto : ∀ t ∈ opt.diffTo.tables, (t.columns.map (·.name)).Nodup)
    (sets : List LqChangeSet) (h : generate pf opt sched = some sets) (n : Str) (lcs : List LqColumn)
    (hm : .addColumn n lcs ∈ changesIn sets) :
    ∃ t ∈ opt.diffTo.tables, t.name = n ∧ ∀ lc ∈ lcs, lc.name ∈ t.columns.map (·.name) ∧
      lc.afterColumn = (before lc.name (t.columns.map (·.name))).getD [] := by
  obtain ⟨t, ht, hn, cs, hsub, hl⟩ := addColumn_origin hs h hm
  refine ⟨t, ht, hn, ?_⟩
  intro lc hlc
  obtain ⟨c, hc, h1, h2⟩ := forall₂_right hl hlc
  have hc' := hsub.subset hc
  rw [h1, h2, lastColName_before (hto t ht) hc']
  refine ⟨List.mem_map_of_mem hc', ?_⟩
  cases before c.name (t.columns.map (·.name)) <;> rfl

/-- C44, order, restricted: executing the additions one after the other on a table that has the other columns
of the new table in their order yields the order of the new table, provided the first column is not among
the added ones.  The other case is `C44_violated`. -/
theorem C44_order_partial (pf : Str → Option Str) (opt : DiffOption) (sched : Sched) (hs : sched.Fair)
    (hto : ∀ t ∈ opt.diffTo.tables, (t.columns.map (·.name)).Nodup)
    (sets : List LqChangeSet) (h : generate pf opt sched = some sets) (n : Str) (lcs : List LqColumn)
    (hm : .addColumn n lcs ∈ changesIn sets) :
    ∃ t ∈ opt.diffTo.tables, t.name = n ∧
      ∀ first rest, t.columns = first :: rest → first.name ∉ lcs.map (·.name) →
        lcs.foldl (fun order lc => placeAfter order lc.name lc.afterColumn)
          ((t.columns.map (·.name)).filter fun m => decide (m ∉ lcs.map (·.name))) = t.columns.map (·.name) := by
  obtain ⟨t, ht, hn, cs, hsub, hl⟩ := addColumn_origin hs h hm
  refine ⟨t, ht, hn, ?_⟩
  intro first rest hcols hfirst
  have hnd := hto t ht
  have hnames : lcs.map (·.name) = cs.map (·.name) := by
    have : ∀ {cs : List Column} {lcs : List LqColumn}, List.Forall₂ (fun c (lc : LqColumn) => lc.name = c.name ∧
        lc.afterColumn = lastColName c t.columns []) cs lcs → lcs.map (·.name) = cs.map (·.name) := by
      intro cs lcs h
      induction h with
      | nil => rfl
      | cons h _ ih => rw [List.map_cons, List.map_cons, h.1, ih]
    exact this hl
  have hafter : ∀ lc ∈ lcs, lc.afterColumn = (before lc.name (t.columns.map (·.name))).getD [] := by
    intro lc hlc
    obtain ⟨c, hc, h1, h2⟩ := forall₂_right hl hlc
    rw [h1, h2, lastColName_before hnd (hsub.subset hc)]
    cases before c.name (t.columns.map (·.name)) <;> rfl
  have hfold : ∀ (o : List Str) (ls : List LqColumn), (∀ lc ∈ ls, lc.afterColumn = (before lc.name (t.columns.map (·.name))).getD []) →
      ls.foldl (fun order lc => placeAfter order lc.name lc.afterColumn) o =
      (ls.map (·.name)).foldl (fun o n => placeAfter o n ((before n (t.columns.map (·.name))).getD [])) o := by
    intro o ls
    induction ls generalizing o with
    | nil => intro _; rfl
    | cons a ls ih =>
      intro hh
      rw [List.foldl_cons, List.map_cons, List.foldl_cons, hh a (by simp)]
      exact ih _ fun lc hlc => hh lc (by simp [hlc])
  rw [hfold _ _ hafter]
  have hfilter := sublist_eq_filter (hsub.map (·.name)) hnd
  rw [← hnames] at hfilter
  have key := place_all (t.columns.map (·.name)) hnd (fun x => decide (x ∈ lcs.map (·.name)))
    (fun n => (before n (t.columns.map (·.name))).getD []) (fun n _ b hb => by simp only [hb, Option.getD_some])
    (rest.map (·.name)) [] first.name (by rw [hcols]; rfl)
  rw [hcols, List.map_cons, List.filter_cons_of_neg (by simpa using hfirst)] at hfilter
  rw [hfilter] at key
  rw [hcols, List.map_cons] at key ⊢
  rw [List.filter_cons_of_pos (by simpa using hfirst)]
  have e : ((rest.map (·.name)).filter fun m => decide (m ∉ lcs.map (·.name))) =
      (rest.map (·.name)).filter fun m => !decide (m ∈ lcs.map (·.name)) := by
    apply List.filter_congr
    intro m _
    rw [decide_not]
  rw [e]
  exact key

/-! ### C72 -/

theorem slice_nil : StringSet.slice ⟨[]⟩ = [] := rfl

theorem columnSets_self (pf : Str → Option Str) (t : Table) (c : Column) (uc : Bool) : columnSets pf t c c uc = some [] := by
  simp [columnSets, attrSets, defaultSets, whenS]

theorem tableSets_self (pf : Str → Option Str) (sched : List (Column × Column) → List (Column × Column))
    (hs : ∀ l, (sched l).Perm l) (t : Table) (uc : Bool) (suffix : Str) (hn : (t.columns.map (·.name)).Nodup) :
    tableSets pf sched t t uc suffix = some [] := by
  have hk : (keptColumns t t).mapM (fun p => columnSets pf t p.1 p.2 uc) = some ((keptColumns t t).map fun _ => []) := by
    rw [mapM_some_iff]
    rw [List.forall₂_map_right_iff, List.forall₂_same]
    intro p hp
    obtain ⟨h1, h2⟩ := mem_keptColumns.1 hp
    rw [Table.columnNameMap, lastBy_nodup hn h1, Option.some.injEq] at h2
    rw [← h2]; exact columnSets_self _ _ _ _
  have hr : columnRenames t t uc = ([], ⟨[]⟩) := by
    rw [columnRenames, addedColumns_self, removedNames_self]; rfl
  have hu : uniqueChanged t t = false := (uniqueChanged_iff t t).2 fun _ => Iff.rfl
  have hp : t.primaryKeyNameSet.equals t.primaryKeyNameSet = true := (primaryChanged_iff t t).2 fun _ => Iff.rfl
  have hsn : sched [] = [] := List.Perm.eq_nil (hs [])
  have hf : ((keptColumns t t).map fun _ => ([] : Sets)).flatten = [] := by
    rw [List.flatten_eq_nil_iff]; simp
  unfold tableSets
  rw [hk, hr]
  simp only [Option.bind_some, midSets, endSets, addSets, hr, hu, hp, renamedPairs, notRenamed, List.filterMap_nil, hsn, hf]
  simp [whenS, slice_nil]

/-- C72: comparing a schema with itself, without group filter, yields an empty changelog. -/
theorem C72_self_diff_empty (pf : Str → Option Str) (opt : DiffOption) (sched : Sched) (hs : sched.Fair)
    (hself : opt.diffTo = opt.diffFrom) (hf : opt.tableFilter = none) (hd : DistinctNames opt.diffFrom) :
    generate pf opt sched = some [] := by
  have hadd : addedTables opt = [] := by
    apply List.eq_nil_iff_forall_not_mem.2
    intro t ht
    obtain ⟨h1, _, h2⟩ := mem_addedTables.1 ht
    rw [hself] at h1
    exact h2 (List.mem_map_of_mem h1)
  have hrem : removedTableNames opt = ⟨[]⟩ := by
    apply set_eq_empty
    intro n hn
    obtain ⟨h1, h2⟩ := mem_removedTableNames.1 hn
    rw [hself, hf] at h2
    exact h2 (by simpa [passes] using h1)
  have hren : tableRenames opt = ([], ⟨[]⟩) := by rw [tableRenames, hadd, hrem]; rfl
  have hkept : keptSets pf opt sched = some ((keptTables opt).map fun _ => []) := by
    unfold keptSets
    rw [mapM_some_iff, List.forall₂_map_right_iff, List.forall₂_same]
    rintro ⟨i, t, o⟩ he
    obtain ⟨h1, _, h2⟩ := mem_keptTables.1 he
    have ht : t ∈ opt.diffFrom.tables := hself ▸ List.mem_of_getElem? h1
    rw [Schema.tablesByName, lastBy_nodup hd.1 ht, Option.some.injEq] at h2
    subst h2
    exact tableSets_self pf _ (hs.2 i) _ _ _ (hd.2 _ ht)
  have hsn : sched.tables [] = [] := List.Perm.eq_nil (hs.1 [])
  rw [generate_eq, hkept]
  unfold createdSets
  simp only [hren, notRenamed, List.filterMap_nil, List.mapM_nil]
  simp [Lq.diffBlocks, hren, renamedPairs, hsn, slice_nil, fromSets, Lq.number]

/-! ### Examples -/

/-- A schema with a composite key, several unique columns and defaults. -/
def lqDemo : Schema :=
  { author := "me"ₛ
    tables := [
      { name := "user"ₛ, columns := [
        { name := "id"ₛ, type := "int64"ₛ, primaryKey := true, notNull := true, autoIncremental := true },
        { name := "name"ₛ, type := "varchar"ₛ, size := 40, uniqueKey := true, notNull := true },
        { name := "active"ₛ, type := "boolean"ₛ, defaultValue := "true"ₛ }] },
      { name := "member"ₛ, columns := [
        { name := "user"ₛ, type := "int64"ₛ, primaryKey := true },
        { name := "team"ₛ, type := "int64"ₛ, primaryKey := true },
        { name := "a"ₛ, type := "decimal"ₛ, size := 10, scale := 2, defaultValue := "1.5"ₛ, uniqueKey := true },
        { name := "b"ₛ, type := "date"ₛ, uniqueKey := true }] }] }

/-- The changelog of the example has five change sets. -/
example : (generateAll some { uniqueNameSuffix := "_uq"ₛ } lqDemo).map (fun l => l.map (·.id)) =
    some ["1-1"ₛ, "1-2"ₛ, "2-1"ₛ, "2-2"ₛ, "2-3"ₛ] := by decide +kernel

/-- A later version: `name` is renamed, columns are added in the middle and at the end, a table goes and
one comes. -/
def lqDemo2 : Schema :=
  { author := "me"ₛ
    tables := [
      { name := "user"ₛ, columns := [
        { name := "id"ₛ, type := "int64"ₛ, primaryKey := true, notNull := true, autoIncremental := true },
        { name := "age"ₛ, type := "int32"ₛ },
        { name := "name"ₛ, type := "varchar"ₛ, size := 80, uniqueKey := true, notNull := true },
        { name := "nick"ₛ, type := "varchar"ₛ, size := 80, uniqueKey := true },
        { name := "active"ₛ, type := "boolean"ₛ, defaultValue := "false"ₛ },
        { name := "score"ₛ, type := "double"ₛ, defaultValue := "0"ₛ }] },
      { name := "team"ₛ, columns := [{ name := "id"ₛ, type := "int64"ₛ, primaryKey := true }] }] }

def lqDemoDiff : DiffOption := { diffFrom := lqDemo, diffTo := lqDemo2, uniqueNameSuffix := "_uq"ₛ }

example : (generate some lqDemoDiff idSched).map (fun l => l.map (fun s => (s.id, s.changes.length))) =
    some [("1-1"ₛ, 1), ("1-2"ₛ, 1), ("1-3"ₛ, 1), ("1-4"ₛ, 1), ("1-5"ₛ, 1), ("2"ₛ, 1), ("3-1"ₛ, 1)] := by decide +kernel

/-- The added columns and their places. -/
example : ((generate some lqDemoDiff idSched).getD []).flatMap (fun s => s.changes.filterMap fun
      | .addColumn n lcs => some (n, lcs.map fun lc => (lc.name, lc.afterColumn))
      | _ => none) =
    [("user"ₛ, [("age"ₛ, "id"ₛ), ("nick"ₛ, "name"ₛ), ("score"ₛ, "active"ₛ)])] := by decide +kernel

/-- It meets the hypotheses of `C41_drop_unique_partial`, `C42_not_empty_partial`, `C43_diff_partial`,
`C44_placement` and `C44_order_partial`. -/
example : idSched.Fair ∧ (∀ t ∈ lqDemo2.tables, (t.columns.map (·.name)).Nodup) ∧
    (∀ t ∈ lqDemo2.tables, ∀ o ∈ lqDemo.tables, o.name = t.name → HasUnique o → HasUnique t) ∧
    .dropUniqueConstraint "user"ₛ "user_uq"ₛ ∈ changesIn ((generate some lqDemoDiff idSched).getD []) := by
  refine ⟨idSched_fair, by decide, ?_, by decide +kernel⟩
  unfold HasUnique
  decide

/-! ### Violations -/

def oneTable (n : Str) (cs : List Column) : Schema := { tables := [{ name := n, columns := cs }] }

/-- C41 is violated: a table that gets its first unique column has its (missing) constraint dropped. -/
theorem C41_violated : ∃ (opt : DiffOption) (sets : List LqChangeSet), generate some opt idSched = some sets ∧
    ∃ n k, .dropUniqueConstraint n k ∈ changesIn sets ∧ ∀ o ∈ opt.diffFrom.tables, ¬HasUnique o := by
  refine ⟨{ diffFrom := oneTable "t"ₛ [{ name := "a"ₛ, type := "int32"ₛ }]
            diffTo := oneTable "t"ₛ [{ name := "a"ₛ, type := "int32"ₛ, uniqueKey := true }]
            uniqueNameSuffix := "_uq"ₛ }, _, rfl, "t"ₛ, "t_uq"ₛ, by decide +kernel, ?_⟩
  unfold HasUnique
  decide

/-- C42 is violated: a table that loses its last unique column yields a change set without changes. -/
theorem C42_violated : ∃ (opt : DiffOption) (sets : List LqChangeSet), generate some opt idSched = some sets ∧
    ∃ s ∈ sets, s.changes = [] := by
  refine ⟨{ diffFrom := oneTable "t"ₛ [{ name := "a"ₛ, type := "int32"ₛ, uniqueKey := true }]
            diffTo := oneTable "t"ₛ [{ name := "a"ₛ, type := "int32"ₛ }]
            uniqueNameSuffix := "_uq"ₛ }, _, rfl, ?_⟩
  decide +kernel

/-- C43 is violated: the default of an integer column is not given as a number, whatever the default. -/
theorem C43_violated (pf : Str → Option Str) (v : Str) (hv : v ≠ []) :
    ∃ sets, generateAll pf {} (oneTable "t"ₛ [{ name := "a"ₛ, type := "int32"ₛ, defaultValue := v }]) = some sets ∧
      ∃ lc, .createTable "t"ₛ [] [lc] ∈ changesIn sets ∧ kindsOf lc.default = [.text] ∧
      ¬DefaultGiven pf numericTypes { name := "a"ₛ, type := "int32"ₛ, defaultValue := v } lc.default := by
  cases v with
  | nil => exact absurd rfl hv
  | cons x v =>
    refine ⟨_, rfl, _, List.mem_cons_self, rfl, ?_⟩
    intro h
    obtain ⟨y, _, h2⟩ := (h.2 hv).2.1 (show lower "int32"ₛ ∈ numericTypes by decide)
    have h3 : (none : Option Num) = some (.float y) := congrArg DefaultValue.numeric h2
    cases h3

/-- C43 is violated: a function as default of a decimal column aborts the generation, and for other types
it is given as text. -/
theorem C43_violated_function (pf : Str → Option Str) (hpf : pf "fn::NOW"ₛ = none) :
    generateAll pf {} (oneTable "t"ₛ [{ name := "a"ₛ, type := "decimal"ₛ, defaultValue := "fn::NOW"ₛ }]) = none ∧
    ∃ sets, generateAll pf {} (oneTable "t"ₛ [{ name := "a"ₛ, type := "varchar"ₛ, defaultValue := "fn::NOW"ₛ }]) = some sets ∧
      ∃ lc, .createTable "t"ₛ [] [lc] ∈ changesIn sets ∧ lc.default = { text := "fn::NOW"ₛ } := by
  constructor
  · have : newLqDefaultValue pf { name := "a"ₛ, type := "decimal"ₛ, defaultValue := "fn::NOW"ₛ } = none := by
      have e : newLqDefaultValue pf { name := "a"ₛ, type := "decimal"ₛ, defaultValue := "fn::NOW"ₛ } =
          (pf "fn::NOW"ₛ).map fun x => { numeric := some (.float x) } := rfl
      rw [e, hpf]; rfl
    have e : ∀ b b', newLqColumn pf { name := "a"ₛ, type := "decimal"ₛ, defaultValue := "fn::NOW"ₛ } b b' = none := by
      intro b b'
      unfold newLqColumn
      dsimp only
      rw [if_pos (by decide), this]; rfl
    rw [generateAll_eq]
    have h2 : createColumns pf { name := "t"ₛ, columns := [{ name := "a"ₛ, type := "decimal"ₛ, defaultValue := "fn::NOW"ₛ }] }
        false = none := by
      unfold createColumns
      rw [List.mapM_cons, e]; rfl
    have h3 : createSets pf [] false
        { name := "t"ₛ, columns := [{ name := "a"ₛ, type := "decimal"ₛ, defaultValue := "fn::NOW"ₛ }] } = none := by
      unfold createSets
      rw [h2]; rfl
    show (List.mapM (createSets pf [] false) [_] : Option _).map _ = none
    rw [List.mapM_cons, h3]; rfl
  · exact ⟨_, rfl, _, List.mem_cons_self, rfl⟩

/-- C44 is violated: a column added in front of all others has no placement, and ends up last. -/
theorem C44_violated : ∃ (opt : DiffOption) (sets : List LqChangeSet), generate some opt idSched = some sets ∧
    ∃ lc, .addColumn "t"ₛ [lc] ∈ changesIn sets ∧
      opt.diffTo.tables.map (fun t => t.columns.map (·.name)) = [["a"ₛ, "b"ₛ]] ∧
      opt.diffFrom.tables.map (fun t => t.columns.map (·.name)) = [["b"ₛ]] ∧
      placeAfter ["b"ₛ] lc.name lc.afterColumn = ["b"ₛ, "a"ₛ] := by
  refine ⟨{ diffFrom := oneTable "t"ₛ [{ name := "b"ₛ, type := "int32"ₛ }]
            diffTo := oneTable "t"ₛ [{ name := "a"ₛ, type := "varchar"ₛ }, { name := "b"ₛ, type := "int32"ₛ }] },
          _, rfl, _, List.mem_cons_self, by decide, by decide, by decide +kernel⟩

/-- C37, C38, C42 and C43 for the demo: a changelog is generated, and it creates two tables. -/
example := C37_complete some { uniqueNameSuffix := "_uq"ₛ } lqDemo _ rfl

example := C38_generated some { uniqueNameSuffix := "_uq"ₛ } lqDemo _ rfl

example := C38_diff some lqDemoDiff idSched _ rfl

example := C42_generated some { uniqueNameSuffix := "_uq"ₛ } lqDemo _ rfl

example := C43_generated_partial some { uniqueNameSuffix := "_uq"ₛ } lqDemo _ rfl _ _ _ (.head _)

/-- C37: a list of two names, and a schema without numeric default values. -/
example : Lists (fun n => n = "a"ₛ ∨ n = "b"ₛ) "a, b"ₛ ∧ ∀ n, n = "a"ₛ ∨ n = "b"ₛ → CleanName n := by
  refine ⟨⟨["a"ₛ, "b"ₛ], by decide, fun n => by rw [List.mem_pair], rfl⟩, ?_⟩
  rintro n (rfl | rfl)
  · unfold CleanName; decide
  · unfold CleanName; decide

example := C37_succeeds (fun _ => none) {} (oneTable "t"ₛ [{ name := "a"ₛ, type := "varchar"ₛ, defaultValue := "x"ₛ }]) (by decide)

/-- C43: a default value, and a parser that rejects the text of a function. -/
example := C43_violated some "1"ₛ (by decide)

example := C43_violated_function (fun _ => none) rfl

end Octo
