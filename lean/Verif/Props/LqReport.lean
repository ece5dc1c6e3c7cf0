import Verif.Props.DiffValues
import Verif.Lemmas.Liquibase
import Verif.Props.Liquibase

/-! Property C148: the changelog does what the report of the diff says. -/

namespace Octo
open Spec
namespace Spec

/-- What happens to a table or column, by name. -/
inductive Event
  | createTable (table : Str)
  | dropTable (table : Str)
  | renameTable (old new : Str)
  | dropColumn (table column : Str)
  | renameColumn (table old new : Str)
  | retype (table column : Str)
  | tableRemarks (table : Str)
  | columnRemarks (table column : Str)
  | default (table column : Str)
  deriving DecidableEq, Repr

/-- The event a reported change announces. -/
def reported : Change → Option Event
  | .createTable t => some (.createTable t.name)
  | .dropTable t => some (.dropTable t.name)
  | .renameTable o n => some (.renameTable o.name n.name)
  | .dropColumn t c => some (.dropColumn t.name c)
  | .renameColumn t o n => some (.renameColumn t.name o.name n.name)
  | .changeColumnType t _ c => some (.retype t.name c.name)
  | .setTableComment t => some (.tableRemarks t.name)
  | .setColumnComment t c => some (.columnRemarks t.name c.name)
  | .setDefaultValue t c => some (.default t.name c.name)
  | _ => none

/-- The event a change of a changelog brings about. -/
def performed : Lq.LqChange → Option Event
  | .createTable t _ _ => some (.createTable t)
  | .dropTable t => some (.dropTable t)
  | .renameTable n o => some (.renameTable o n)
  | .dropColumn t c => some (.dropColumn t c)
  | .renameColumn t n o _ => some (.renameColumn t o n)
  | .modifyDataType t c _ => some (.retype t c)
  | .setTableRemarks t _ => some (.tableRemarks t)
  | .setColumnRemarks t c _ => some (.columnRemarks t c)
  | .addDefaultValue t c _ _ => some (.default t c)
  | .dropDefaultValue t c _ => some (.default t c)
  | _ => none

/-- The events of a changelog, in order. -/
def changelogEvents (sets : List Lq.LqChangeSet) : List Event :=
  sets.flatMap fun s => s.changes.filterMap performed

end Spec

namespace Lq

def setsEvents (ps : Sets) : List Event := ps.flatMap fun p => p.2.filterMap performed

theorem setsEvents_append (a b : Sets) : setsEvents (a ++ b) = setsEvents a ++ setsEvents b := List.flatMap_append

theorem setsEvents_flatMap {α : Type} (f : α → Sets) (l : List α) :
    setsEvents (l.flatMap f) = l.flatMap fun a => setsEvents (f a) := List.flatMap_assoc

theorem setsEvents_flatten (l : List Sets) : setsEvents l.flatten = l.flatMap setsEvents := by
  induction l with
  | nil => rfl
  | cons a l ih => rw [List.flatten_cons, setsEvents_append, ih, List.flatMap_cons]

theorem setsEvents_when (b : Bool) (cs : List LqChange) :
    setsEvents (whenS b cs) = if b then cs.filterMap performed else [] := by
  cases b
  · rfl
  · exact List.append_nil _

def blockEvents (b : LqBlock) : List Event := setsEvents (b.map Prod.snd)

theorem blockEvents_fromSets (k : Nat) (ps : Sets) : blockEvents (fromSets k ps) = setsEvents ps := by
  have : ∀ k, (fromSets k ps).map Prod.snd = ps := by
    induction ps with
    | nil => intro k; rfl
    | cons p ps ih => intro k; simp [fromSets, ih]
  rw [blockEvents, this]

theorem changelogEvents_number (author : Str) (m : Nat) (bs : List LqBlock) :
    changelogEvents (number author m bs) = bs.flatMap blockEvents := by
  induction bs generalizing m with
  | nil => rfl
  | cons b bs ih =>
    rw [number, changelogEvents, List.flatMap_append, List.flatMap_cons]
    refine congr (congrArg _ ?_) (ih _)
    simp [stamp, blockEvents, setsEvents, List.flatMap_map]

theorem flatMap_full (bs : List LqBlock) :
    (bs.filter (fun b => !b.isEmpty)).flatMap blockEvents = bs.flatMap blockEvents := by
  induction bs with
  | nil => rfl
  | cons b bs ih =>
    cases b with
    | nil => exact ih
    | cons x b => simp [ih]

theorem filterMap_when {α β : Type} (f : α → Option β) (b : Bool) (l : List α) :
    (if b then l else []).filterMap f = if b then l.filterMap f else [] := by
  cases b <;> rfl

/-- The events of a column that stays. -/
theorem columnSets_events {pf : Str → Option Str} {t : Table} {c o : Column} {uc : Bool} {ps : Sets}
    (hn : c.name = o.name) (h : columnSets pf t c o uc = some ps) :
    setsEvents ps = (columnChanges t c o uc).filterMap reported := by
  obtain ⟨d, hd, rfl⟩ := Option.map_eq_some_iff.1 h
  rw [columnChanges_eq t c o uc hn, setsEvents_append, attrSets]
  simp only [setsEvents_append, setsEvents_when, List.filterMap_append, filterMap_when]
  have h1 : (c.name != o.name) = false := by rw [hn]; simp
  have h2 : setsEvents d = if c.defaultValue != o.defaultValue then [Event.default t.name c.name] else [] := by
    rw [defaultSets] at hd
    split at hd
    · rename_i hne
      rw [if_pos hne]
      split at hd
      · cases hd; rfl
      · obtain ⟨ch, h3, rfl⟩ := Option.map_eq_some_iff.1 hd
        obtain ⟨dv, _, rfl⟩ := Option.map_eq_some_iff.1 h3
        rfl
    · rename_i hne
      rw [if_neg hne]
      cases hd; rfl
  have h3 : ([if c.notNull = true then LqChange.addNotNullConstraint t.name c.name (getLiquibaseType c) c.defaultValue
      else LqChange.dropNotNullConstraint t.name c.name (getLiquibaseType c)].filterMap performed) = [] := by
    cases c.notNull <;> rfl
  have e1 : ([Change.setNotNull t c].filterMap reported) = [] := rfl
  have e2 : ([Change.setAutoIncrement t c].filterMap reported) = [] := rfl
  have e3 : ([LqChange.addAutoIncrement t.name c.name (getLiquibaseType c)].filterMap performed) = [] := rfl
  rw [h1, h2, h3, e1, e2, e3]
  simp only [ite_self, Bool.false_eq_true, if_false, List.nil_append, List.append_nil, List.append_assoc]
  rfl

theorem forall₂_flatMap {α β γ : Type} {R : α → β → Prop} {l : List α} {r : List β} (h : List.Forall₂ R l r)
    (f : α → List γ) (g : β → List γ) (hfg : ∀ a ∈ l, ∀ b, R a b → g b = f a) : r.flatMap g = l.flatMap f := by
  induction h with
  | nil => rfl
  | cons h1 _ ih =>
    rw [List.flatMap_cons, List.flatMap_cons, hfg _ List.mem_cons_self _ h1,
      ih fun a ha => hfg a (List.mem_cons_of_mem _ ha)]

theorem flatMap_single {α β : Type} (l : List α) (f : α → β) : (l.flatMap fun a => [f a]) = l.map f := by
  induction l with
  | nil => rfl
  | cons a l ih => rw [List.flatMap_cons, ih]; rfl

/-- The events of a table that stays. -/
theorem tableSets_events {pf : Str → Option Str} {sched : List (Column × Column) → List (Column × Column)}
    {t o : Table} {uc : Bool} {suffix : Str} {ps : Sets} (h : tableSets pf sched t o uc suffix = some ps) :
    setsEvents ps = (tableChanges sched t o uc suffix).filterMap reported := by
  obtain ⟨cs, hcs, h⟩ := Option.bind_eq_some_iff.1 h
  obtain ⟨add, hadd, rfl⟩ := Option.map_eq_some_iff.1 h
  have h1 : setsEvents cs.flatten = ((keptColumns t o).flatMap fun p => columnChanges t p.1 p.2 uc).filterMap reported := by
    rw [setsEvents_flatten, List.filterMap_flatMap]
    exact forall₂_flatMap (mapM_some_iff.1 hcs) _ _ fun p hp b hb => columnSets_events (keptColumns_name hp) hb
  have h2 : setsEvents add = [] := by
    rw [addSets] at hadd
    split at hadd
    · obtain ⟨ch, h3, rfl⟩ := Option.map_eq_some_iff.1 hadd
      obtain ⟨lcs, _, rfl⟩ := Option.map_eq_some_iff.1 h3
      rfl
    · cases hadd; rfl
  have h3 : setsEvents (endSets t o suffix) = [] := by
    rw [endSets, setsEvents_append, setsEvents_when, setsEvents_when, pkChanges, uqChanges]
    have a1 : ((if o.primaryKeyNameSet.size > 0 then [LqChange.dropPrimaryKey t.name] else []) ++
        (if t.primaryKeyNameSet.size > 0 then [LqChange.addPrimaryKey t.name (t.primaryKeyNameSet.joinKeys ", "ₛ)]
          else [])).filterMap performed = [] := by
      split <;> split <;> rfl
    have a2 : (if t.uniqueKeyNameSet.size > 0 then [LqChange.addUniqueConstraint t.name
        (t.uniqueKeyNameSet.joinKeys ", "ₛ) (t.name ++ suffix)] else []).filterMap performed = [] := by
      split <;> rfl
    rw [a1, a2]
    split <;> split <;> rfl
  have h4 : setsEvents ((sched (renamedPairs (columnRenames t o uc).1)).flatMap (renameSets t)) =
      (sched (renamedPairs (columnRenames t o uc).1)).map fun p => Event.renameColumn t.name p.2.name p.1.name := by
    rw [setsEvents_flatMap, ← flatMap_single]
    refine congrArg (fun f => List.flatMap f _) (funext fun p => ?_)
    rw [renameSets]
    cases p.2.notNull <;> rfl
  have h5 : setsEvents ((columnRenames t o uc).2.slice.map fun n => (false, [LqChange.dropColumn t.name n])) =
      (columnRenames t o uc).2.slice.map fun n => Event.dropColumn t.name n := by
    rw [setsEvents, List.flatMap_map, ← flatMap_single]
    rfl
  rw [setsEvents_append, setsEvents_append, setsEvents_append, setsEvents_append, h1, h2, h3, midSets,
    setsEvents_append, setsEvents_append, h4, h5, setsEvents_when, setsEvents_when, tableChanges_eq]
  simp only [List.filterMap_append, filterMap_when, List.filterMap_map, List.append_nil]
  have e1 : ([LqChange.dropUniqueConstraint t.name (t.name ++ suffix)].filterMap performed) = [] := rfl
  have e2 : ([Change.dropUnique (t.name ++ suffix) o].filterMap reported) = [] := rfl
  have e3 : ([Change.updatePrimaryKey o t].filterMap reported) = [] := rfl
  have e4 : ([Change.createUnique (t.name ++ suffix) t].filterMap reported) = [] := rfl
  rw [e1, e2, e3, e4]
  simp only [ite_self, List.nil_append, List.append_nil]
  have e5 : (reported ∘ fun n => Change.dropColumn t n) = fun n => some (Event.dropColumn t.name n) := rfl
  have e6 : (reported ∘ fun p : Column × Column => Change.renameColumn t p.2 p.1) =
      fun p => some (Event.renameColumn t.name p.2.name p.1.name) := rfl
  rw [e5, e6, List.filterMap_eq_map', List.filterMap_eq_map']
  rfl

theorem createSets_events {pf : Str → Option Str} {suffix : Str} {uc : Bool} {t : Table} {ps : Sets}
    (h : createSets pf suffix uc t = some ps) : setsEvents ps = [Event.createTable t.name] := by
  obtain ⟨lcs, _, rfl⟩ := Option.map_eq_some_iff.1 h
  rw [show ∀ a (b c : Sets), a :: (b ++ c) = [a] ++ (b ++ c) from fun _ _ _ => rfl, setsEvents_append,
    setsEvents_append, setsEvents_when]
  have e1 : ([LqChange.addPrimaryKey t.name (t.primaryKeyNameSet.joinKeys ", "ₛ)].filterMap performed) = [] := rfl
  rw [e1, ite_self]
  split <;> rfl

theorem renameBlock_events (suffix : Str) (p : Table × Table) :
    blockEvents (renameBlock suffix p) = [Event.renameTable p.2.name p.1.name] := by
  rw [renameBlock]
  split <;> split <;> rfl

end Lq

/-- C148: the changelog of a diff creates, drops and renames the tables, drops and renames the columns,
changes the types, remarks and default values that the report of the diff announces, in the same
order – for the same two schemas, options and iteration orders. -/
theorem C148_events (pf : Str → Option Str) (opt : DiffOption) (sched : Sched) (sets : List Lq.LqChangeSet)
    (h : Lq.generate pf opt sched = some sets) :
    changelogEvents sets = (changesOf (getDiff opt sched)).filterMap reported := by
  rw [Lq.generate_eq] at h
  obtain ⟨ks, hks, h⟩ := Option.bind_eq_some_iff.1 h
  obtain ⟨cs, hcs, rfl⟩ := Option.map_eq_some_iff.1 h
  rw [Lq.changelogEvents_number, Lq.diffBlocks, changesOf_eq, allChanges_eq]
  simp only [List.flatMap_append, List.filterMap_append, Lq.flatMap_full]
  have h1 : (ks.map (Lq.fromSets 0)).flatMap Lq.blockEvents = ((keptTables opt).flatMap fun e =>
      tableChanges (sched.columns e.1) e.2.1 e.2.2 opt.useComments opt.uniqueNameSuffix).filterMap reported := by
    rw [List.flatMap_map, List.filterMap_flatMap]
    refine Lq.forall₂_flatMap (Lq.mapM_some_iff.1 hks) _ _ fun e _ b hb => ?_
    rw [Lq.blockEvents_fromSets]
    exact Lq.tableSets_events hb
  have h2 : ((tableRenames opt).2.slice.map Lq.dropBlock).flatMap Lq.blockEvents =
      (((tableRenames opt).2.slice.filterMap opt.diffFrom.tablesByName).map Change.dropTable).filterMap reported := by
    have hex : ∀ n ∈ (tableRenames opt).2.slice, ∃ t, opt.diffFrom.tablesByName n = some t ∧ t.name = n := by
      intro n hn
      have h3 := (mem_removedTableNames.1 (findRenames_rest_subset _ _ _ _ _ ((slice_perm _).mem_iff.1 hn))).1
      obtain ⟨t, ht⟩ := Option.isSome_iff_exists.1 (lastBy_isSome.2 h3)
      exact ⟨t, ht, (lastBy_some ht).2⟩
    rw [List.flatMap_map]
    generalize (tableRenames opt).2.slice = l at hex
    induction l with
    | nil => rfl
    | cons n l ih =>
      obtain ⟨t, ht, rfl⟩ := hex n List.mem_cons_self
      rw [List.flatMap_cons, ih fun m hm => hex m (List.mem_cons_of_mem _ hm), List.filterMap_cons_some ht]
      rfl
  have h3 : ((sched.tables (renamedPairs (tableRenames opt).1)).map (Lq.renameBlock opt.uniqueNameSuffix)).flatMap
      Lq.blockEvents = ((sched.tables (renamedPairs (tableRenames opt).1)).flatMap
        fun p => blockChanges (renameBlock opt.uniqueNameSuffix p)).filterMap reported := by
    rw [List.flatMap_map, List.filterMap_flatMap]
    refine congrArg (fun f => List.flatMap f _) (funext fun p => ?_)
    rw [Lq.renameBlock_events, renameBlock_changes]
    split <;> split <;> rfl
  have h4 : (cs.map (Lq.fromSets 0)).flatMap Lq.blockEvents =
      ((notRenamed (tableRenames opt).1).map Change.createTable).filterMap reported := by
    rw [List.flatMap_map, List.filterMap_map]
    rw [show (reported ∘ Change.createTable) = fun t => some (Event.createTable t.name) from rfl,
      List.filterMap_eq_map', ← Lq.flatMap_single]
    refine Lq.forall₂_flatMap (Lq.mapM_some_iff.1 hcs) _ _ fun t _ b hb => ?_
    rw [Lq.blockEvents_fromSets]
    exact Lq.createSets_events hb
  rw [h1, h2, h3, h4]

namespace Spec

/-- Where the value of a cell is found after an event. -/
def eventStep : Event → Str × Str → Option (Str × Str)
  | .dropTable t, x => if t = x.1 then none else some x
  | .renameTable o t, x => if o = x.1 then some (t, x.2) else some x
  | .dropColumn t d, x => if t = x.1 ∧ d = x.2 then none else some x
  | .renameColumn t o c, x => if t = x.1 ∧ o = x.2 then some (x.1, c) else some x
  | _, x => some x

/-- Where the value of a cell is found after a list of events. -/
def eventsAfter : List Event → Str × Str → Option (Str × Str)
  | [], x => some x
  | e :: es, x => (eventStep e x).bind (eventsAfter es)

end Spec

theorem cellAfter_events (cs : List Change) (x : Str × Str) :
    cellAfter cs x = eventsAfter (cs.filterMap reported) x := by
  induction cs generalizing x with
  | nil => rfl
  | cons c cs ih =>
    rw [cellAfter]
    have h : ∀ e, reported c = some e → (cellStep c x).bind (cellAfter cs) =
        eventsAfter ((c :: cs).filterMap reported) x := by
      intro e he
      rw [List.filterMap_cons_some he, eventsAfter]
      have : cellStep c x = eventStep e x := by
        cases c <;> simp only [reported] at he <;> cases he <;> rfl
      rw [this]
      exact congrArg _ (funext ih)
    have h0 : reported c = none → (cellStep c x).bind (cellAfter cs) =
        eventsAfter ((c :: cs).filterMap reported) x := by
      intro he
      rw [List.filterMap_cons_none he]
      have : cellStep c x = some x := by
        cases c <;> first | rfl | exact absurd he (Option.some_ne_none _)
      rw [this]
      exact ih x
    cases he : reported c with
    | none => exact h0 he
    | some e => exact h e he

/-- C148: every value ends up in the same place by the changelog as by the reported changes; so C146 and
C147 hold for the changelogs of both directions as well. -/
theorem C148_values (pf : Str → Option Str) (opt : DiffOption) (sched : Sched) (sets : List Lq.LqChangeSet)
    (h : Lq.generate pf opt sched = some sets) (x : Str × Str) :
    eventsAfter (changelogEvents sets) x = cellAfter (changesOf (getDiff opt sched)) x := by
  rw [C148_events pf opt sched sets h, cellAfter_events]

/-- The events of the running example. -/
example : ∃ sets, Lq.generate (fun _ => none) exOpt idSched = some sets ∧
    changelogEvents sets = [.retype "user"ₛ "name"ₛ, .renameColumn "user"ₛ "age"ₛ "years"ₛ, .dropTable "old"ₛ,
      .renameTable "log"ₛ "journal"ₛ, .createTable "new"ₛ] := by
  refine ⟨(Lq.generate (fun _ => none) exOpt idSched).get (by decide +kernel), by rw [Option.some_get], ?_⟩
  decide +kernel

end Octo
