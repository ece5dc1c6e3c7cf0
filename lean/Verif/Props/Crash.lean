import Verif.Spec.Crash
import Verif.Lemmas.CliDemo
import Verif.Lemmas.JpaRepository
import Verif.Props.Common
import Verif.Props.Protobuf
import Verif.Props.Cli
import Verif.Props.MysqlImport

/-! Property C130: when commands crash. -/

namespace Octo.Cli
open Spec

theorem passes_groups (groups : Str) (t : Table) : passes (getTableFilterFn groups) t = true ↔ InGroups groups t := by
  unfold getTableFilterFn InGroups
  by_cases h : groups = []
  · rw [if_pos h]
    exact ⟨fun _ => .inl h, fun _ => rfl⟩
  · rw [if_neg h]
    show ((split ',' groups).any fun g => t.group == g) = true ↔ _
    rw [List.any_eq_true]
    constructor
    · rintro ⟨g, hg, e⟩
      exact .inr (beq_iff_eq.1 e ▸ hg)
    · rintro (e | hg)
      · exact absurd e h
      · exact ⟨_, hg, beq_iff_eq.2 rfl⟩

theorem prefix_none (o : Str) : newPrefixMapper o = none ↔ MixedOption o := by
  rw [← Option.isNone_iff_eq_none]
  exact (C15_panic_iff o).1

theorem annotation_none (o : Str) : newAnnotationMapper o = none ↔ MixedOption o := by
  rw [← Option.isNone_iff_eq_none]
  exact (C15_panic_iff o).2

theorem status_write (w : World) (fs : Files) (p : Path) (c : Content) : (write w fs p c).status = .ok ∨ (write w fs p c).status = .error := by
  unfold write
  split
  · exact .inl rfl
  · exact .inr rfl

theorem status_writeIn (w : World) (fs : Files) (exts : List Str) (out name text : Str) :
    (writeIn w fs exts out name text).status = .ok ∨ (writeIn w fs exts out name text).status = .error := by
  unfold writeIn
  split
  · exact status_write ..
  · split
    · exact status_write ..
    · exact .inr rfl

theorem status_writeAll (w : World) (st : Status) (l : List (Path × Content)) (fs : Files) :
    (writeAll w st fs l).status = st ∨ (writeAll w st fs l).status = .error := by
  induction l generalizing fs with
  | nil => exact .inl rfl
  | cons p l ih =>
    unfold writeAll
    split
    · exact ih _
    · exact .inr rfl

theorem status_writeAll_of {w : World} (hw : ∀ p, w.writable p = true) (st : Status) (l : List (Path × Content)) (fs : Files) :
    (writeAll w st fs l).status = st := by
  induction l generalizing fs with
  | nil => rfl
  | cons p l ih =>
    unfold writeAll
    rw [if_pos (hw _)]
    exact ih _

/-- No status of a write. -/
theorem not_crash {r : Result} (h : r.status = .ok ∨ r.status = .error) {st : Status} (h1 : st ≠ .ok) (h2 : st ≠ .error) : r.status ≠ st := by
  rcases h with h | h
  · rw [h]; exact h1.symm
  · rw [h]; exact h2.symm

theorem status_withSchema (w : World) (fs : Files) (f : Str) (k : Schema → Result) {st : Status} (h : st ≠ .error) :
    (withSchema w fs f k).status = st ↔ ∃ s, load w fs f = some s ∧ (k s).status = st := by
  unfold withSchema
  cases load w fs f with
  | none => exact ⟨fun e => absurd e.symm h, fun ⟨_, e, _⟩ => by cases e⟩
  | some s => exact ⟨fun e => ⟨s, rfl, e⟩, fun ⟨_, e, e'⟩ => by cases e; exact e'⟩

/-- C130: the commands that read schemas crash exactly when a prefix option mixes two forms, or when `generate pb` meets a reference
to a table that does not exist; all others never do. (For `generate kt` see below.) -/
theorem C130_crash (w : World) (c : Cmd) (hc : ReadsSchema c) (hk : c ≠ .kt) (v : Values) (fs : Files) :
    (action w c v fs).status = .panic ↔ ∃ s, load w fs (v "input"ₛ) = some s ∧ Crashes v s c := by
  have hp : Status.panic ≠ .error := by decide
  have hw : ∀ (k : Schema → Result), (∀ s, (k s).status ≠ .panic) → (withSchema w fs (v "input"ₛ) k).status ≠ .panic := by
    intro k hk h
    obtain ⟨s, _, e⟩ := (status_withSchema w fs _ k hp).1 h
    exact hk s e
  have hw2 : ∀ (k : Schema → Schema → Result), (∀ a b, (k a b).status ≠ .panic) → (withSchemas w v fs k).status ≠ .panic := by
    intro k hk h
    obtain ⟨a, _, e⟩ := (status_withSchema w fs _ _ hp).1 h
    obtain ⟨b, _, e⟩ := (status_withSchema w fs _ _ hp).1 e
    exact hk a b e
  have hwrite : ∀ p x, (write w fs p x).status ≠ .panic := fun p x => not_crash (status_write w fs p x) (by decide) hp
  have hwriteIn : ∀ e o n x, (writeIn w fs e o n x).status ≠ .panic := fun e o n x => not_crash (status_writeIn w fs e o n x) (by decide) hp
  have hfalse : ∀ {P : Prop}, ¬P → (P ↔ ∃ s, load w fs (v "input"ₛ) = some s ∧ False) :=
    fun h => ⟨fun p => absurd p h, fun ⟨_, _, f⟩ => f.elim⟩
  have hprefix : ∀ (k : Schema → PrefixMapper → Result), (∀ s m, (k s m).status ≠ .panic) →
      ((withSchema w fs (v "input"ₛ) fun s => match newPrefixMapper (v "prefix"ₛ) with
        | none => ⟨fs, .panic⟩
        | some m => k s m).status = .panic ↔ ∃ s, load w fs (v "input"ₛ) = some s ∧ MixedOption (v "prefix"ₛ)) := by
    intro k hk
    rw [status_withSchema w fs _ _ hp]
    refine exists_congr fun s => and_congr_right fun _ => ?_
    rw [← prefix_none]
    cases newPrefixMapper (v "prefix"ₛ) with
    | none => exact ⟨fun _ => rfl, fun _ => rfl⟩
    | some m => exact ⟨fun e => absurd e (hk s m), fun e => by cases e⟩
  cases c with
  | init => exact absurd (List.mem_of_getElem? (i := 0) rfl) hc
  | importMysql => exact absurd (List.mem_of_getElem? (i := 1) rfl) hc
  | importOjson => exact absurd (List.mem_of_getElem? (i := 2) rfl) hc
  | importStaruml => exact absurd (List.mem_of_getElem? (i := 3) rfl) hc
  | importXlsx => exact absurd (List.mem_of_getElem? (i := 4) rfl) hc
  | kt => exact absurd rfl hk
  | exportDbml => exact hfalse (hw _ fun s => hwrite _ _)
  | exportQuickdbd => exact hfalse (hw _ fun s => hwrite _ _)
  | exportMysql => exact hfalse (hw _ fun s => hwrite _ _)
  | exportXlsx =>
    refine hfalse (hw _ fun s => ?_)
    split
    · exact hp.symm
    · exact hwrite _ _
  | gorm => exact hprefix _ fun s m => hwriteIn _ _ _ _
  | graphql =>
    refine hprefix _ fun s m => ?_
    dsimp only
    split
    · exact hwrite _ _
    · exact hp.symm
  | liquibase =>
    refine hfalse (hw _ fun s => ?_)
    split
    · exact hp.symm
    · exact hwrite _ _
  | plantuml => exact hfalse (hw _ fun s => hwriteIn _ _ _ _)
  | pb =>
    show (pbAction w v fs).status = .panic ↔ _
    unfold pbAction
    rw [status_withSchema w fs _ _ hp]
    refine exists_congr fun s => and_congr_right fun _ => ?_
    show _ ↔ MixedOption (v "prefix"ₛ) ∨ DanglingReference (v "groups"ₛ) s
    rw [← prefix_none]
    unfold Protobuf.cliOption
    cases newPrefixMapper (v "prefix"ₛ) with
    | none => exact ⟨fun _ => .inl rfl, fun _ => rfl⟩
    | some m =>
      dsimp only [Option.map]
      have key := C80_panics_iff w.sc
        { prefixMapper := some m, tableFilter := getTableFilterFn (v "groups"ₛ), removePrefixes := split ',' (v "removePrefix"ₛ),
          package := v "package"ₛ, goPackage := v "goPackage"ₛ, relationTagStart := -1, relationTagDecr := false } s
      have hD : DanglingReference (v "groups"ₛ) s ↔ ∃ t ∈ Selected
          { prefixMapper := some m, tableFilter := getTableFilterFn (v "groups"ₛ), removePrefixes := split ',' (v "removePrefix"ₛ),
            package := v "package"ₛ, goPackage := v "goPackage"ₛ, relationTagStart := -1, relationTagDecr := false } s,
          ∃ r ∈ tableRefs t, ∀ u ∈ s.tables, u.name ≠ r.table := by
        have hsel : ∀ t : Table, ((getTableFilterFn (v "groups"ₛ)).map fun f => f t).getD true = true ↔ InGroups (v "groups"ₛ) t := by
          intro t
          rw [← passes_groups]
          unfold passes
          cases getTableFilterFn (v "groups"ₛ) <;> exact Iff.rfl
        unfold DanglingReference Selected tableRefs
        constructor
        · rintro ⟨t, h1, h2, c, h3, r, h4, h5⟩
          exact ⟨t, List.mem_filter.2 ⟨h1, (hsel t).2 h2⟩, r, List.mem_filterMap.2 ⟨c, h3, h4⟩, h5⟩
        · rintro ⟨t, h1, r, h2, h3⟩
          obtain ⟨h1, h1'⟩ := List.mem_filter.1 h1
          obtain ⟨c, h2, h2'⟩ := List.mem_filterMap.1 h2
          exact ⟨t, h1, (hsel t).1 h1', c, h2, r, h2', h3⟩
      rw [hD, ← key]
      split
      · rename_i e
        exact ⟨fun _ => .inr e, fun _ => rfl⟩
      · rename_i e
        refine ⟨fun h => absurd h (hwrite _ _), ?_⟩
        rintro (h | h)
        · cases h
        · rw [e] at h; cases h
  | sqlalchemy =>
    refine hprefix _ fun s m => ?_
    dsimp only
    split <;> split
    · exact not_crash (status_writeAll w .ok _ fs) (by decide) hp
    · exact hp.symm
    · exact not_crash (status_writeAll w .ok _ fs) (by decide) hp
    · exact hp.symm
  | diffFlyway => exact hfalse (hw2 _ fun a b => hwrite _ _)
  | diffLiquibase =>
    refine hfalse (hw2 _ fun a b => ?_)
    split
    · exact hp.symm
    · exact hwrite _ _
  | diffMd => exact hfalse (hw2 _ fun a b => hwrite _ _)

/-! ### `generate kt` -/

theorem entityText_none (sc : Strcase) (o : Jpa.KtOption) (s : Schema) (t : Table) :
    Jpa.entityText sc o (Jpa.newClasses sc o s) (Jpa.newClass sc o t) = none ↔
      o.relation = "VRelation"ₛ ∧ ∃ c ∈ t.columns, ∃ r, c.ref = some r ∧ (ktTarget sc o s r.table).getD [] = [] := by
  unfold Jpa.entityText
  rw [Option.map_eq_none_iff, mapM_eq_none]
  have hf : ∀ c : Column, Option.map (fun as => (Jpa.newField sc c, as)) (Jpa.fieldAnnotations sc o (Jpa.newClasses sc o s) (Jpa.newField sc c)) = none ↔
      o.relation = "VRelation"ₛ ∧ ∃ r, c.ref = some r ∧ (ktTarget sc o s r.table).getD [] = [] := by
    intro c
    unfold Jpa.fieldAnnotations
    dsimp only
    rw [Option.map_eq_none_iff, Option.map_eq_none_iff]
    unfold Jpa.relationAnnotation
    by_cases hv : o.relation = "VRelation"ₛ
    · rw [if_pos hv, show (Jpa.newField sc c).column = c from rfl]
      cases hr : c.ref with
      | none => exact ⟨fun e => (by cases e), fun ⟨_, _, e, _⟩ => (by cases e)⟩
      | some r =>
        dsimp only
        rw [Jpa.target_eq]
        by_cases ht : (ktTarget sc o s r.table).getD [] = []
        · rw [if_pos ht]
          exact ⟨fun _ => ⟨hv, r, rfl, ht⟩, fun _ => rfl⟩
        · rw [if_neg ht]
          exact ⟨fun e => (by cases e), fun ⟨_, r', e, h⟩ => (by cases e; exact absurd h ht)⟩
    · rw [if_neg hv]
      exact ⟨fun e => (by cases e), fun e => absurd e.1 hv⟩
  rw [show (Jpa.newClass sc o t).fields = t.columns.map (Jpa.newField sc) from rfl]
  constructor
  · rintro ⟨f, hm, e⟩
    obtain ⟨c, hc, rfl⟩ := List.mem_map.1 hm
    obtain ⟨h1, h2⟩ := (hf c).1 e
    exact ⟨h1, c, hc, h2⟩
  · rintro ⟨h1, c, hc, h2⟩
    exact ⟨_, List.mem_map_of_mem hc, (hf c).2 ⟨h1, h2⟩⟩

theorem kt_ending (stop : Jpa.Ending) (dir : List Str) (name : Jpa.KotlinClass → Str) (text : Jpa.KotlinClass → Option Str)
    (ks : List Jpa.KotlinClass) : (Jpa.writeAll stop dir name text ks).ending = stop ∧ (∃ k ∈ ks, text k = none) ∨
      (Jpa.writeAll stop dir name text ks).ending = .done ∧ ¬∃ k ∈ ks, text k = none := by
  by_cases h : ∃ k ∈ ks, text k = none
  · exact .inl ⟨Jpa.writeAll_stop stop dir name text ks h, h⟩
  · refine .inr ⟨?_, h⟩
    rw [Jpa.writeAll_done stop dir name text ks (fun k => (text k).getD []) fun k hk => ?_]
    cases e : text k with
    | none => exact absurd ⟨k, hk, e⟩ h
    | some t => rfl

/-- C130: how `generate kt` ends when nothing is in the way of writing. -/
theorem C130_kt (w : World) (hw : ∀ p, w.writable p = true) (hd : ∀ d, w.mkdir d = true) (v : Values) (fs : Files)
    (hn : ∀ s, load w fs (v "input"ₛ) = some s → ClassesNamed w.sc v s) :
    ((action w .kt v fs).status = .panic ↔ ∃ s, load w fs (v "input"ₛ) = some s ∧ Crashes v s .kt) ∧
    ((action w .kt v fs).status = .fatal ↔ ∃ s, load w fs (v "input"ₛ) = some s ∧ ¬MixedOption (v "prefix"ₛ) ∧
      ¬MixedOption (v "annotation"ₛ) ∧ KtStops v s) := by
  show ((ktAction w v fs).status = .panic ↔ _) ∧ ((ktAction w v fs).status = .fatal ↔ _)
  have hmk : ∀ out pkg, mkdirPackage w out pkg = true := fun out pkg => by unfold mkdirPackage; rw [hd]; exact Bool.or_true _
  unfold ktAction
  rw [status_withSchema w fs _ _ (by decide), status_withSchema w fs _ _ (by decide)]
  have main : ∀ s, load w fs (v "input"ₛ) = some s → ∀ r : Result, (match newAnnotationMapper (v "annotation"ₛ), newPrefixMapper (v "prefix"ₛ) with
      | some a, some m =>
        let o : Jpa.KtOption :=
          { annoMapper := a, prefixMapper := m, tableFilter := getTableFilterFn (v "groups"ₛ), idEntity := v "idEntity"ₛ
            package := v "package"ₛ, relation := v "relation"ₛ, removePrefixes := split ',' (v "removePrefix"ₛ)
            reposPackage := v "reposPackage"ₛ, uniqueNameSuffix := v "uniqueNameSuffix"ₛ }
        let classes := Jpa.newClasses w.sc o s
        if mkdirPackage w (v "output"ₛ) o.package then
          let entities := Jpa.generateEntities w.sc o classes (v "output"ₛ)
          let r := writeAll w (ktStatus entities.ending) fs (ktFiles entities)
          if r.status = .ok ∧ o.reposPackage ≠ [] then
            if mkdirPackage w (v "output"ₛ) o.reposPackage then
              let repositories := Jpa.generateRepositories o classes (v "output"ₛ)
              writeAll w (ktStatus repositories.ending) r.files (ktFiles repositories)
            else ⟨r.files, .error⟩
          else r
        else ⟨fs, .error⟩
      | _, _ => (⟨fs, .panic⟩ : Result)) = r →
      (r.status = .panic ↔ Crashes v s .kt) ∧
      (r.status = .fatal ↔ ¬MixedOption (v "prefix"ₛ) ∧ ¬MixedOption (v "annotation"ₛ) ∧ KtStops v s) := by
    intro s hl r hr
    have hn := hn s hl
    unfold Crashes
    dsimp only
    cases ha : newAnnotationMapper (v "annotation"ₛ) with
    | none =>
      rw [ha] at hr
      subst hr
      have := (annotation_none _).1 ha
      exact ⟨⟨fun _ => .inr (.inl this), fun _ => rfl⟩, ⟨fun e => (by cases e), fun e => absurd this e.2.1⟩⟩
    | some a =>
      cases hm : newPrefixMapper (v "prefix"ₛ) with
      | none =>
        rw [ha, hm] at hr
        subst hr
        have := (prefix_none _).1 hm
        exact ⟨⟨fun _ => .inl this, fun _ => rfl⟩, ⟨fun e => (by cases e), fun e => absurd this e.1⟩⟩
      | some m =>
        rw [ha, hm] at hr
        dsimp only at hr
        have n1 : ¬MixedOption (v "prefix"ₛ) := fun h => by rw [(prefix_none _).2 h] at hm; cases hm
        have n2 : ¬MixedOption (v "annotation"ₛ) := fun h => by rw [(annotation_none _).2 h] at ha; cases ha
        rw [hmk, hmk, if_pos rfl, if_pos rfl] at hr
        obtain ⟨o, ho⟩ : ∃ o : Jpa.KtOption,
            { annoMapper := a, prefixMapper := m, tableFilter := getTableFilterFn (v "groups"ₛ), idEntity := v "idEntity"ₛ
              package := v "package"ₛ, relation := v "relation"ₛ, removePrefixes := split ',' (v "removePrefix"ₛ)
              reposPackage := v "reposPackage"ₛ, uniqueNameSuffix := v "uniqueNameSuffix"ₛ } = o := ⟨_, rfl⟩
        replace hr : (if (writeAll w (ktStatus (Jpa.generateEntities w.sc o (Jpa.newClasses w.sc o s) (v "output"ₛ)).ending) fs
              (ktFiles (Jpa.generateEntities w.sc o (Jpa.newClasses w.sc o s) (v "output"ₛ)))).status = .ok ∧ o.reposPackage ≠ [] then
            writeAll w (ktStatus (Jpa.generateRepositories o (Jpa.newClasses w.sc o s) (v "output"ₛ)).ending)
              (writeAll w (ktStatus (Jpa.generateEntities w.sc o (Jpa.newClasses w.sc o s) (v "output"ₛ)).ending) fs
                (ktFiles (Jpa.generateEntities w.sc o (Jpa.newClasses w.sc o s) (v "output"ₛ)))).files
              (ktFiles (Jpa.generateRepositories o (Jpa.newClasses w.sc o s) (v "output"ₛ)))
          else writeAll w (ktStatus (Jpa.generateEntities w.sc o (Jpa.newClasses w.sc o s) (v "output"ₛ)).ending) fs
            (ktFiles (Jpa.generateEntities w.sc o (Jpa.newClasses w.sc o s) (v "output"ₛ)))) = r := by
          subst ho
          exact hr
        have hsel : ∀ t, t ∈ JpaSelected o s ↔ t ∈ s.tables ∧ InGroups (v "groups"ₛ) t := by
          intro t
          rw [← Jpa.selected_eq, List.mem_filter, ← ho, passes_groups]
        have hcls : ∀ t ∈ JpaSelected o s, ktClassName w.sc o t ≠ [] := by
          intro t ht
          obtain ⟨h1, h2⟩ := (hsel t).1 ht
          unfold ktClassName
          split
          · rename_i hc
            have := hn m hm t h1 h2 hc
            rw [← ho]
            exact this
          · assumption
        have htarget : ∀ n, (ktTarget w.sc o s n).getD [] = [] ↔ ∀ u ∈ s.tables, InGroups (v "groups"ₛ) u → u.name ≠ n := by
          intro n
          unfold ktTarget
          cases hf : (JpaSelected o s).find? fun t => t.name == n with
          | none =>
            refine ⟨fun _ u h1 h2 e => ?_, fun _ => rfl⟩
            have := List.find?_eq_none.1 hf u ((hsel u).2 ⟨h1, h2⟩)
            exact this (beq_iff_eq.2 e)
          | some u =>
            have hu := List.mem_of_find?_eq_some hf
            refine ⟨fun e => absurd e (hcls u hu), fun h => ?_⟩
            obtain ⟨h1, h2⟩ := (hsel u).1 hu
            have e := List.find?_some hf
            exact absurd (beq_iff_eq.1 e) (h u h1 h2)
        have hent : (∃ k ∈ Jpa.newClasses w.sc o s, Jpa.entityText w.sc o (Jpa.newClasses w.sc o s) k = none) ↔ KtStops v s := by
          rw [Jpa.newClasses_eq]
          constructor
          · rintro ⟨k, hk, e⟩
            obtain ⟨t, ht, rfl⟩ := List.mem_map.1 hk
            rw [← Jpa.newClasses_eq, entityText_none] at e
            obtain ⟨h1, c, hc, r, hr, h2⟩ := e
            obtain ⟨h3, h4⟩ := (hsel t).1 ht
            exact ⟨by rw [← h1, ← ho], t, h3, h4, c, hc, r, hr, (htarget _).1 h2⟩
          · rintro ⟨h1, t, h3, h4, c, hc, r, hr, h2⟩
            refine ⟨_, List.mem_map_of_mem ((hsel t).2 ⟨h3, h4⟩), ?_⟩
            rw [← Jpa.newClasses_eq, entityText_none]
            exact ⟨by rw [← ho]; exact h1, c, hc, r, hr, (htarget _).2 h2⟩
        have hrep : (∃ k ∈ Jpa.newClasses w.sc o s, Jpa.repositoryText o k = none) ↔ Keyless (v "groups"ₛ) s := by
          rw [Jpa.newClasses_eq]
          have hkey : ∀ t : Table, keyColumns t = [] ↔ ∀ c ∈ t.columns, c.primaryKey = false := by
            intro t
            unfold keyColumns
            rw [List.filter_eq_nil_iff]
            refine forall₂_congr fun c _ => ?_
            rw [Bool.not_eq_true]
          have hnone : ∀ t, Jpa.repositoryText o (Jpa.newClass w.sc o t) = none ↔ keyColumns t = [] := by
            intro t
            rw [Jpa.repositoryText_eq]
            by_cases h : keyColumns t = []
            · rw [if_pos h]; exact ⟨fun _ => h, fun _ => rfl⟩
            · rw [if_neg h]; exact ⟨fun e => (by cases e), fun e => absurd e h⟩
          constructor
          · rintro ⟨k, hk, e⟩
            obtain ⟨t, ht, rfl⟩ := List.mem_map.1 hk
            obtain ⟨h3, h4⟩ := (hsel t).1 ht
            exact ⟨t, h3, h4, (hkey t).1 ((hnone t).1 e)⟩
          · rintro ⟨t, h3, h4, e⟩
            exact ⟨_, List.mem_map_of_mem ((hsel t).2 ⟨h3, h4⟩), (hnone t).2 ((hkey t).2 e)⟩
        have hrp : o.reposPackage = v "reposPackage"ₛ := by rw [← ho]
        rcases kt_ending .fatal (Jpa.packageDir (v "output"ₛ) o.package) (fun k => k.name ++ ".kt"ₛ)
          (Jpa.entityText w.sc o (Jpa.newClasses w.sc o s)) (Jpa.newClasses w.sc o s) with ⟨e1, e2⟩ | ⟨e1, e2⟩
        · have hstop := hent.1 e2
          have hr : (r.status = .fatal) := by
            rw [← hr, status_writeAll_of hw, show (Jpa.generateEntities w.sc o (Jpa.newClasses w.sc o s) (v "output"ₛ)).ending = .fatal from e1,
              if_neg fun h => (by cases h.1), status_writeAll_of hw]
            rfl
          rw [hr]
          refine ⟨⟨fun e => (by cases e), ?_⟩, ⟨fun _ => ⟨n1, n2, hstop⟩, fun _ => rfl⟩⟩
          rintro (h | h | h)
          · exact absurd h n1
          · exact absurd h n2
          · exact absurd hstop h.2.2
        · have hstop : ¬KtStops v s := fun h => e2 (hent.2 h)
          rw [status_writeAll_of hw, show (Jpa.generateEntities w.sc o (Jpa.newClasses w.sc o s) (v "output"ₛ)).ending = .done from e1] at hr
          by_cases hrepos : o.reposPackage = []
          · rw [if_neg fun h => h.2 hrepos] at hr
            have hr : r.status = .ok := by rw [← hr, status_writeAll_of hw]; rfl
            rw [hr]
            refine ⟨⟨fun e => (by cases e), ?_⟩, ⟨fun e => (by cases e), fun h => absurd h.2.2 hstop⟩⟩
            rintro (h | h | h)
            · exact absurd h n1
            · exact absurd h n2
            · exact absurd (hrp.symm.trans hrepos) h.1
          · rw [if_pos ⟨rfl, hrepos⟩] at hr
            rcases kt_ending .panic (Jpa.packageDir (v "output"ₛ) o.reposPackage) (fun k => k.name ++ "Repository.kt"ₛ)
              (Jpa.repositoryText o) (Jpa.newClasses w.sc o s) with ⟨e3, e4⟩ | ⟨e3, e4⟩
            · have hr : r.status = .panic := by
                rw [← hr, status_writeAll_of hw, show (Jpa.generateRepositories o (Jpa.newClasses w.sc o s) (v "output"ₛ)).ending = .panic from e3]
                rfl
              rw [hr]
              refine ⟨⟨fun _ => .inr (.inr ⟨fun e => hrepos (hrp.trans e), hrep.1 e4, hstop⟩), fun _ => rfl⟩,
                ⟨fun e => (by cases e), fun h => absurd h.2.2 hstop⟩⟩
            · have hr : r.status = .ok := by
                rw [← hr, status_writeAll_of hw, show (Jpa.generateRepositories o (Jpa.newClasses w.sc o s) (v "output"ₛ)).ending = .done from e3]
                rfl
              rw [hr]
              refine ⟨⟨fun e => (by cases e), ?_⟩, ⟨fun e => (by cases e), fun h => absurd h.2.2 hstop⟩⟩
              rintro (h | h | h)
              · exact absurd h n1
              · exact absurd h n2
              · exact absurd (hrep.2 h.2.1) e4
  exact ⟨exists_congr fun s => and_congr_right fun hl => (main s hl _ rfl).1, exists_congr fun s => and_congr_right fun hl => (main s hl _ rfl).2⟩

theorem status_save (w : World) (fs : Files) (s : Schema) (p : Str) : (save w fs s p).status = .ok ∨ (save w fs s p).status = .error := by
  unfold save
  split
  · exact .inr rfl
  · exact status_write ..

/-- C130: `import mysql` crashes exactly for a script with a table that is not excluded and that has a key over an expression. -/
theorem C130_mysql (w : World) (v : Values) (fs : Files) :
    (action w .importMysql v fs).status = .panic ↔ ∃ text stmts, fs.text (v "input"ₛ) = some text ∧ w.sql text = some stmts ∧
      ∃ x ∈ statedTables (split ',' (v "excludes"ₛ)) stmts, ∃ k ∈ x.2.2, Examined k ∧ none ∈ k.keys := by
  show (importMysqlAction w v fs).status = .panic ↔ _
  unfold importMysqlAction
  cases ht : fs.text (v "input"ₛ) with
  | none => exact ⟨fun e => (by cases e), fun ⟨_, _, e, _⟩ => (by cases e)⟩
  | some text =>
    rw [Option.bind_some]
    cases hq : w.sql text with
    | none => exact ⟨fun e => (by cases e), fun ⟨_, _, e, e', _⟩ => (by cases e; rw [hq] at e'; cases e')⟩
    | some stmts =>
      have key := C22_panic_iff (split ',' (v "excludes"ₛ)) (v "author"ₛ) (v "version"ₛ) stmts
      dsimp only
      constructor
      · intro h
        refine ⟨text, stmts, rfl, hq, key.1 ?_⟩
        cases hi : MysqlImport.importSql (split ',' (v "excludes"ₛ)) (v "author"ₛ) (v "version"ₛ) stmts with
        | none => rfl
        | some s =>
          rw [hi] at h
          exact absurd h (not_crash (status_save w fs s _) (by decide) (by decide))
      · rintro ⟨_, _, e, e', h⟩
        cases e
        rw [hq] at e'
        cases e'
        rw [key.2 h]

/-- C130: `init` and `import xlsx` never crash. -/
theorem C130_never (w : World) (v : Values) (fs : Files) :
    (action w .init v fs).status ≠ .panic ∧ (action w .importXlsx v fs).status ≠ .panic := by
  refine ⟨not_crash (status_save w fs _ _) (by decide) (by decide), ?_⟩
  show (importXlsxAction w v fs).status ≠ _
  unfold importXlsxAction
  split
  · split
    · exact fun e => by cases e
    · exact not_crash (status_save w fs _ _) (by decide) (by decide)
  · exact fun e => by cases e

/-- C130: only `generate kt` ends by a fatal message. -/
theorem C130_fatal (w : World) (c : Cmd) (hc : c ≠ .kt) (v : Values) (fs : Files) : (action w c v fs).status ≠ .fatal := by
  have hp : Status.fatal ≠ .error := by decide
  have ho : Status.fatal ≠ .ok := by decide
  have hw : ∀ (f : Str) (k : Schema → Result), (∀ s, (k s).status ≠ .fatal) → (withSchema w fs f k).status ≠ .fatal := by
    intro f k hk h
    obtain ⟨s, _, e⟩ := (status_withSchema w fs _ k hp).1 h
    exact hk s e
  have hwrite : ∀ p x, (write w fs p x).status ≠ .fatal := fun p x => not_crash (status_write w fs p x) ho hp
  have hwriteIn : ∀ e o n x, (writeIn w fs e o n x).status ≠ .fatal := fun e o n x => not_crash (status_writeIn w fs e o n x) ho hp
  have hsave : ∀ s p, (save w fs s p).status ≠ .fatal := fun s p => not_crash (status_save w fs s p) ho hp
  have hpanic : Status.panic ≠ .fatal := by decide
  cases c with
  | kt => exact absurd rfl hc
  | init => exact hsave _ _
  | importMysql =>
    show (importMysqlAction w v fs).status ≠ _
    unfold importMysqlAction
    split
    · exact hp.symm
    · split
      · exact hpanic
      · exact hsave _ _
  | importOjson =>
    show (importOjsonAction w v fs).status ≠ _
    unfold importOjsonAction
    split
    · exact hp.symm
    · exact hpanic
    · exact hsave _ _
  | importStaruml =>
    show (importStarumlAction w v fs).status ≠ _
    unfold importStarumlAction
    split
    · exact hp.symm
    · exact hpanic
    · exact hsave _ _
  | importXlsx =>
    show (importXlsxAction w v fs).status ≠ _
    unfold importXlsxAction
    split
    · split
      · exact hp.symm
      · exact hsave _ _
    · exact hp.symm
  | exportDbml => exact hw _ _ fun s => hwrite _ _
  | exportQuickdbd => exact hw _ _ fun s => hwrite _ _
  | exportMysql => exact hw _ _ fun s => hwrite _ _
  | exportXlsx =>
    refine hw _ _ fun s => ?_
    split
    · exact hp.symm
    · exact hwrite _ _
  | gorm =>
    refine hw _ _ fun s => ?_
    split
    · exact hpanic
    · exact hwriteIn _ _ _ _
  | graphql =>
    refine hw _ _ fun s => ?_
    split
    · exact hpanic
    · dsimp only
      split
      · exact hwrite _ _
      · exact hp.symm
  | liquibase =>
    refine hw _ _ fun s => ?_
    split
    · exact hp.symm
    · exact hwrite _ _
  | plantuml => exact hw _ _ fun s => hwriteIn _ _ _ _
  | pb =>
    refine hw _ _ fun s => ?_
    split
    · exact hpanic
    · split
      · exact hpanic
      · exact hwrite _ _
  | sqlalchemy =>
    refine hw _ _ fun s => ?_
    split
    · exact hpanic
    · dsimp only
      split <;> split
      · exact not_crash (status_writeAll w .ok _ fs) ho hp
      · exact hp.symm
      · exact not_crash (status_writeAll w .ok _ fs) ho hp
      · exact hp.symm
  | diffFlyway => exact hw _ _ fun a => hw _ _ fun b => hwrite _ _
  | diffLiquibase =>
    refine hw _ _ fun a => hw _ _ fun b => ?_
    dsimp only
    split
    · exact hp.symm
    · exact hwrite _ _
  | diffMd => exact hw _ _ fun a => hw _ _ fun b => hwrite _ _

/-- The demonstration with a table without columns. -/
def crashFiles : Files := fun p =>
  if p = pathOf "a.json"ₛ then
    (Schema.toJson tableSort { demoA with tables := demoA.tables ++ [{ name := "k"ₛ, group := "x"ₛ }] }).map .text
  else none

/-- C130: all endings occur: the prefixes mix two forms; the group is left by a reference; a table that is not selected is the only one
without a key, and one that is selected. -/
example :
    let fs := crashFiles
    let v := fun g r p => given [("input"ₛ, "a.json"ₛ), ("output"ₛ, "o"ₛ), ("groups"ₛ, g), ("relation"ₛ, r), ("prefix"ₛ, p), ("reposPackage"ₛ, "r"ₛ)]
    (action demoWorld .gorm (v []  [] "a:b,c"ₛ) fs).status = .panic ∧
    (action demoWorld .kt (v "h"ₛ "VRelation"ₛ []) fs).status = .fatal ∧
    (action demoWorld .kt (v "g,h"ₛ "VRelation"ₛ []) fs).status = .ok ∧
    (action demoWorld .kt (v [] [] []) fs).status = .panic ∧
    (∀ s, load demoWorld fs "a.json"ₛ = some s → ClassesNamed demoWorld.sc (v [] [] []) s) := by
  dsimp only
  refine ⟨by decide +kernel, by decide +kernel, by decide +kernel, by decide +kernel, ?_⟩
  intro s hs m hm t ht _ _
  have e : (load demoWorld crashFiles "a.json"ₛ).map (fun s => s.tables.map (·.name)) =
      some ["a_t"ₛ, "u"ₛ, "k"ₛ] := by decide +kernel
  rw [hs] at e
  have e : s.tables.map (·.name) = ["a_t"ₛ, "u"ₛ, "k"ₛ] := Option.some.inj e
  have hn : t.name ∈ ["a_t"ₛ, "u"ₛ, "k"ₛ] := e ▸ List.mem_map_of_mem ht
  have hk : ∀ n ∈ ["a_t"ₛ, "u"ₛ, "k"ₛ], demoWorld.sc.toCamel ((split ',' []).foldl trimPrefix n) ≠ [] := by decide +kernel
  exact fun h => hk _ hn (List.append_eq_nil_iff.1 h).2

end Octo.Cli
