import Verif.Spec.Groups
import Verif.Props.Octopus
import Verif.Props.Cli
import Verif.Lemmas.CliDemo
import Verif.Lemmas.Liquibase

/-! Property C128: a command restricted to groups does what it does without the restriction on the schema of these groups. -/

namespace Octo
open Spec Cli

section
variable {text : Str} {gs : List Str} (hg : NamesGroups text gs)
include hg

theorem filter_groups (s : Schema) :
    s.tables.filter (passes (getTableFilterFn text)) = (restrict gs s).tables.filter (passes (getTableFilterFn [])) := by
  obtain ⟨h1, rfl, h2⟩ := hg
  have e : (restrict gs s).tables.filter (passes (getTableFilterFn [])) = (restrict gs s).tables :=
    List.filter_eq_self.2 fun _ _ => rfl
  rw [e]
  unfold restrict
  refine List.filter_congr fun t _ => ?_
  rw [Bool.eq_iff_iff, C10_selects gs h2 h1, decide_eq_true_iff]

theorem generateAll_groups (pf : Str → Option Str) (suffix : Str) (uc : Bool) (s : Schema) :
    Lq.generateAll pf ⟨getTableFilterFn text, suffix, uc⟩ s = Lq.generateAll pf ⟨getTableFilterFn [], suffix, uc⟩ (restrict gs s) := by
  rw [Lq.generateAll_eq, Lq.generateAll_eq, filter_groups hg s]
  rfl

end

theorem tableByName_groups {gs : List Str} {s : Schema} (n : Str) (h : ∀ u ∈ s.tables, u.name = n → u.group ∈ gs) :
    (restrict gs s).tableByName n = s.tableByName n := by
  unfold Schema.tableByName restrict
  dsimp only
  rw [List.find?_filter]
  generalize s.tables = ts at h
  induction ts with
  | nil => rfl
  | cons t ts ih =>
    have ih := ih fun u hu => h u (List.mem_cons_of_mem _ hu)
    by_cases e : t.name = n
    · rw [List.find?_cons_of_pos (by simp [e, h t List.mem_cons_self e]), List.find?_cons_of_pos (by simp [e])]
    · rw [List.find?_cons_of_neg (by simp [e]), List.find?_cons_of_neg (by simp [e]), ih]

theorem findReference_groups {gs : List Str} {s : Schema} (r : Reference) (h : ∀ u ∈ s.tables, u.name = r.table → u.group ∈ gs) :
    (restrict gs s).findReference r = s.findReference r := by
  unfold Schema.findReference
  rw [tableByName_groups r.table h]

theorem mem_restrict {gs : List Str} {s : Schema} {t : Table} : t ∈ (restrict gs s).tables ↔ t ∈ s.tables ∧ t.group ∈ gs := by
  unfold restrict
  rw [List.mem_filter, decide_eq_true_iff]

theorem mapM_ext {α β : Type} {f g : α → Option β} {l : List α} (h : ∀ a ∈ l, f a = g a) : l.mapM f = l.mapM g := by
  induction l with
  | nil => rfl
  | cons a l ih =>
    rw [List.mapM_cons, List.mapM_cons, h a List.mem_cons_self, ih fun b hb => h b (List.mem_cons_of_mem _ hb)]

/-- The commands that have the option and whose output for a table does not depend on other tables. -/
def groupCommands : List Cmd := [.exportMysql, .kt, .liquibase, .sqlalchemy]

/-- C128: `export mysql`, `generate kt`, `generate liquibase` and `generate sqlalchemy` with `--groups` do what they do without it for
a file that holds the tables of these groups only. -/
theorem C128_groups_partial (w : World) (c : Cmd) (hc : c ∈ groupCommands) (v v' : Values) (gs : List Str)
    (hg : NamesGroups (v "groups"ₛ) gs) (hv : v' "groups"ₛ = []) (hother : ∀ n, n ≠ "groups"ₛ → n ≠ "input"ₛ → v' n = v n)
    (fs : Files) (hload : load w fs (v' "input"ₛ) = (load w fs (v "input"ₛ)).map (restrict gs)) :
    action w c v fs = action w c v' fs := by
  have hb : ∀ n, n ≠ "groups"ₛ → n ≠ "input"ₛ → v'.bool n = v.bool n := fun n h1 h2 => by unfold Values.bool; rw [hother n h1 h2]
  cases hl : load w fs (v "input"ₛ) with
  | none =>
    rw [hl] at hload
    have h1 : ∀ k, withSchema w fs (v "input"ₛ) k = ⟨fs, .error⟩ := fun k => by unfold withSchema; rw [hl]
    have h2 : ∀ k, withSchema w fs (v' "input"ₛ) k = ⟨fs, .error⟩ := fun k => by unfold withSchema; rw [hload]; rfl
    unfold groupCommands at hc
    simp only [List.mem_cons, List.not_mem_nil, or_false] at hc
    rcases hc with rfl | rfl | rfl | rfl
    · exact (h1 _).trans (h2 _).symm
    · exact (h1 _).trans (h2 _).symm
    · exact (h1 _).trans (h2 _).symm
    · exact (h1 _).trans (h2 _).symm
  | some s =>
    rw [hl] at hload
    have h1 : ∀ k, withSchema w fs (v "input"ₛ) k = k s := fun k => by unfold withSchema; rw [hl]
    have h2 : ∀ k, withSchema w fs (v' "input"ₛ) k = k (restrict gs s) := fun k => by unfold withSchema; rw [hload]; rfl
    unfold groupCommands at hc
    simp only [List.mem_cons, List.not_mem_nil, or_false] at hc
    rcases hc with rfl | rfl | rfl | rfl
    · show exportMysqlAction w v fs = exportMysqlAction w v' fs
      unfold exportMysqlAction
      rw [h1, h2, hv, hother "output"ₛ (by decide) (by decide), hother "uniqueNameSuffix"ₛ (by decide) (by decide)]
      unfold Mysql.exportSchema
      rw [filter_groups hg s]
    · show ktAction w v fs = ktAction w v' fs
      unfold ktAction
      rw [h1, h2, hv, hother "output"ₛ (by decide) (by decide), hother "uniqueNameSuffix"ₛ (by decide) (by decide),
        hother "annotation"ₛ (by decide) (by decide), hother "prefix"ₛ (by decide) (by decide), hother "idEntity"ₛ (by decide) (by decide),
        hother "package"ₛ (by decide) (by decide), hother "relation"ₛ (by decide) (by decide),
        hother "removePrefix"ₛ (by decide) (by decide), hother "reposPackage"ₛ (by decide) (by decide)]
      split
      · have e : ∀ a m i p r rp rep u, Jpa.newClasses w.sc ⟨a, m, getTableFilterFn (v "groups"ₛ), i, p, r, rp, rep, u⟩ s =
            Jpa.newClasses w.sc ⟨a, m, getTableFilterFn [], i, p, r, rp, rep, u⟩ (restrict gs s) := by
          intro a m i p r rp rep u
          unfold Jpa.newClasses
          rw [filter_groups hg s]
          rfl
        dsimp only
        rw [e]
        rfl
      · rfl
    · show liquibaseAction w v fs = liquibaseAction w v' fs
      unfold liquibaseAction
      rw [h1, h2, hv, hother "output"ₛ (by decide) (by decide), hother "uniqueNameSuffix"ₛ (by decide) (by decide),
        hb "comments"ₛ (by decide) (by decide), generateAll_groups hg]
    · show sqlalchemyAction w v fs = sqlalchemyAction w v' fs
      unfold sqlalchemyAction
      rw [h1, h2, hv, hother "output"ₛ (by decide) (by decide), hother "uniqueNameSuffix"ₛ (by decide) (by decide),
        hother "prefix"ₛ (by decide) (by decide), hother "removePrefix"ₛ (by decide) (by decide), hb "useUTC"ₛ (by decide) (by decide)]
      split
      · rfl
      · have e : ∀ p rp u sy, Sqlalchemy.newClasses w.sc ⟨p, getTableFilterFn (v "groups"ₛ), rp, u, sy⟩ s =
            Sqlalchemy.newClasses w.sc ⟨p, getTableFilterFn [], rp, u, sy⟩ (restrict gs s) := by
          intro p rp u sy
          unfold Sqlalchemy.newClasses
          rw [filter_groups hg s]
          rfl
        have e2 : ∀ p f rp u sy dir ks st, Sqlalchemy.classFiles ⟨p, f, rp, u, sy⟩ dir st ks =
            Sqlalchemy.classFiles ⟨p, getTableFilterFn [], rp, u, sy⟩ dir st ks := by
          intro p f rp u sy dir ks
          induction ks with
          | nil => exact fun _ => rfl
          | cons k ks ih =>
            intro st
            unfold Sqlalchemy.classFiles
            dsimp only
            rw [ih]
            rfl
        unfold Sqlalchemy.generate
        dsimp only
        rw [e, e2]
        rfl

/-- C128 (partial): the same for `generate gorm` and `generate pb`, when no table of the groups refers to a table of another group.
Missing: other schemas, see `C128_violated`. -/
theorem C128_closed_partial (w : World) (c : Cmd) (hc : c = .gorm ∨ c = .pb) (v v' : Values) (gs : List Str)
    (hg : NamesGroups (v "groups"ₛ) gs) (hv : v' "groups"ₛ = []) (hother : ∀ n, n ≠ "groups"ₛ → n ≠ "input"ₛ → v' n = v n)
    (fs : Files) (hload : load w fs (v' "input"ₛ) = (load w fs (v "input"ₛ)).map (restrict gs))
    (hclosed : ∀ s, load w fs (v "input"ₛ) = some s → ClosedGroups gs s) : action w c v fs = action w c v' fs := by
  have hb : ∀ n, n ≠ "groups"ₛ → n ≠ "input"ₛ → v'.bool n = v.bool n := fun n h1 h2 => by unfold Values.bool; rw [hother n h1 h2]
  cases hl : load w fs (v "input"ₛ) with
  | none =>
    rw [hl] at hload
    have h1 : ∀ k, withSchema w fs (v "input"ₛ) k = ⟨fs, .error⟩ := fun k => by unfold withSchema; rw [hl]
    have h2 : ∀ k, withSchema w fs (v' "input"ₛ) k = ⟨fs, .error⟩ := fun k => by unfold withSchema; rw [hload]; rfl
    rcases hc with rfl | rfl
    · exact (h1 _).trans (h2 _).symm
    · exact (h1 _).trans (h2 _).symm
  | some s =>
    rw [hl] at hload
    have hclosed := hclosed s hl
    have h1 : ∀ k, withSchema w fs (v "input"ₛ) k = k s := fun k => by unfold withSchema; rw [hl]
    have h2 : ∀ k, withSchema w fs (v' "input"ₛ) k = k (restrict gs s) := fun k => by unfold withSchema; rw [hload]; rfl
    have hsel : ∀ t ∈ (restrict gs s).tables.filter (passes (getTableFilterFn [])), t ∈ s.tables ∧ t.group ∈ gs :=
      fun t ht => mem_restrict.1 (List.mem_filter.1 ht).1
    rcases hc with rfl | rfl
    · show gormAction w v fs = gormAction w v' fs
      unfold gormAction
      rw [h1, h2, hv, hother "output"ₛ (by decide) (by decide), hother "uniqueNameSuffix"ₛ (by decide) (by decide),
        hother "prefix"ₛ (by decide) (by decide), hother "embed"ₛ (by decide) (by decide), hother "package"ₛ (by decide) (by decide),
        hother "removePrefix"ₛ (by decide) (by decide), hb "pointerAssociation"ₛ (by decide) (by decide)]
      split
      · rfl
      · have e : ∀ p e pk pa rp u, Gorm.structs w.sc w.models Gorm.defaultModels ⟨p, getTableFilterFn (v "groups"ₛ), e, pk, pa, rp, u⟩ s =
            Gorm.structs w.sc w.models Gorm.defaultModels ⟨p, getTableFilterFn [], e, pk, pa, rp, u⟩ (restrict gs s) := by
          intro p e pk pa rp u
          unfold Gorm.structs Gorm.selected
          rw [filter_groups hg s]
          refine List.map_congr_left fun q hq => ?_
          have hq := hsel q.1 (List.fst_mem_of_mem_zipIdx hq)
          unfold Gorm.newGoStruct
          have ha : q.1.columns.filterMap (Gorm.association w.sc s ⟨p, getTableFilterFn (v "groups"ₛ), e, pk, pa, rp, u⟩) =
              q.1.columns.filterMap (Gorm.association w.sc (restrict gs s) ⟨p, getTableFilterFn [], e, pk, pa, rp, u⟩) := by
            refine List.filterMap_congr fun c hc => ?_
            unfold Gorm.association
            cases hr : c.ref with
            | none => rfl
            | some r =>
              rw [Option.bind_some, Option.bind_some, findReference_groups r (hclosed q.1 hq.1 hq.2 c hc r hr)]
              rfl
          dsimp only
          rw [ha]
          rfl
        unfold Gorm.generate
        dsimp only
        rw [e]
        rfl
    · show pbAction w v fs = pbAction w v' fs
      unfold pbAction
      rw [h1, h2, hv, hother "output"ₛ (by decide) (by decide), hother "prefix"ₛ (by decide) (by decide),
        hother "package"ₛ (by decide) (by decide), hother "removePrefix"ₛ (by decide) (by decide), hother "goPackage"ₛ (by decide) (by decide),
        hother "relationTagStart"ₛ (by decide) (by decide), hb "relationTagDecr"ₛ (by decide) (by decide)]
      unfold Protobuf.cliOption
      cases newPrefixMapper (v "prefix"ₛ) with
      | none => rfl
      | some m =>
        have e : ∀ rp pk gp ts td, Protobuf.generate w.sc ⟨some m, getTableFilterFn (v "groups"ₛ), rp, pk, gp, ts, td⟩ s =
            Protobuf.generate w.sc ⟨some m, getTableFilterFn [], rp, pk, gp, ts, td⟩ (restrict gs s) := by
          intro rp pk gp ts td
          unfold Protobuf.generate Protobuf.selected
          rw [filter_groups hg s]
          have hm : ∀ l : List Table, (∀ t ∈ l, t ∈ s.tables ∧ t.group ∈ gs) →
              l.mapM (Protobuf.newPbMessage w.sc s ⟨some m, getTableFilterFn (v "groups"ₛ), rp, pk, gp, ts, td⟩) =
              l.mapM (Protobuf.newPbMessage w.sc (restrict gs s) ⟨some m, getTableFilterFn [], rp, pk, gp, ts, td⟩) := by
            intro l hl
            refine mapM_ext fun t ht => ?_
            unfold Protobuf.newPbMessage
            have hr : (t.columns.filterMap (·.ref)).mapM (Protobuf.newRelation w.sc s ⟨some m, getTableFilterFn (v "groups"ₛ), rp, pk, gp, ts, td⟩) =
                (t.columns.filterMap (·.ref)).mapM (Protobuf.newRelation w.sc (restrict gs s) ⟨some m, getTableFilterFn [], rp, pk, gp, ts, td⟩) := by
              refine mapM_ext fun r hr => ?_
              obtain ⟨c, hc, hr⟩ := List.mem_filterMap.1 hr
              unfold Protobuf.newRelation
              rw [tableByName_groups r.table (hclosed t (hl t ht).1 (hl t ht).2 c hc r hr)]
              rfl
            rw [hr]
            rfl
          rw [hm _ hsel]
          rfl
        dsimp only [Option.map]
        rw [e]

/-- The file `a.json` with a schema, and the file `b.json` with the tables of some groups. -/
def twoFiles (gs : List Str) (s : Schema) : Files := fun p =>
  if p = pathOf "a.json"ₛ then (s.toJson tableSort).map .text
  else if p = pathOf "b.json"ₛ then ((restrict gs s).toJson tableSort).map .text
  else none

/-- The text of a file. -/
def textAt (r : Result) (p : Str) : Option Str :=
  match r.files.at p with
  | some (.text t) => some t
  | _ => none

/-- C128 fails as stated. The table `u` of group `h` refers to a table of group `g`: restricted to `h`, `generate pb` succeeds with a
field of a type that the file does not define, and for the schema of `h` alone it panics; `generate gorm` writes a field for the
reference or does not; `export dbml` writes all tables or those of `h`. -/
theorem C128_violated :
    let fs := twoFiles ["h"ₛ] demoA
    let v := given [("input"ₛ, "a.json"ₛ), ("output"ₛ, "o"ₛ), ("groups"ₛ, "h"ₛ)]
    let v' := given [("input"ₛ, "b.json"ₛ), ("output"ₛ, "o"ₛ)]
    NamesGroups (v "groups"ₛ) ["h"ₛ] ∧
    load demoWorld fs (v' "input"ₛ) = (load demoWorld fs (v "input"ₛ)).map (restrict ["h"ₛ]) ∧
    action demoWorld .pb v fs ≠ action demoWorld .pb v' fs ∧
    action demoWorld .gorm v fs ≠ action demoWorld .gorm v' fs ∧
    action demoWorld .exportDbml v fs ≠ action demoWorld .exportDbml v' fs := by
  dsimp only
  have hs : ∀ {r r' : Result} {a b : Status}, r.status = a → r'.status = b → a ≠ b → r ≠ r' := by
    rintro r r' a b rfl rfl h rfl
    exact h rfl
  have ht : ∀ {r r' : Result} (p : Str), textAt r p ≠ textAt r' p → r ≠ r' := by
    rintro r r' p h rfl
    exact h rfl
  refine ⟨⟨by decide +kernel, by decide +kernel, by decide +kernel⟩, by decide +kernel, hs (a := .ok) (b := .panic) (by decide +kernel) (by decide +kernel) (by decide),
    ht "o/output.go"ₛ (by decide +kernel), ht "o"ₛ (by decide +kernel)⟩

/-- C128: the conditions can be met. The tables of group `g` refer to no other table. -/
example :
    let fs := twoFiles ["g"ₛ] demoA
    let v := given [("input"ₛ, "a.json"ₛ), ("output"ₛ, "o"ₛ), ("groups"ₛ, "g"ₛ)]
    let v' := given [("input"ₛ, "b.json"ₛ), ("output"ₛ, "o"ₛ)]
    NamesGroups (v "groups"ₛ) ["g"ₛ] ∧ v' "groups"ₛ = [] ∧ (∀ n, n ≠ "groups"ₛ → n ≠ "input"ₛ → v' n = v n) ∧
    load demoWorld fs (v' "input"ₛ) = (load demoWorld fs (v "input"ₛ)).map (restrict ["g"ₛ]) ∧
    (∀ s, load demoWorld fs (v "input"ₛ) = some s → ClosedGroups ["g"ₛ] s) ∧
    (action demoWorld .gorm v fs).status = .ok := by
  dsimp only
  refine ⟨⟨by decide +kernel, by decide +kernel, by decide +kernel⟩, by decide +kernel, ?_, by decide +kernel, ?_, by decide +kernel⟩
  · intro n h1 h2
    unfold given
    simp only [List.lookup]
    rw [beq_eq_false_iff_ne.2 h2, beq_eq_false_iff_ne.2 h1]
  · intro s hs
    have e : load demoWorld (twoFiles ["g"ₛ] demoA) "a.json"ₛ = some demoA := by decide +kernel
    have hs : some s = some demoA := hs.symm.trans e
    cases hs
    unfold ClosedGroups
    decide +kernel

end Octo
