import Verif.Spec.Failure
import Verif.Props.Targets

/-! Property C137: what a command that fails leaves behind. -/

namespace Octo.Cli
open Spec

/-! ### Commands that write one file -/

/-- Nothing has happened, or the same as with all permissions. -/
def AllOrNothing (fs : Files) (r r' : Result) : Prop := r.files = fs ∨ r = r'

theorem AllOrNothing.same {fs : Files} {r : Result} : AllOrNothing fs r r := .inr rfl

theorem AllOrNothing.write (w : World) (fs : Files) (p : Path) (x : Content) :
    AllOrNothing fs (Cli.write w fs p x) (Cli.write (allowed w) fs p x) := by
  unfold Cli.write
  by_cases h : w.writable p = true
  · rw [if_pos h]
    exact .inr rfl
  · rw [if_neg h]
    exact .inl rfl

theorem AllOrNothing.save (w : World) (fs : Files) (s : Schema) (f : Str) :
    AllOrNothing fs (Cli.save w fs s f) (Cli.save (allowed w) fs s f) := by
  unfold Cli.save
  show AllOrNothing fs (match s.toJson w.sorter with | none => _ | some text => _) (match s.toJson w.sorter with | none => _ | some text => _)
  cases s.toJson w.sorter with
  | none => exact .same
  | some text => exact .write ..

theorem AllOrNothing.withSchema {w : World} {fs : Files} {f : Str} {k k' : Schema → Result} (h : ∀ s, AllOrNothing fs (k s) (k' s)) :
    AllOrNothing fs (Cli.withSchema w fs f k) (Cli.withSchema (allowed w) fs f k') := by
  unfold Cli.withSchema
  show AllOrNothing fs (match load w fs f with | none => _ | some s => _) (match load w fs f with | none => _ | some s => _)
  cases load w fs f with
  | none => exact .same
  | some s => exact h s

theorem mkdir_allowed {w : World} {d : Str} (h : mkdir w d = true) : mkdir (allowed w) d = true := by
  unfold mkdir at h ⊢
  rw [Bool.and_eq_true] at h ⊢
  exact ⟨h.1, rfl⟩

theorem AllOrNothing.inDir {w : World} {fs : Files} {d : Str} {r r' : Result} (h : AllOrNothing fs r r') :
    AllOrNothing fs (if mkdir w d then r else ⟨fs, .error⟩) (if mkdir (allowed w) d then r' else ⟨fs, .error⟩) := by
  by_cases hm : mkdir w d = true
  · rw [if_pos hm, if_pos (mkdir_allowed hm)]
    exact h
  · rw [if_neg hm]
    exact .inl rfl

theorem AllOrNothing.writeIn (w : World) (fs : Files) (exts : List Str) (out name text : Str) :
    AllOrNothing fs (Cli.writeIn w fs exts out name text) (Cli.writeIn (allowed w) fs exts out name text) := by
  unfold Cli.writeIn
  by_cases h : lower (fileExt out) ∈ exts
  · rw [if_pos h, if_pos h]
    exact .write ..
  · rw [if_neg h, if_neg h]
    exact .inDir (.write ..)

theorem one_file (w : World) (c : Cmd) (hc : c ≠ .kt ∧ c ≠ .sqlalchemy) (v : Values) (fs : Files) :
    AllOrNothing fs (action w c v fs) (action (allowed w) c v fs) := by
  cases c with
  | init => exact .save ..
  | importMysql =>
    show AllOrNothing fs (importMysqlAction w v fs) (importMysqlAction (allowed w) v fs)
    unfold importMysqlAction
    show AllOrNothing fs (match (fs.text (v "input"ₛ)).bind w.sql with | none => _ | some stmts => _)
      (match (fs.text (v "input"ₛ)).bind w.sql with | none => _ | some stmts => _)
    cases (fs.text (v "input"ₛ)).bind w.sql with
    | none => exact .same
    | some stmts =>
      dsimp only
      cases MysqlImport.importSql (split ',' (v "excludes"ₛ)) (v "author"ₛ) (v "version"ₛ) stmts with
      | none => exact .same
      | some s => exact .save ..
  | importOjson =>
    show AllOrNothing fs (importOjsonAction w v fs) (importOjsonAction (allowed w) v fs)
    unfold importOjsonAction
    show AllOrNothing fs (match Ojson.importJSON w.sorter1 ((fs.text (v "input"ₛ)).bind w.json) with | .error => _ | .panic => _ | .ok s => _)
      (match Ojson.importJSON w.sorter1 ((fs.text (v "input"ₛ)).bind w.json) with | .error => _ | .panic => _ | .ok s => _)
    cases Ojson.importJSON w.sorter1 ((fs.text (v "input"ₛ)).bind w.json) with
    | error => exact .same
    | panic => exact .same
    | ok s => exact .save ..
  | importStaruml =>
    show AllOrNothing fs (importStarumlAction w v fs) (importStarumlAction (allowed w) v fs)
    unfold importStarumlAction
    show AllOrNothing fs (match Staruml.importJson ((fs.text (v "input"ₛ)).bind w.json) with | .error => _ | .panic => _ | .ok s => _)
      (match Staruml.importJson ((fs.text (v "input"ₛ)).bind w.json) with | .error => _ | .panic => _ | .ok s => _)
    cases Staruml.importJson ((fs.text (v "input"ₛ)).bind w.json) with
    | error => exact .same
    | panic => exact .same
    | ok s => exact .save ..
  | importXlsx =>
    show AllOrNothing fs (importXlsxAction w v fs) (importXlsxAction (allowed w) v fs)
    unfold importXlsxAction
    cases fs.at (v "input"ₛ) with
    | none => exact .same
    | some x =>
      cases x with
      | text s => exact .same
      | changelog l => exact .same
      | book sheets =>
        show AllOrNothing fs (match Xlsx.importWorkbook w.sheets sheets with | none => _ | some s => _)
          (match Xlsx.importWorkbook w.sheets sheets with | none => _ | some s => _)
        cases Xlsx.importWorkbook w.sheets sheets with
        | none => exact .same
        | some s => exact .save ..
  | exportDbml => exact .withSchema fun s => .write ..
  | exportQuickdbd => exact .withSchema fun s => .write ..
  | exportMysql => exact .withSchema fun s => .write ..
  | exportXlsx =>
    refine .withSchema fun s => ?_
    show AllOrNothing fs (match Xlsx.exportSchema w.accepts (v.bool "useNullColumn"ₛ) s with | none => _ | some sheets => _)
      (match Xlsx.exportSchema w.accepts (v.bool "useNullColumn"ₛ) s with | none => _ | some sheets => _)
    cases Xlsx.exportSchema w.accepts (v.bool "useNullColumn"ₛ) s with
    | none => exact .same
    | some sheets => exact .write ..
  | gorm =>
    refine .withSchema fun s => ?_
    cases newPrefixMapper (v "prefix"ₛ) with
    | none => exact .same
    | some m => exact .writeIn ..
  | graphql =>
    refine .withSchema fun s => ?_
    cases newPrefixMapper (v "prefix"ₛ) with
    | none => exact .same
    | some m => exact .inDir (.write ..)
  | kt => exact absurd rfl hc.1
  | liquibase =>
    refine .withSchema fun s => ?_
    show AllOrNothing fs (match Lq.generateAll w.float _ s with | none => _ | some sets => _)
      (match Lq.generateAll w.float _ s with | none => _ | some sets => _)
    cases Lq.generateAll w.float
      { tableFilter := getTableFilterFn (v "groups"ₛ), uniqueNameSuffix := v "uniqueNameSuffix"ₛ, useComments := v.bool "comments"ₛ } s with
    | none => exact .same
    | some sets => exact .write ..
  | plantuml => exact .withSchema fun s => .writeIn ..
  | pb =>
    refine .withSchema fun s => ?_
    cases Protobuf.cliOption (v "prefix"ₛ) (v "groups"ₛ) (v "removePrefix"ₛ) (v "package"ₛ) (v "goPackage"ₛ)
        (v "relationTagStart"ₛ) (v.bool "relationTagDecr"ₛ) with
    | none => exact .same
    | some o =>
      show AllOrNothing fs (match Protobuf.generate w.sc o s with | none => _ | some text => _)
        (match Protobuf.generate w.sc o s with | none => _ | some text => _)
      cases Protobuf.generate w.sc o s with
      | none => exact .same
      | some text => exact .write ..
  | sqlalchemy => exact absurd rfl hc.2
  | diffFlyway => exact .withSchema fun a => .withSchema fun b => .write ..
  | diffLiquibase =>
    refine .withSchema fun a => .withSchema fun b => ?_
    show AllOrNothing fs (match Lq.generate w.float _ w.sched with | none => _ | some sets => _)
      (match Lq.generate w.float _ w.sched with | none => _ | some sets => _)
    cases Lq.generate w.float
      { tableFilter := getTableFilterFn (v "groups"ₛ), diffFrom := a, diffTo := b, author := v "author"ₛ
        useComments := v.bool "comments"ₛ } w.sched with
    | none => exact .same
    | some sets => exact .write ..
  | diffMd => exact .withSchema fun a => .withSchema fun b => .write ..

/-! ### Commands that write several files -/

/-- The files of the first run are the first ones of the second run. -/
def Begins (fs : Files) (r r' : Result) (l : List (Path × Content)) : Prop :=
  r'.files = applyWrites fs l ∧ ∃ ws, ws <+: l ∧ r.files = applyWrites fs ws

theorem writeAll_allowed (w : World) (last : Status) (l : List (Path × Content)) (fs : Files) :
    writeAll (allowed w) last fs l = ⟨applyWrites fs l, last⟩ := by
  induction l generalizing fs with
  | nil => rfl
  | cons p l ih =>
    rw [writeAll, if_pos (show (allowed w).writable p.1 = true from rfl), ih]
    rfl

theorem sa_begins (w : World) (v : Values) (fs : Files) (s : Schema) (m : PrefixMapper) (hs : load w fs (v "input"ₛ) = some s)
    (hm : newPrefixMapper (v "prefix"ₛ) = some m) :
    Begins fs (action w .sqlalchemy v fs) (action (allowed w) .sqlalchemy v fs)
        ((Sqlalchemy.generate w.sc (saOption v m) s (v "output"ₛ)).map fun p => (joined p.1, .text p.2)) ∨
      AllOrNothing fs (action w .sqlalchemy v fs) (action (allowed w) .sqlalchemy v fs) ∧ (action w .sqlalchemy v fs).files = fs := by
  have e : ∀ w', load w' fs (v "input"ₛ) = some s → action w' .sqlalchemy v fs =
      if mkdir w' (if Sqlalchemy.single (v "output"ₛ) then dirOf (v "output"ₛ) else v "output"ₛ) then
        writeAll w' .ok fs ((Sqlalchemy.generate w'.sc (saOption v m) s (v "output"ₛ)).map fun p => (joined p.1, .text p.2))
      else ⟨fs, .error⟩ := by
    intro w' h
    show withSchema w' fs (v "input"ₛ) _ = _
    unfold withSchema
    rw [h]
    dsimp only
    rw [hm]
    rfl
  have h1 := e w hs
  have h2 := e (allowed w) hs
  by_cases hd : mkdir w (if Sqlalchemy.single (v "output"ₛ) then dirOf (v "output"ₛ) else v "output"ₛ) = true
  · rw [if_pos hd] at h1
    rw [if_pos (mkdir_allowed hd), writeAll_allowed] at h2
    obtain ⟨ws, st, hp, h⟩ := writeAll_writes w .ok
      ((Sqlalchemy.generate w.sc (saOption v m) s (v "output"ₛ)).map fun p => ((joined p.1, .text p.2) : Path × Content))
    refine .inl ⟨congrArg Result.files h2, ws, hp, ?_⟩
    rw [h1, h]
  · rw [if_neg hd] at h1
    refine .inr ⟨.inl ?_, ?_⟩
    · rw [h1]
    · rw [h1]

theorem kt_begins (w : World) (v : Values) (fs : Files) (s : Schema) (a : AnnotationMapper) (m : PrefixMapper)
    (hs : load w fs (v "input"ₛ) = some s) (ha : newAnnotationMapper (v "annotation"ₛ) = some a) (hm : newPrefixMapper (v "prefix"ₛ) = some m) :
    Begins fs (action w .kt v fs) (action (allowed w) .kt v fs) (ktFiles (Jpa.generate w.sc (ktOption v a m) s (v "output"ₛ))) := by
  have e : ∀ w', load w' fs (v "input"ₛ) = some s → w'.sc = w.sc → ∀ E R, E = Jpa.generateEntities w.sc (ktOption v a m)
        (Jpa.newClasses w.sc (ktOption v a m) s) (v "output"ₛ) →
      R = Jpa.generateRepositories (ktOption v a m) (Jpa.newClasses w.sc (ktOption v a m) s) (v "output"ₛ) → action w' .kt v fs =
      (if mkdirPackage w' (v "output"ₛ) (v "package"ₛ) = true then
          if (writeAll w' (ktStatus E.ending) fs (ktFiles E)).status = .ok ∧ v "reposPackage"ₛ ≠ [] then
            if mkdirPackage w' (v "output"ₛ) (v "reposPackage"ₛ) = true then
              writeAll w' (ktStatus R.ending) (writeAll w' (ktStatus E.ending) fs (ktFiles E)).files (ktFiles R)
            else ⟨(writeAll w' (ktStatus E.ending) fs (ktFiles E)).files, .error⟩
          else writeAll w' (ktStatus E.ending) fs (ktFiles E)
        else ⟨fs, .error⟩) := by
    intro w' h hsc E R hE hR
    show withSchema w' fs (v "input"ₛ) _ = _
    unfold withSchema
    rw [h]
    dsimp only
    rw [ha, hm, hE, hR, hsc]
    rfl
  have hgen : ∀ E R, E = Jpa.generateEntities w.sc (ktOption v a m) (Jpa.newClasses w.sc (ktOption v a m) s) (v "output"ₛ) →
      R = Jpa.generateRepositories (ktOption v a m) (Jpa.newClasses w.sc (ktOption v a m) s) (v "output"ₛ) →
      Jpa.generate w.sc (ktOption v a m) s (v "output"ₛ) = match E.ending with
        | .done => if v "reposPackage"ₛ = [] then E else ⟨E.writes ++ R.writes, R.ending⟩
        | _ => E := by
    intro E R hE hR
    rw [hE, hR]
    rfl
  obtain ⟨E, hE⟩ : ∃ E, E = Jpa.generateEntities w.sc (ktOption v a m) (Jpa.newClasses w.sc (ktOption v a m) s) (v "output"ₛ) := ⟨_, rfl⟩
  obtain ⟨R, hR⟩ : ∃ R, R = Jpa.generateRepositories (ktOption v a m) (Jpa.newClasses w.sc (ktOption v a m) s) (v "output"ₛ) := ⟨_, rfl⟩
  have h1 := e w hs rfl E R hE hR
  have h2 := e (allowed w) hs rfl E R hE hR
  have hmk : ∀ pkg, mkdirPackage (allowed w) (v "output"ₛ) pkg = true := by
    intro pkg
    unfold mkdirPackage
    rw [Bool.or_eq_true]
    exact .inr rfl
  rw [if_pos (hmk _), if_pos (hmk _), writeAll_allowed, writeAll_allowed] at h2
  dsimp only at h2
  rw [hgen E R hE hR]
  obtain ⟨we, se, hpe, hwe⟩ := writeAll_writes w (ktStatus E.ending) (ktFiles E)
  obtain ⟨wr, sr, hpr, hwr⟩ := writeAll_writes w (ktStatus R.ending) (ktFiles R)
  rw [hwe] at h1
  dsimp only at h1
  by_cases hd : E.ending = .done
  · rw [hd]
    dsimp only
    by_cases hr : v "reposPackage"ₛ = []
    · rw [if_neg fun h : se = .ok ∧ v "reposPackage"ₛ ≠ [] => h.2 hr] at h1
      rw [if_neg fun h => h.2 hr] at h2
      rw [if_pos hr]
      refine ⟨congrArg Result.files h2, ?_⟩
      rw [h1]
      by_cases hk : mkdirPackage w (v "output"ₛ) (v "package"ₛ) = true
      · rw [if_pos hk]
        exact ⟨we, hpe, rfl⟩
      · rw [if_neg hk]
        exact ⟨[], List.nil_prefix, rfl⟩
    · have hfiles : ktFiles ⟨E.writes ++ R.writes, R.ending⟩ = ktFiles E ++ ktFiles R := List.map_append
      rw [if_neg hr, hfiles]
      rw [if_pos ⟨by rw [hd]; rfl, hr⟩] at h2
      refine ⟨by rw [h2, applyWrites_append], ?_⟩
      rw [h1]
      by_cases hk : mkdirPackage w (v "output"ₛ) (v "package"ₛ) = true
      · rw [if_pos hk]
        by_cases hs : se = .ok
        · rw [if_pos ⟨hs, hr⟩]
          have hdone := writeAll_done (w := w) (st := ktStatus E.ending) (l := ktFiles E) (fs := fs) (by rw [hwe]; exact hs)
          have hall : applyWrites fs we = applyWrites fs (ktFiles E) := by
            have := hdone.2
            rw [hwe] at this
            exact this
          by_cases hk' : mkdirPackage w (v "output"ₛ) (v "reposPackage"ₛ) = true
          · rw [if_pos hk', hwr, hall]
            exact ⟨ktFiles E ++ wr, (List.prefix_append_right_inj _).2 hpr, (applyWrites_append ..).symm⟩
          · rw [if_neg hk']
            exact ⟨we, hpe.trans (List.prefix_append ..), rfl⟩
        · rw [if_neg fun h => hs h.1]
          exact ⟨we, hpe.trans (List.prefix_append ..), rfl⟩
      · rw [if_neg hk]
        exact ⟨[], List.nil_prefix, rfl⟩
  · have hg : (match E.ending with
        | .done => if v "reposPackage"ₛ = [] then E else ⟨E.writes ++ R.writes, R.ending⟩
        | _ => E) = E := by
      cases he : E.ending with
      | done => exact absurd he hd
      | fatal => rfl
      | panic => rfl
    rw [hg]
    have hst : ∀ e : Jpa.Ending, ktStatus e = .ok → e = .done := fun e => ktStatus_ok
    rw [if_neg fun h => hd (hst _ h.1)] at h2
    have hse : se ≠ .ok := by
      intro hs
      exact hd (hst _ (writeAll_done (w := w) (st := ktStatus E.ending) (l := ktFiles E) (fs := fs) (by rw [hwe]; exact hs)).1)
    rw [if_neg fun h : se = .ok ∧ v "reposPackage"ₛ ≠ [] => hse h.1] at h1
    refine ⟨congrArg Result.files h2, ?_⟩
    rw [h1]
    by_cases hk : mkdirPackage w (v "output"ₛ) (v "package"ₛ) = true
    · rw [if_pos hk]
      exact ⟨we, hpe, rfl⟩
    · rw [if_neg hk]
      exact ⟨[], List.nil_prefix, rfl⟩

/-! ### The files of the tables -/

theorem jpa_writes_sublist (stop : Jpa.Ending) (dir : List Str) (name : Jpa.KotlinClass → Str) (text : Jpa.KotlinClass → Option Str)
    (ks : List Jpa.KotlinClass) :
    ((Jpa.writeAll stop dir name text ks).writes.map (·.1)).Sublist (ks.map fun k => Jpa.pathJoin (dir ++ [name k])) := by
  induction ks with
  | nil => exact List.Sublist.refl _
  | cons k ks ih =>
    unfold Jpa.writeAll
    cases text k with
    | none => exact List.nil_sublist _
    | some t =>
      dsimp only
      rw [List.map_cons, List.map_cons]
      exact ih.cons_cons _

/-- The tables that are selected. -/
abbrev picked (v : Values) (s : Schema) : List Table := s.tables.filter (passes (getTableFilterFn (v "groups"ₛ)))

theorem kt_sublist {w : World} {v : Values} (ho : v "output"ₛ ≠ []) (s : Schema) (a : AnnotationMapper) (m : PrefixMapper) :
    ((ktFiles (Jpa.generate w.sc (ktOption v a m) s (v "output"ₛ))).map (·.1)).Sublist ((picked v s).map (ktFile w v m) ++
      (if v "reposPackage"ₛ = [] then [] else (picked v s).map (repositoryFile w v m))) := by
  have hkt : ∀ x : Str, x ++ ".kt"ₛ ≠ [] := fun x => List.append_ne_nil_of_right_ne_nil _ (List.cons_ne_nil _ _)
  have hrp : ∀ x : Str, x ++ "Repository.kt"ₛ ≠ [] := fun x => List.append_ne_nil_of_right_ne_nil _ (List.cons_ne_nil _ _)
  have hcls : ∀ pkg suffix, (∀ x : Str, x ++ suffix ≠ []) →
      ((Jpa.newClasses w.sc (ktOption v a m) s).map (fun k => Jpa.pathJoin (Jpa.packageDir (v "output"ₛ) pkg ++ [k.name ++ suffix]))).map joined =
      (picked v s).map fun t => pathOf (inPackage (v "output"ₛ) pkg (ktClass w.sc m v t ++ suffix)) := by
    intro pkg suffix hne
    unfold Jpa.newClasses
    rw [List.map_map, List.map_map]
    refine List.map_congr_left fun t _ => ?_
    have : (Jpa.newClass w.sc (ktOption v a m) t).name = ktClass w.sc m v t := Jpa.className_eq w.sc (ktOption v a m) t
    show joined (Jpa.pathJoin (_ ++ [(Jpa.newClass w.sc (ktOption v a m) t).name ++ suffix])) = _
    rw [this, joined_package ho _ _ (hne _)]
  have hfiles : ∀ r : Jpa.Run, (ktFiles r).map (·.1) = (r.writes.map (·.1)).map joined := by
    intro r
    unfold ktFiles
    rw [List.map_map, List.map_map]
    rfl
  have hE : (((Jpa.generateEntities w.sc (ktOption v a m) (Jpa.newClasses w.sc (ktOption v a m) s) (v "output"ₛ)).writes.map (·.1)).map joined).Sublist
      ((picked v s).map (ktFile w v m)) := by
    have := (jpa_writes_sublist .fatal (Jpa.packageDir (v "output"ₛ) (v "package"ₛ)) (fun k => k.name ++ ".kt"ₛ)
      (Jpa.entityText w.sc (ktOption v a m) (Jpa.newClasses w.sc (ktOption v a m) s)) (Jpa.newClasses w.sc (ktOption v a m) s)).map joined
    rw [hcls _ _ hkt] at this
    exact this
  have hR : (((Jpa.generateRepositories (ktOption v a m) (Jpa.newClasses w.sc (ktOption v a m) s) (v "output"ₛ)).writes.map (·.1)).map joined).Sublist
      ((picked v s).map (repositoryFile w v m)) := by
    have := (jpa_writes_sublist .panic (Jpa.packageDir (v "output"ₛ) (v "reposPackage"ₛ)) (fun k => k.name ++ "Repository.kt"ₛ)
      (Jpa.repositoryText (ktOption v a m)) (Jpa.newClasses w.sc (ktOption v a m) s)).map joined
    rw [hcls _ _ hrp] at this
    exact this
  rw [hfiles]
  unfold Jpa.generate
  dsimp only
  split
  · by_cases hr : v "reposPackage"ₛ = []
    · rw [if_pos (show (ktOption v a m).reposPackage = [] from hr), if_pos hr, List.append_nil]
      exact hE
    · rw [if_neg (show ¬(ktOption v a m).reposPackage = [] from hr), if_neg hr, List.map_append, List.map_append]
      exact hE.append hR
  · exact hE.trans (List.sublist_append_left ..)

theorem sa_list {w : World} {v : Values} (ho : v "output"ₛ ≠ []) (s : Schema) (m : PrefixMapper)
    (h1 : ¬Sqlalchemy.single (v "output"ₛ) = true) :
    ((Sqlalchemy.generate w.sc (saOption v m) s (v "output"ₛ)).map fun p => ((joined p.1, .text p.2) : Path × Content)).map (·.1) =
      (picked v s).map (saFile v) := by
  have hmem : ∀ (l : List Sqlalchemy.SaClass) st, (Sqlalchemy.classFiles (saOption v m) (v "output"ₛ) st l).map (fun p => joined p.1) =
      l.map fun k => saFile v k.table := by
    intro l
    induction l with
    | nil => intro st; rfl
    | cons k l ih =>
      intro st
      unfold Sqlalchemy.classFiles
      dsimp only
      rw [List.map_cons, List.map_cons, ih]
      exact congrArg (· :: _) (joined_dir ho _)
  unfold Sqlalchemy.generate
  dsimp only
  rw [if_neg h1, List.map_map]
  refine (hmem _ _).trans ?_
  unfold Sqlalchemy.newClasses
  rw [List.map_map]
  rfl

/-! ### C137 -/

theorem nodup_picked {v : Values} {s : Schema} {f : Table → Path}
    (h : s.tables.Pairwise fun t u => InGroups (v "groups"ₛ) t → InGroups (v "groups"ₛ) u → f t ≠ f u) : ((picked v s).map f).Nodup := by
  unfold List.Nodup
  rw [List.pairwise_map]
  refine ((h.sublist List.filter_sublist).imp_of_mem ?_)
  intro t u ht hu htu
  exact htu ((passes_groups _ _).1 (List.mem_filter.1 ht).2) ((passes_groups _ _).1 (List.mem_filter.1 hu).2)

theorem begins_complete {fs : Files} {r r' : Result} {l : List (Path × Content)} (h : Begins fs r r' l) (hl : (l.map (·.1)).Nodup) (p : Path) :
    r.files p = fs p ∨ r.files p = r'.files p := by
  obtain ⟨h1, ws, ⟨rest, rfl⟩, h2⟩ := h
  rw [h1, h2, applyWrites_append]
  by_cases hp : ∃ q ∈ ws, q.1 = p
  · refine .inr (applyWrites_of_not_mem ?_ _).symm
    intro q hq e
    obtain ⟨q', hq', e'⟩ := hp
    rw [List.map_append] at hl
    exact (List.nodup_append.1 hl).2.2 _ (List.mem_map_of_mem hq') _ (List.mem_map_of_mem hq) (e'.trans e.symm)
  · exact .inl (applyWrites_of_not_mem (fun q hq e => hp ⟨q, hq, e⟩) _)

/-- C137: a command that fails has changed no other files than the documented ones. -/
theorem C137_targets (w : World) (c : Cmd) (v : Values) (fs : Files) (ho : v "output"ₛ ≠ []) (p : Path)
    (h : (action w c v fs).files p ≠ fs p) : ∃ f, Writes w v fs f c ∧ pathOf f = p := by
  by_cases hok : (action w c v fs).status = .ok
  · by_contra hn
    exact h ((C131_files w c v fs (fun _ => ho) hok p).2 hn)
  · by_cases hc : c ≠ .kt ∧ c ≠ .sqlalchemy
    · obtain ⟨ws, st, h1, -, h3⟩ := action_effect w c v fs
      have h1 := h1 fs fun _ _ => rfl
      rw [h1] at h hok
      rw [h3 hc hok] at h
      exact absurd rfl h
    · cases hs : load w fs (v "input"ₛ) with
      | none =>
        have : (action w c v fs).files = fs := by
          by_cases hk : c = .kt
          · subst hk
            show (withSchema w fs (v "input"ₛ) _).files = fs
            unfold withSchema
            rw [hs]
          · have : c = .sqlalchemy := by
              by_contra hne
              exact hc ⟨hk, hne⟩
            subst this
            show (withSchema w fs (v "input"ₛ) _).files = fs
            unfold withSchema
            rw [hs]
        rw [this] at h
        exact absurd rfl h
      | some s =>
        by_cases hk : c = .kt
        · subst hk
          cases ha : newAnnotationMapper (v "annotation"ₛ) with
          | none =>
            refine absurd ?_ h
            show (withSchema w fs (v "input"ₛ) _).files p = fs p
            unfold withSchema
            rw [hs]
            dsimp only
            rw [ha]
          | some a =>
            cases hm : newPrefixMapper (v "prefix"ₛ) with
            | none =>
              refine absurd ?_ h
              show (withSchema w fs (v "input"ₛ) _).files p = fs p
              unfold withSchema
              rw [hs]
              dsimp only
              rw [ha, hm]
            | some m =>
              obtain ⟨-, ws, hp, e⟩ := kt_begins w v fs s a m hs ha hm
              have hq : ∃ q ∈ ws, q.1 = p := by
                by_contra hn
                rw [e] at h
                exact h (applyWrites_of_not_mem (fun q hq e => hn ⟨q, hq, e⟩) _)
              obtain ⟨q, hq, rfl⟩ := hq
              have hmem := (kt_sublist ho s a m).subset (List.mem_map_of_mem (hp.subset hq))
              rcases List.mem_append.1 hmem with hmem | hmem
              · obtain ⟨t, ht, e'⟩ := List.mem_map.1 hmem
                obtain ⟨ht, hg⟩ := List.mem_filter.1 ht
                exact ⟨_, ⟨s, m, hs, hm, t, ht, (passes_groups _ _).1 hg, .inl rfl⟩, e'⟩
              · by_cases hr : v "reposPackage"ₛ = []
                · rw [if_pos hr] at hmem
                  cases hmem
                · rw [if_neg hr] at hmem
                  obtain ⟨t, ht, e'⟩ := List.mem_map.1 hmem
                  obtain ⟨ht, hg⟩ := List.mem_filter.1 ht
                  exact ⟨_, ⟨s, m, hs, hm, t, ht, (passes_groups _ _).1 hg, .inr ⟨hr, rfl⟩⟩, e'⟩
        · have : c = .sqlalchemy := by
            by_contra hne
            exact hc ⟨hk, hne⟩
          subst this
          cases hm : newPrefixMapper (v "prefix"ₛ) with
          | none =>
            refine absurd ?_ h
            show (withSchema w fs (v "input"ₛ) _).files p = fs p
            unfold withSchema
            rw [hs]
            dsimp only
            rw [hm]
          | some m =>
            rcases sa_begins w v fs s m hs hm with ⟨-, ws, hp, e⟩ | ⟨-, e⟩
            · have hq : ∃ q ∈ ws, q.1 = p := by
                by_contra hn
                rw [e] at h
                exact h (applyWrites_of_not_mem (fun q hq e => hn ⟨q, hq, e⟩) _)
              obtain ⟨q, hq, rfl⟩ := hq
              have hpy := endsIn_iff (exts := [".py"ₛ])
                (fun e he => by rw [List.mem_singleton] at he; exact ⟨"py"ₛ, he, by decide, by decide⟩) (v "output"ₛ)
              have hsingle : Sqlalchemy.single (v "output"ₛ) = true ↔ EndsIn [".py"ₛ] (v "output"ₛ) := by
                rw [← hpy, List.mem_singleton]
                exact beq_iff_eq
              by_cases h1 : Sqlalchemy.single (v "output"ₛ) = true
              · have hq' := hp.subset hq
                unfold Sqlalchemy.generate at hq'
                dsimp only at hq'
                rw [if_pos h1] at hq'
                have hj : joined (Jpa.pathJoin [v "output"ₛ]) = pathOf (v "output"ₛ) := by
                  unfold Jpa.pathJoin
                  rw [List.filter_cons_of_pos (by exact decide_eq_true ho)]
                  rfl
                refine ⟨_, .inl ⟨hsingle.1 h1, rfl⟩, ?_⟩
                rw [List.mem_singleton.1 hq']
                exact hj.symm
              · have hmem := List.mem_map_of_mem (f := (·.1)) (hp.subset hq)
                rw [sa_list ho s m h1] at hmem
                obtain ⟨t, ht, e'⟩ := List.mem_map.1 hmem
                obtain ⟨ht, hg⟩ := List.mem_filter.1 ht
                exact ⟨_, .inr ⟨fun h2 => h1 (hsingle.2 h2), s, hs, t, ht, (passes_groups _ _).1 hg, rfl⟩, e'⟩
            · rw [e] at h
              exact absurd rfl h

/-- C137: there are no half-finished files: after a command that fails, every file is as it was before, or as if all files could be
written and all directories be made. -/
theorem C137_complete (w : World) (c : Cmd) (v : Values) (fs : Files) (ho : v "output"ₛ ≠ []) (ha : Apart w v fs c) (p : Path) :
    (action w c v fs).files p = fs p ∨ (action w c v fs).files p = (action (allowed w) c v fs).files p := by
  by_cases hc : c ≠ .kt ∧ c ≠ .sqlalchemy
  · rcases one_file w c hc v fs with h | h
    · exact .inl (congrFun h p)
    · exact .inr (by rw [h])
  · have hnone : ∀ k : Schema → Result, load w fs (v "input"ₛ) = none → (withSchema w fs (v "input"ₛ) k).files p = fs p := by
      intro k hs
      unfold withSchema
      rw [hs]
    by_cases hk : c = .kt
    · subst hk
      cases hs : load w fs (v "input"ₛ) with
      | none => exact .inl (hnone _ hs)
      | some s =>
        cases hm' : newAnnotationMapper (v "annotation"ₛ) with
        | none =>
          refine .inl ?_
          show (withSchema w fs (v "input"ₛ) _).files p = fs p
          unfold withSchema
          rw [hs]
          dsimp only
          rw [hm']
        | some a =>
          cases hm : newPrefixMapper (v "prefix"ₛ) with
          | none =>
            refine .inl ?_
            show (withSchema w fs (v "input"ₛ) _).files p = fs p
            unfold withSchema
            rw [hs]
            dsimp only
            rw [hm', hm]
          | some m =>
            obtain ⟨h1, h2⟩ := ha s m hs hm
            refine begins_complete (kt_begins w v fs s a m hs hm' hm) ((kt_sublist ho s a m).nodup ?_) p
            by_cases hr : v "reposPackage"ₛ = []
            · rw [if_pos hr, List.append_nil]
              exact nodup_picked h1
            · rw [if_neg hr, List.nodup_append]
              obtain ⟨h2, h3⟩ := h2 hr
              refine ⟨nodup_picked h1, nodup_picked h2, ?_⟩
              intro x hx y hy
              obtain ⟨t, ht, rfl⟩ := List.mem_map.1 hx
              obtain ⟨u, hu, rfl⟩ := List.mem_map.1 hy
              obtain ⟨ht, hgt⟩ := List.mem_filter.1 ht
              obtain ⟨hu, hgu⟩ := List.mem_filter.1 hu
              exact h3 t ht u hu ((passes_groups _ _).1 hgt) ((passes_groups _ _).1 hgu)
    · have : c = .sqlalchemy := by
        by_contra hne
        exact hc ⟨hk, hne⟩
      subst this
      cases hs : load w fs (v "input"ₛ) with
      | none => exact .inl (hnone _ hs)
      | some s =>
        cases hm : newPrefixMapper (v "prefix"ₛ) with
        | none =>
          refine .inl ?_
          show (withSchema w fs (v "input"ₛ) _).files p = fs p
          unfold withSchema
          rw [hs]
          dsimp only
          rw [hm]
        | some m =>
          rcases sa_begins w v fs s m hs hm with h | ⟨-, e⟩
          · refine begins_complete h ?_ p
            by_cases h1 : Sqlalchemy.single (v "output"ₛ) = true
            · unfold Sqlalchemy.generate
              dsimp only
              rw [if_pos h1]
              exact List.nodup_singleton _
            · rw [sa_list ho s m h1]
              exact nodup_picked (ha s hs)
          · exact .inl (congrFun e p)

/-- C137: `generate kt` stops at the second table, after the file of the first one; the tables have different files. -/
example :
    let s : Schema := { tables := [{ name := "a"ₛ }, { name := "b"ₛ, columns := [{ name := "c"ₛ, type := "int"ₛ, ref := some ⟨"q"ₛ, "id"ₛ, []⟩ }] }] }
    let v := given [("input"ₛ, "a.json"ₛ), ("output"ₛ, "o"ₛ), ("package"ₛ, "p"ₛ), ("relation"ₛ, "VRelation"ₛ)]
    v "output"ₛ ≠ [] ∧ Apart demoWorld v (oneFile s) .kt ∧ (action demoWorld .kt v (oneFile s)).status = .fatal ∧
      (action demoWorld .kt v (oneFile s)).files (pathOf "o/p/A.kt"ₛ) ≠ oneFile s (pathOf "o/p/A.kt"ₛ) := by
  refine ⟨by decide, ?_, by decide +kernel, ?_⟩
  · intro s m hs hm
    refine ⟨?_, fun h => absurd rfl h⟩
    generalize hv : given [("input"ₛ, "a.json"ₛ), ("output"ₛ, "o"ₛ), ("package"ₛ, "p"ₛ), ("relation"ₛ, "VRelation"ₛ)] = v at hs hm ⊢
    generalize hf : oneFile _ = fs at hs
    have key : ((load demoWorld fs (v "input"ₛ)).bind fun s => (newPrefixMapper (v "prefix"ₛ)).map fun m =>
        decide (s.tables.map (ktFile demoWorld v m)).Nodup) = some true := by
      rw [← hv, ← hf]
      decide +kernel
    rw [hs, hm] at key
    have := of_decide_eq_true (Option.some.inj key)
    unfold List.Nodup at this
    rw [List.pairwise_map] at this
    exact this.imp fun h _ _ => h
  · have hn : ∀ {a b : Option Content}, a.isSome = true → b.isSome = false → a ≠ b := by
      intro a b h1 h2 e; rw [e, h2] at h1; cases h1
    exact hn (by decide +kernel) (by decide +kernel)

end Octo.Cli
