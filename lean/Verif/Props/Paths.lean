import Verif.Lemmas.Paths
import Verif.Lemmas.CliDemo
import Verif.Props.Cli

/-! Property C129: the spelling of paths does not matter. -/

namespace Octo.Cli
open Spec

/-- C129: two texts name the same file of the model exactly when they lead to the same place from every working directory. -/
theorem C129_same_file (a b : Str) : pathOf a = pathOf b ↔ SameFile a b := pathOf_eq_iff a b

theorem pathJoin_append (x y : List Str) : Jpa.pathJoin (x ++ y) = Jpa.pathJoin x ++ Jpa.pathJoin y := List.filter_append ..

section
variable {a b : Str} (h : SameSpelling a b)
include h

theorem spelling_path : pathOf a = pathOf b := (pathOf_eq_iff a b).2 h.2.2

theorem spelling_load (w : World) (fs : Files) : load w fs a = load w fs b := by
  have e : getFileFormat a = getFileFormat b := by unfold getFileFormat; rw [h.2.1]
  unfold load Files.text Files.at
  rw [e, spelling_path h]

theorem spelling_withSchema (w : World) (fs : Files) (k : Schema → Result) : withSchema w fs a k = withSchema w fs b k := by
  unfold withSchema
  rw [spelling_load h]

theorem spelling_text (fs : Files) : fs.text a = fs.text b := by
  unfold Files.text Files.at
  rw [spelling_path h]

theorem spelling_save (w : World) (fs : Files) (s : Schema) : save w fs s a = save w fs s b := by
  unfold save
  rw [spelling_path h]

theorem spelling_mkdir (w : World) : mkdir w a = mkdir w b := by
  unfold mkdir
  rw [spelling_path h]
  congr 1
  by_cases ha : a = []
  · rw [ha, h.1.1 ha]
  · rw [bne_iff_ne.2 ha, bne_iff_ne.2 fun hb => ha (h.1.2 hb)]

theorem spelling_joined (l : List Str) : joined (Jpa.pathJoin (a :: l)) = joined (Jpa.pathJoin (b :: l)) :=
  joined_congr h.1 (spelling_path h) l

theorem spelling_writeIn (w : World) (fs : Files) (exts : List Str) (name text : Str) :
    writeIn w fs exts a name text = writeIn w fs exts b name text := by
  unfold writeIn
  rw [h.2.1, spelling_path h, spelling_mkdir h, spelling_joined h]

theorem spelling_package (pkg : Str) (l : List Str) : joined (Jpa.pathJoin (Jpa.packageDir a pkg ++ l)) =
    joined (Jpa.pathJoin (Jpa.packageDir b pkg ++ l)) := by
  unfold Jpa.packageDir
  split
  · rfl
  · have e : ∀ c : Str, Jpa.pathJoin (Jpa.pathJoin (c :: split '.' pkg) ++ l) = Jpa.pathJoin (c :: (split '.' pkg ++ l)) := fun c => by
      rw [← List.cons_append, pathJoin_append, pathJoin_append]
      congr 1
      unfold Jpa.pathJoin
      rw [List.filter_filter]
      simp only [Bool.and_self]
    rw [e, e, spelling_joined h]

theorem spelling_mkdirPackage (w : World) (pkg : Str) : mkdirPackage w a pkg = mkdirPackage w b pkg := by
  unfold mkdirPackage Jpa.packageDir
  split
  · rfl
  · rw [spelling_joined h]

theorem spelling_ktFiles (stop : Jpa.Ending) (pkg : Str) (name : Jpa.KotlinClass → Str) (text : Jpa.KotlinClass → Option Str)
    (ks : List Jpa.KotlinClass) :
    (Jpa.writeAll stop (Jpa.packageDir a pkg) name text ks).ending = (Jpa.writeAll stop (Jpa.packageDir b pkg) name text ks).ending ∧
    ktFiles (Jpa.writeAll stop (Jpa.packageDir a pkg) name text ks) = ktFiles (Jpa.writeAll stop (Jpa.packageDir b pkg) name text ks) := by
  induction ks with
  | nil => exact ⟨rfl, rfl⟩
  | cons k ks ih =>
    unfold Jpa.writeAll
    cases text k with
    | none => exact ⟨rfl, rfl⟩
    | some t =>
      refine ⟨ih.1, ?_⟩
      show (joined (Jpa.pathJoin (Jpa.packageDir a pkg ++ [name k])), Content.text t) :: ktFiles (Jpa.writeAll stop (Jpa.packageDir a pkg) name text ks) =
        (joined (Jpa.pathJoin (Jpa.packageDir b pkg ++ [name k])), Content.text t) :: ktFiles (Jpa.writeAll stop (Jpa.packageDir b pkg) name text ks)
      rw [spelling_package h, ih.2]

theorem spelling_classFiles (o : Sqlalchemy.SaOption) (ks : List Sqlalchemy.SaClass) (st : Sqlalchemy.State) :
    (Sqlalchemy.classFiles o a st ks).map (fun p => (joined p.1, Content.text p.2)) =
      (Sqlalchemy.classFiles o b st ks).map (fun p => (joined p.1, Content.text p.2)) := by
  induction ks generalizing st with
  | nil => rfl
  | cons k ks ih =>
    unfold Sqlalchemy.classFiles
    dsimp only
    rw [List.map_cons, List.map_cons, ih]
    dsimp only
    rw [spelling_joined h]

end

/-- C129: another spelling of the paths on the command line changes nothing. -/
theorem C129_spelling (w : World) (c : Cmd) (v v' : Values) (fs : Files) (hp : ∀ n ∈ pathOptions, SameSpelling (v n) (v' n))
    (hother : ∀ n, n ∉ pathOptions → v n = v' n) : action w c v fs = action w c v' fs := by
  have hi : SameSpelling (v "input"ₛ) (v' "input"ₛ) := hp _ (List.mem_of_getElem? (i := 0) rfl)
  have ho : SameSpelling (v "output"ₛ) (v' "output"ₛ) := hp _ (List.mem_of_getElem? (i := 1) rfl)
  have hf : SameSpelling (v "from"ₛ) (v' "from"ₛ) := hp _ (List.mem_of_getElem? (i := 2) rfl)
  have ht : SameSpelling (v "to"ₛ) (v' "to"ₛ) := hp _ (List.mem_of_getElem? (i := 3) rfl)
  have hb : ∀ n, n ∉ pathOptions → v.bool n = v'.bool n := fun n h => by unfold Values.bool; rw [hother n h]
  have e1 := hother "excludes"ₛ (by decide)
  have e2 := hother "author"ₛ (by decide)
  have e3 := hother "version"ₛ (by decide)
  have e4 := hother "groups"ₛ (by decide)
  have e5 := hother "uniqueNameSuffix"ₛ (by decide)
  have e6 := hother "prefix"ₛ (by decide)
  have e7 := hother "embed"ₛ (by decide)
  have e8 := hother "package"ₛ (by decide)
  have e9 := hother "removePrefix"ₛ (by decide)
  have e10 := hother "annotation"ₛ (by decide)
  have e11 := hother "idEntity"ₛ (by decide)
  have e12 := hother "relation"ₛ (by decide)
  have e13 := hother "reposPackage"ₛ (by decide)
  have e14 := hother "goPackage"ₛ (by decide)
  have e15 := hother "relationTagStart"ₛ (by decide)
  have b1 := hb "useNullColumn"ₛ (by decide)
  have b2 := hb "pointerAssociation"ₛ (by decide)
  have b3 := hb "comments"ₛ (by decide)
  have b4 := hb "relationTagDecr"ₛ (by decide)
  have b5 := hb "useUTC"ₛ (by decide)
  have hw : ∀ {k k' : Schema → Result}, (∀ s, k s = k' s) → withSchema w fs (v "input"ₛ) k = withSchema w fs (v' "input"ₛ) k' := by
    intro k k' hk
    rw [spelling_withSchema hi, funext hk]
  cases c with
  | init => exact spelling_save ho w fs _
  | importMysql =>
    show importMysqlAction w v fs = importMysqlAction w v' fs
    unfold importMysqlAction
    simp only [spelling_text hi, e1, e2, e3, spelling_save ho]
  | importOjson =>
    show importOjsonAction w v fs = importOjsonAction w v' fs
    unfold importOjsonAction
    simp only [spelling_text hi, spelling_save ho]
  | importStaruml =>
    show importStarumlAction w v fs = importStarumlAction w v' fs
    unfold importStarumlAction
    simp only [spelling_text hi, spelling_save ho]
  | importXlsx =>
    show importXlsxAction w v fs = importXlsxAction w v' fs
    unfold importXlsxAction Files.at
    simp only [spelling_path hi, spelling_save ho]
  | exportDbml => exact hw fun s => by rw [spelling_path ho, e4]
  | exportQuickdbd => exact hw fun s => by rw [spelling_path ho]
  | exportMysql => exact hw fun s => by rw [spelling_path ho, e4, e5]
  | exportXlsx => exact hw fun s => by rw [spelling_path ho, b1]
  | gorm => exact hw fun s => by simp only [e4, e5, e6, e7, e8, e9, b2, spelling_writeIn ho]
  | graphql =>
    refine hw fun s => ?_
    unfold Graphql.generate
    simp only [e4, e6, e9, spelling_mkdir ho, spelling_joined ho]
  | kt =>
    refine hw fun s => ?_
    unfold Jpa.generateEntities Jpa.generateRepositories
    simp only [e4, e5, e6, e8, e9, e10, e11, e12, e13, spelling_mkdirPackage ho, (spelling_ktFiles ho _ _ _ _ _).1,
      (spelling_ktFiles ho _ _ _ _ _).2]
  | liquibase => exact hw fun s => by rw [spelling_path ho, e4, e5, b3]
  | plantuml => exact hw fun s => by rw [spelling_writeIn ho]
  | pb => exact hw fun s => by simp only [spelling_path ho, e4, e6, e8, e9, e14, e15, b4]
  | sqlalchemy =>
    refine hw fun s => ?_
    have es : Sqlalchemy.single (v "output"ₛ) = Sqlalchemy.single (v' "output"ₛ) := by unfold Sqlalchemy.single; rw [ho.2.1]
    have em : mkdir w (if Sqlalchemy.single (v "output"ₛ) then dirOf (v "output"ₛ) else v "output"ₛ) =
        mkdir w (if Sqlalchemy.single (v' "output"ₛ) then dirOf (v' "output"ₛ) else v' "output"ₛ) := by
      rw [es]
      by_cases h : Sqlalchemy.single (v' "output"ₛ) = true
      · rw [if_pos h, if_pos h]
        have hext : ∀ p : Str, Sqlalchemy.single p = true → fileExt p ≠ [] ∧ fileExt p ≠ "."ₛ := by
          intro p hp
          unfold Sqlalchemy.single at hp
          have hp := beq_iff_eq.1 hp
          exact ⟨fun e => by rw [e] at hp; revert hp; decide, fun e => by rw [e] at hp; revert hp; decide⟩
        have h1 := pathOf_dirOf (hext _ (es.trans h))
        have h2 := pathOf_dirOf (hext _ h)
        unfold mkdir
        rw [h1.2, h2.2, bne_iff_ne.2 h1.1, bne_iff_ne.2 h2.1, spelling_path ho]
      · rw [if_neg h, if_neg h, spelling_mkdir ho]
    have eg : ∀ o, (Sqlalchemy.generate w.sc o s (v "output"ₛ)).map (fun p => (joined p.1, Content.text p.2)) =
        (Sqlalchemy.generate w.sc o s (v' "output"ₛ)).map (fun p => (joined p.1, Content.text p.2)) := by
      intro o
      unfold Sqlalchemy.generate
      dsimp only
      rw [es]
      split
      · simp only [List.map_cons, List.map_nil, spelling_joined ho]
      · exact spelling_classFiles ho o _ _
    simp only [e4, e5, e6, e9, b5, em, eg]
  | diffFlyway =>
    show diffFlywayAction w v fs = diffFlywayAction w v' fs
    unfold diffFlywayAction withSchemas diffOption
    simp only [spelling_withSchema hf, spelling_withSchema ht, spelling_path ho, e2, e4, e5, b3]
  | diffLiquibase =>
    show diffLiquibaseAction w v fs = diffLiquibaseAction w v' fs
    unfold diffLiquibaseAction withSchemas
    simp only [spelling_withSchema hf, spelling_withSchema ht, spelling_path ho, e2, e4, b3]
  | diffMd =>
    show diffMdAction w v fs = diffMdAction w v' fs
    unfold diffMdAction withSchemas diffOption
    simp only [spelling_withSchema hf, spelling_withSchema ht, spelling_path ho, e2, e4, e5, b3]

/-- C129: three spellings of a path, and another path. -/
example : SameSpelling "../../a/x.json"ₛ "..//b/.././../a/./x.json"ₛ ∧ ¬SameFile "../../x.json"ₛ "../x.json"ₛ ∧
    walk ["home"ₛ, "me"ₛ, "db"ₛ] "../../a/x.json"ₛ = ["home"ₛ, "a"ₛ, "x.json"ₛ] := by
  refine ⟨⟨by decide, by decide, (pathOf_eq_iff _ _).1 (by decide +kernel)⟩, fun h => ?_, by decide +kernel⟩
  exact absurd ((pathOf_eq_iff _ _).2 h) (by decide +kernel)

end Octo.Cli
