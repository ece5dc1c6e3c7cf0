import Verif.Lemmas.CliAction
import Verif.Lemmas.JpaRepository

/-! What commands have written when they succeed. -/

namespace Octo.Cli
open Spec

theorem write_done {w : World} {fs : Files} {p : Path} {x : Content} (h : (write w fs p x).status = .ok) :
    (write w fs p x).files = fs.set p x := by
  unfold write at h ⊢
  split
  · rfl
  · rename_i hw
    rw [if_neg hw] at h
    cases h

theorem writeAll_done {w : World} {st : Status} {l : List (Path × Content)} {fs : Files} (h : (writeAll w st fs l).status = .ok) :
    st = .ok ∧ (writeAll w st fs l).files = applyWrites fs l := by
  induction l generalizing fs with
  | nil => exact ⟨h, rfl⟩
  | cons p l ih =>
    unfold writeAll at h ⊢
    split at h
    · rename_i hw
      rw [if_pos hw]
      exact ih h
    · cases h

theorem writeIn_done {w : World} {fs : Files} {exts : List Str} {out name text : Str} (h : (writeIn w fs exts out name text).status = .ok) :
    (lower (fileExt out) ∈ exts ∧ (writeIn w fs exts out name text).files = fs.set (pathOf out) (.text text)) ∨
    (lower (fileExt out) ∉ exts ∧ out ≠ [] ∧ (writeIn w fs exts out name text).files = fs.set (joined (Jpa.pathJoin [out, name])) (.text text)) := by
  unfold writeIn at h ⊢
  by_cases he : lower (fileExt out) ∈ exts
  · rw [if_pos he] at h ⊢
    exact .inl ⟨he, write_done h⟩
  · rw [if_neg he] at h ⊢
    split at h
    · rename_i hm
      rw [if_pos hm]
      refine .inr ⟨he, ?_, write_done h⟩
      intro e
      rw [e] at hm
      cases hm
    · cases h

theorem save_done {w : World} {fs : Files} {s : Schema} {out : Str} (h : (save w fs s out).status = .ok) :
    ∃ text, s.toJson w.sorter = some text ∧ (save w fs s out).files = fs.set (pathOf out) (.text text) := by
  unfold save at h ⊢
  split at h
  · cases h
  · rename_i text ht
    rw [ht]
    exact ⟨text, rfl, write_done h⟩

theorem withSchema_done {w : World} {fs : Files} {f : Str} {k : Schema → Result} (h : (withSchema w fs f k).status = .ok) :
    ∃ s, load w fs f = some s ∧ (k s).status = .ok ∧ withSchema w fs f k = k s := by
  unfold withSchema at h ⊢
  split at h
  · cases h
  · rename_i s hs
    rw [hs]
    exact ⟨s, rfl, h, rfl⟩

theorem dbml_done {w : World} {v : Values} {fs : Files} (h : (action w .exportDbml v fs).status = .ok) : ∃ s, load w fs (v "input"ₛ) = some s ∧
    (action w .exportDbml v fs).files = fs.set (pathOf (v "output"ₛ)) (.text (Dbml.exportText (getTableFilterFn (v "groups"ₛ)) s)) := by
  obtain ⟨s, hs, h1, h2⟩ := withSchema_done h
  replace h2 : (action w .exportDbml v fs).files = _ := congrArg Result.files h2
  exact ⟨s, hs, h2.trans (write_done h1)⟩

theorem quickdbd_done {w : World} {v : Values} {fs : Files} (h : (action w .exportQuickdbd v fs).status = .ok) :
    ∃ s, load w fs (v "input"ₛ) = some s ∧
    (action w .exportQuickdbd v fs).files = fs.set (pathOf (v "output"ₛ)) (.text (Quickdbd.exportText s)) := by
  obtain ⟨s, hs, h1, h2⟩ := withSchema_done h
  replace h2 : (action w .exportQuickdbd v fs).files = _ := congrArg Result.files h2
  exact ⟨s, hs, h2.trans (write_done h1)⟩

theorem mysql_done {w : World} {v : Values} {fs : Files} (h : (action w .exportMysql v fs).status = .ok) :
    ∃ s x, load w fs (v "input"ₛ) = some s ∧ (action w .exportMysql v fs).files = fs.set (pathOf (v "output"ₛ)) x := by
  obtain ⟨s, hs, h1, h2⟩ := withSchema_done h
  replace h2 : (action w .exportMysql v fs).files = _ := congrArg Result.files h2
  exact ⟨s, _, hs, h2.trans (write_done h1)⟩

theorem xlsx_done {w : World} {v : Values} {fs : Files} (h : (action w .exportXlsx v fs).status = .ok) :
    ∃ s sheets, load w fs (v "input"ₛ) = some s ∧ Xlsx.exportSchema w.accepts (v.bool "useNullColumn"ₛ) s = some sheets ∧
    (action w .exportXlsx v fs).files = fs.set (pathOf (v "output"ₛ)) (.book sheets) := by
  obtain ⟨s, hs, h1, h2⟩ := withSchema_done h
  replace h2 : (action w .exportXlsx v fs).files = _ := congrArg Result.files h2
  cases hx : Xlsx.exportSchema w.accepts (v.bool "useNullColumn"ₛ) s with
  | none => rw [hx] at h1; cases h1
  | some sheets =>
    rw [hx] at h1 h2
    exact ⟨s, sheets, hs, hx, h2.trans (write_done h1)⟩

/-- The option of `generate gorm`. -/
def gormOption (v : Values) (m : PrefixMapper) : Gorm.GormOption :=
  { prefixMapper := m, tableFilter := getTableFilterFn (v "groups"ₛ), embed := v "embed"ₛ, package := v "package"ₛ
    pointerAssociation := v.bool "pointerAssociation"ₛ, removePrefixes := split ',' (v "removePrefix"ₛ)
    uniqueNameSuffix := v "uniqueNameSuffix"ₛ }

theorem gorm_done {w : World} {v : Values} {fs : Files} (h : (action w .gorm v fs).status = .ok) :
    ∃ s m p, load w fs (v "input"ₛ) = some s ∧ newPrefixMapper (v "prefix"ₛ) = some m ∧
    ((lower (fileExt (v "output"ₛ)) ∈ [".go"ₛ] ∧ p = pathOf (v "output"ₛ)) ∨
     (lower (fileExt (v "output"ₛ)) ∉ [".go"ₛ] ∧ v "output"ₛ ≠ [] ∧ p = joined (Jpa.pathJoin [v "output"ₛ, "output.go"ₛ]))) ∧
    (action w .gorm v fs).files = fs.set p (.text (Gorm.generate w.sc w.models Gorm.defaultModels (gormOption v m) s).1) := by
  obtain ⟨s, hs, h1, h2⟩ := withSchema_done h
  replace h2 : (action w .gorm v fs).files = _ := congrArg Result.files h2
  cases hm : newPrefixMapper (v "prefix"ₛ) with
  | none => rw [hm] at h1; cases h1
  | some m =>
    rw [hm] at h1 h2
    rcases writeIn_done h1 with ⟨e, hf⟩ | ⟨e, e', hf⟩
    · exact ⟨s, m, _, hs, rfl, .inl ⟨e, rfl⟩, h2.trans hf⟩
    · exact ⟨s, m, _, hs, rfl, .inr ⟨e, e', rfl⟩, h2.trans hf⟩

theorem plantuml_done {w : World} {v : Values} {fs : Files} (h : (action w .plantuml v fs).status = .ok) :
    ∃ s p, load w fs (v "input"ₛ) = some s ∧
    ((lower (fileExt (v "output"ₛ)) ∈ [".wsd"ₛ, ".pu"ₛ, ".puml"ₛ, ".plantuml"ₛ, ".iuml"ₛ] ∧ p = pathOf (v "output"ₛ)) ∨
     (lower (fileExt (v "output"ₛ)) ∉ [".wsd"ₛ, ".pu"ₛ, ".puml"ₛ, ".plantuml"ₛ, ".iuml"ₛ] ∧ v "output"ₛ ≠ [] ∧
      p = joined (Jpa.pathJoin [v "output"ₛ, "output.plantuml"ₛ]))) ∧
    (action w .plantuml v fs).files = fs.set p (.text (Plantuml.generate s)) := by
  obtain ⟨s, hs, h1, h2⟩ := withSchema_done h
  replace h2 : (action w .plantuml v fs).files = _ := congrArg Result.files h2
  rcases writeIn_done h1 with ⟨e, hf⟩ | ⟨e, e', hf⟩
  · exact ⟨s, _, hs, .inl ⟨e, rfl⟩, h2.trans hf⟩
  · exact ⟨s, _, hs, .inr ⟨e, e', rfl⟩, h2.trans hf⟩

/-- The option of `generate graphql`. -/
def graphqlOption (v : Values) (m : PrefixMapper) : Graphql.GqlOption :=
  { prefixMapper := m, tableFilter := getTableFilterFn (v "groups"ₛ), removePrefixes := split ',' (v "removePrefix"ₛ) }

theorem graphql_done {w : World} {v : Values} {fs : Files} (h : (action w .graphql v fs).status = .ok) :
    v "output"ₛ ≠ [] ∧ ∃ s m, load w fs (v "input"ₛ) = some s ∧ newPrefixMapper (v "prefix"ₛ) = some m ∧
    (action w .graphql v fs).files = fs.set (joined (Graphql.generate w.sc w.plural (graphqlOption v m) s (v "output"ₛ)).1)
      (.text (Graphql.generate w.sc w.plural (graphqlOption v m) s (v "output"ₛ)).2) := by
  obtain ⟨s, hs, h1, h2⟩ := withSchema_done h
  replace h2 : (action w .graphql v fs).files = _ := congrArg Result.files h2
  cases hm : newPrefixMapper (v "prefix"ₛ) with
  | none => rw [hm] at h1; cases h1
  | some m =>
    rw [hm] at h1 h2
    dsimp only at h1 h2
    by_cases hd : mkdir w (v "output"ₛ) = true
    · rw [if_pos hd] at h1 h2
      refine ⟨fun e => ?_, s, m, hs, rfl, h2.trans (write_done h1)⟩
      rw [e] at hd
      cases hd
    · rw [if_neg hd] at h1
      cases h1

theorem liquibase_done {w : World} {v : Values} {fs : Files} (h : (action w .liquibase v fs).status = .ok) :
    ∃ s sets, load w fs (v "input"ₛ) = some s ∧ Lq.generateAll w.float
      { tableFilter := getTableFilterFn (v "groups"ₛ), uniqueNameSuffix := v "uniqueNameSuffix"ₛ, useComments := v.bool "comments"ₛ } s = some sets ∧
    (action w .liquibase v fs).files = fs.set (pathOf (v "output"ₛ)) (.changelog sets) := by
  obtain ⟨s, hs, h1, h2⟩ := withSchema_done h
  replace h2 : (action w .liquibase v fs).files = _ := congrArg Result.files h2
  cases hx : Lq.generateAll w.float
      { tableFilter := getTableFilterFn (v "groups"ₛ), uniqueNameSuffix := v "uniqueNameSuffix"ₛ, useComments := v.bool "comments"ₛ } s with
  | none => rw [hx] at h1; cases h1
  | some sets =>
    rw [hx] at h1 h2
    exact ⟨s, sets, hs, hx, h2.trans (write_done h1)⟩

theorem pb_done {w : World} {v : Values} {fs : Files} (h : (action w .pb v fs).status = .ok) :
    ∃ s o text, load w fs (v "input"ₛ) = some s ∧ Protobuf.cliOption (v "prefix"ₛ) (v "groups"ₛ) (v "removePrefix"ₛ) (v "package"ₛ) (v "goPackage"ₛ)
        (v "relationTagStart"ₛ) (v.bool "relationTagDecr"ₛ) = some o ∧ Protobuf.generate w.sc o s = some text ∧
    (action w .pb v fs).files = fs.set (pathOf (v "output"ₛ)) (.text text) := by
  obtain ⟨s, hs, h1, h2⟩ := withSchema_done h
  replace h2 : (action w .pb v fs).files = _ := congrArg Result.files h2
  cases ho : Protobuf.cliOption (v "prefix"ₛ) (v "groups"ₛ) (v "removePrefix"ₛ) (v "package"ₛ) (v "goPackage"ₛ)
        (v "relationTagStart"ₛ) (v.bool "relationTagDecr"ₛ) with
  | none => rw [ho] at h1; cases h1
  | some o =>
    rw [ho] at h1 h2
    dsimp only at h1 h2
    cases hx : Protobuf.generate w.sc o s with
    | none => rw [hx] at h1; cases h1
    | some text =>
      rw [hx] at h1 h2
      exact ⟨s, o, text, hs, rfl, hx, h2.trans (write_done h1)⟩

/-- The option of `generate sqlalchemy`. -/
def saOption (v : Values) (m : PrefixMapper) : Sqlalchemy.SaOption :=
  { prefixMapper := m, tableFilter := getTableFilterFn (v "groups"ₛ), removePrefixes := split ',' (v "removePrefix"ₛ)
    uniqueNameSuffix := v "uniqueNameSuffix"ₛ, useUTC := v.bool "useUTC"ₛ }

theorem sa_done {w : World} {v : Values} {fs : Files} (h : (action w .sqlalchemy v fs).status = .ok) :
    v "output"ₛ ≠ [] ∧ ∃ s m, load w fs (v "input"ₛ) = some s ∧ newPrefixMapper (v "prefix"ₛ) = some m ∧
    (action w .sqlalchemy v fs).files = applyWrites fs ((Sqlalchemy.generate w.sc (saOption v m) s (v "output"ₛ)).map fun p => (joined p.1, .text p.2)) := by
  obtain ⟨s, hs, h1, h2⟩ := withSchema_done h
  replace h2 : (action w .sqlalchemy v fs).files = _ := congrArg Result.files h2
  cases hm : newPrefixMapper (v "prefix"ₛ) with
  | none => rw [hm] at h1; cases h1
  | some m =>
    rw [hm] at h1 h2
    dsimp only at h1 h2
    by_cases hd : mkdir w (if Sqlalchemy.single (v "output"ₛ) = true then dirOf (v "output"ₛ) else v "output"ₛ) = true
    · rw [if_pos hd] at h1 h2
      refine ⟨fun e => ?_, s, m, hs, rfl, h2.trans (writeAll_done h1).2⟩
      rw [e] at hd
      cases hd
    · rw [if_neg hd] at h1
      cases h1

/-- The option of `generate kt`. -/
def ktOption (v : Values) (a : AnnotationMapper) (m : PrefixMapper) : Jpa.KtOption :=
  { annoMapper := a, prefixMapper := m, tableFilter := getTableFilterFn (v "groups"ₛ), idEntity := v "idEntity"ₛ
    package := v "package"ₛ, relation := v "relation"ₛ, removePrefixes := split ',' (v "removePrefix"ₛ)
    reposPackage := v "reposPackage"ₛ, uniqueNameSuffix := v "uniqueNameSuffix"ₛ }

theorem ktStatus_ok {e : Jpa.Ending} (h : ktStatus e = .ok) : e = .done := by
  cases e
  · rfl
  · cases h
  · cases h

theorem kt_done {w : World} {v : Values} {fs : Files} (h : (action w .kt v fs).status = .ok) :
    ∃ s a m, load w fs (v "input"ₛ) = some s ∧ newAnnotationMapper (v "annotation"ₛ) = some a ∧ newPrefixMapper (v "prefix"ₛ) = some m ∧
    (Jpa.generate w.sc (ktOption v a m) s (v "output"ₛ)).ending = .done ∧
    (action w .kt v fs).files = applyWrites fs (ktFiles (Jpa.generate w.sc (ktOption v a m) s (v "output"ₛ))) := by
  obtain ⟨s, hs, h1, h2⟩ := withSchema_done h
  replace h2 : (action w .kt v fs).files = _ := congrArg Result.files h2
  cases ha : newAnnotationMapper (v "annotation"ₛ) with
  | none => rw [ha] at h1; cases h1
  | some a =>
    cases hm : newPrefixMapper (v "prefix"ₛ) with
    | none => rw [ha, hm] at h1; cases h1
    | some m =>
      rw [ha, hm] at h1 h2
      refine ⟨s, a, m, hs, rfl, rfl, ?_⟩
      have main : ∀ (o : Jpa.KtOption) (r : Result), r.status = .ok → (if mkdirPackage w (v "output"ₛ) o.package = true then
          if (writeAll w (ktStatus (Jpa.generateEntities w.sc o (Jpa.newClasses w.sc o s) (v "output"ₛ)).ending) fs
              (ktFiles (Jpa.generateEntities w.sc o (Jpa.newClasses w.sc o s) (v "output"ₛ)))).status = .ok ∧ o.reposPackage ≠ [] then
            if mkdirPackage w (v "output"ₛ) o.reposPackage = true then
              writeAll w (ktStatus (Jpa.generateRepositories o (Jpa.newClasses w.sc o s) (v "output"ₛ)).ending)
                (writeAll w (ktStatus (Jpa.generateEntities w.sc o (Jpa.newClasses w.sc o s) (v "output"ₛ)).ending) fs
                  (ktFiles (Jpa.generateEntities w.sc o (Jpa.newClasses w.sc o s) (v "output"ₛ)))).files
                (ktFiles (Jpa.generateRepositories o (Jpa.newClasses w.sc o s) (v "output"ₛ)))
            else ⟨(writeAll w (ktStatus (Jpa.generateEntities w.sc o (Jpa.newClasses w.sc o s) (v "output"ₛ)).ending) fs
                  (ktFiles (Jpa.generateEntities w.sc o (Jpa.newClasses w.sc o s) (v "output"ₛ)))).files, .error⟩
          else writeAll w (ktStatus (Jpa.generateEntities w.sc o (Jpa.newClasses w.sc o s) (v "output"ₛ)).ending) fs
            (ktFiles (Jpa.generateEntities w.sc o (Jpa.newClasses w.sc o s) (v "output"ₛ)))
          else ⟨fs, .error⟩) = r →
          (Jpa.generate w.sc o s (v "output"ₛ)).ending = .done ∧ r.files = applyWrites fs (ktFiles (Jpa.generate w.sc o s (v "output"ₛ))) := by
        intro o r hok hr
        by_cases h3 : mkdirPackage w (v "output"ₛ) o.package = true
        · rw [if_pos h3] at hr
          by_cases h4 : (writeAll w (ktStatus (Jpa.generateEntities w.sc o (Jpa.newClasses w.sc o s) (v "output"ₛ)).ending) fs
              (ktFiles (Jpa.generateEntities w.sc o (Jpa.newClasses w.sc o s) (v "output"ₛ)))).status = .ok
          · have h5 := writeAll_done h4
            have h6 := ktStatus_ok h5.1
            by_cases h7 : o.reposPackage = []
            · rw [if_neg fun h => h.2 h7] at hr
              unfold Jpa.generate
              dsimp only
              rw [h6]
              dsimp only
              rw [if_pos h7]
              exact ⟨h6, hr ▸ h5.2⟩
            · rw [if_pos ⟨h4, h7⟩] at hr
              by_cases h8 : mkdirPackage w (v "output"ₛ) o.reposPackage = true
              · rw [if_pos h8] at hr
                rw [← hr] at hok
                have h9 := writeAll_done hok
                unfold Jpa.generate
                dsimp only
                rw [h6]
                dsimp only
                rw [if_neg h7]
                refine ⟨ktStatus_ok h9.1, ?_⟩
                rw [← hr, h9.2, h5.2, ← applyWrites_append]
                unfold ktFiles
                rw [List.map_append]
              · rw [if_neg h8] at hr
                rw [← hr] at hok
                cases hok
          · rw [if_neg fun h => h4 h.1] at hr
            rw [← hr] at hok
            exact absurd hok h4
        · rw [if_neg h3] at hr
          rw [← hr] at hok
          cases hok
      rw [h2]
      exact main (ktOption v a m) _ h1 rfl

theorem withSchemas_done {w : World} {v : Values} {fs : Files} {k : Schema → Schema → Result} (h : (withSchemas w v fs k).status = .ok) :
    ∃ a b, load w fs (v "from"ₛ) = some a ∧ load w fs (v "to"ₛ) = some b ∧ (k a b).status = .ok ∧ withSchemas w v fs k = k a b := by
  obtain ⟨a, ha, h1, h2⟩ := withSchema_done h
  obtain ⟨b, hb, h3, h4⟩ := withSchema_done h1
  exact ⟨a, b, ha, hb, h3, h2.trans h4⟩

theorem flyway_done {w : World} {v : Values} {fs : Files} (h : (action w .diffFlyway v fs).status = .ok) :
    ∃ a b, load w fs (v "from"ₛ) = some a ∧ load w fs (v "to"ₛ) = some b ∧ (action w .diffFlyway v fs).files =
      fs.set (pathOf (v "output"ₛ)) (.text (flyway (v "uniqueNameSuffix"ₛ) (getDiff (diffOption v a b) w.sched))) := by
  obtain ⟨a, b, ha, hb, h1, h2⟩ := withSchemas_done h
  replace h2 : (action w .diffFlyway v fs).files = _ := congrArg Result.files h2
  exact ⟨a, b, ha, hb, h2.trans (write_done h1)⟩

theorem md_done {w : World} {v : Values} {fs : Files} (h : (action w .diffMd v fs).status = .ok) :
    ∃ a b, load w fs (v "from"ₛ) = some a ∧ load w fs (v "to"ₛ) = some b ∧ (action w .diffMd v fs).files =
      fs.set (pathOf (v "output"ₛ)) (.text (markdown w.keys a.version b.version (getDiff (diffOption v a b) w.sched))) := by
  obtain ⟨a, b, ha, hb, h1, h2⟩ := withSchemas_done h
  replace h2 : (action w .diffMd v fs).files = _ := congrArg Result.files h2
  exact ⟨a, b, ha, hb, h2.trans (write_done h1)⟩

theorem diffLiquibase_done {w : World} {v : Values} {fs : Files} (h : (action w .diffLiquibase v fs).status = .ok) :
    ∃ a b sets, load w fs (v "from"ₛ) = some a ∧ load w fs (v "to"ₛ) = some b ∧ Lq.generate w.float
      { tableFilter := getTableFilterFn (v "groups"ₛ), diffFrom := a, diffTo := b, author := v "author"ₛ
        useComments := v.bool "comments"ₛ } w.sched = some sets ∧
    (action w .diffLiquibase v fs).files = fs.set (pathOf (v "output"ₛ)) (.changelog sets) := by
  obtain ⟨a, b, ha, hb, h1, h2⟩ := withSchemas_done h
  replace h2 : (action w .diffLiquibase v fs).files = _ := congrArg Result.files h2
  cases hx : Lq.generate w.float
      { tableFilter := getTableFilterFn (v "groups"ₛ), diffFrom := a, diffTo := b, author := v "author"ₛ
        useComments := v.bool "comments"ₛ } w.sched with
  | none => rw [hx] at h1; cases h1
  | some sets =>
    rw [hx] at h1 h2
    exact ⟨a, b, sets, ha, hb, hx, h2.trans (write_done h1)⟩

/-- The commands that write the output as it is named. -/
theorem import_done {w : World} {c : Cmd} (hc : c ∈ [Cmd.init, .importMysql, .importOjson, .importStaruml, .importXlsx]) {v : Values} {fs : Files}
    (h : (action w c v fs).status = .ok) : ∃ x, (action w c v fs).files = fs.set (pathOf (v "output"ₛ)) x := by
  have hsave : ∀ s, (save w fs s (v "output"ₛ)).status = .ok → ∃ x, (save w fs s (v "output"ₛ)).files = fs.set (pathOf (v "output"ₛ)) x :=
    fun s h => let ⟨_, _, e⟩ := save_done h; ⟨_, e⟩
  simp only [List.mem_cons, List.not_mem_nil, or_false] at hc
  rcases hc with rfl | rfl | rfl | rfl | rfl
  · exact hsave _ h
  · change (importMysqlAction w v fs).status = _ at h
    change ∃ x, (importMysqlAction w v fs).files = _
    unfold importMysqlAction at h ⊢
    split at h
    · cases h
    · split at h
      · cases h
      · exact hsave _ h
  · change (importOjsonAction w v fs).status = _ at h
    change ∃ x, (importOjsonAction w v fs).files = _
    unfold importOjsonAction at h ⊢
    split at h
    · cases h
    · cases h
    · exact hsave _ h
  · change (importStarumlAction w v fs).status = _ at h
    change ∃ x, (importStarumlAction w v fs).files = _
    unfold importStarumlAction at h ⊢
    split at h
    · cases h
    · cases h
    · exact hsave _ h
  · change (importXlsxAction w v fs).status = _ at h
    change ∃ x, (importXlsxAction w v fs).files = _
    unfold importXlsxAction at h ⊢
    split at h
    · split at h
      · cases h
      · exact hsave _ h
    · cases h

end Octo.Cli
