import Verif.Lemmas.JpaRun

/-! Repositories and whole runs of the JPA generator. -/

namespace Octo.Jpa
open Spec
open Protobuf (LineWord lineWord_ident lineWord_literal)

/-! ### Repositories -/

/-- The lines of a repository. -/
def repositoryLines (o : KtOption) (n k : Str) : List Str :=
  ("package "ₛ ++ o.reposPackage) :: [] :: ([o.package ++ ".*"ₛ, "org.springframework.data.jpa.repository.JpaRepository"ₛ,
    "org.springframework.stereotype.Repository"ₛ].map ("import "ₛ ++ ·) ++ [[], "@Repository"ₛ,
    "interface "ₛ ++ (n ++ ("Repository : JpaRepository<"ₛ ++ (n ++ (", "ₛ ++ (k ++ ">"ₛ)))))])

theorem repositoryId_eq (sc : Strcase) (o : KtOption) (t : Table) :
    repositoryId (newClass sc o t) = if keyColumns t = [] then none else some (ktKeyType sc o t) := by
  unfold repositoryId ktKeyType
  rw [pkFields_eq, show (newClass sc o t).name = className sc o t from rfl, className_eq]
  rcases keyColumns t with _ | ⟨a, _ | ⟨b, l⟩⟩
  · rw [if_neg (by simp), if_pos rfl]; rfl
  · rw [if_neg (by simp), if_neg (by simp)]
    show some (newField sc a).type = _
    rw [field_type]
  · rw [if_pos (by simp), if_neg (by simp)]

set_option maxRecDepth 10000 in
theorem repositoryText_eq (sc : Strcase) (o : KtOption) (t : Table) : repositoryText o (newClass sc o t) =
    if keyColumns t = [] then none else some (unlines (repositoryLines o (ktClassName sc o t) (ktKeyType sc o t))) := by
  unfold repositoryText
  rw [repositoryId_eq, show (newClass sc o t).name = className sc o t from rfl, className_eq]
  split
  · rfl
  · rw [Option.map_some, Option.some.injEq]
    unfold repositoryLines
    simp only [unlines_cons, List.map_cons, List.map_nil, List.append_assoc, List.cons_append, List.nil_append]
    rfl

theorem lineWord_word {w : Str} (h : Word w) : LineWord w := by
  refine ⟨good_word h, h.1, fun hm => ?_⟩
  exact absurd (h.2 _ hm).1 (by decide)

theorem read_interface {n k : Str} (hn : Ident n) (hk : LineWord k) (h : KtHead) (f : KtFile) :
    readKtLine (.top h, f) ("interface "ₛ ++ (n ++ ("Repository : JpaRepository<"ₛ ++ (n ++ (", "ₛ ++ (k ++ ">"ₛ)))))) =
      some (.top noHead, { f with repositories := f.repositories ++ [⟨n ++ "Repository"ₛ, n, k⟩] }) := by
  rw [read_top]
  unfold readKtTopLine
  rw [after_short _ (by decide) (by decide), after_short _ (by decide) (by decide), after_short _ (by decide) (by decide),
    after_long _ (by decide) (by decide)]
  dsimp only
  rw [if_neg (by show ¬(some 'i' = some '@'); decide)]
  have e : "interface "ₛ ++ (n ++ ("Repository : JpaRepository<"ₛ ++ (n ++ (", "ₛ ++ (k ++ ">"ₛ))))) =
      "interface"ₛ ++ ' ' :: ((n ++ "Repository"ₛ) ++ ' ' :: (":"ₛ ++ ' ' :: (("JpaRepository<"ₛ ++ n ++ ","ₛ) ++ ' ' :: (k ++ ">"ₛ)))) := by
    simp only [List.append_assoc]
    rfl
  have g1 : LineWord (n ++ "Repository"ₛ) := (lineWord_ident hn).append (lineWord_literal _ (by decide) (by decide))
  have g3 : Good isBlank ("JpaRepository<"ₛ ++ n ++ ","ₛ) :=
    .append _ _ (.append _ _ (good_chars (by decide)) (Good.blank (good_ident hn))) (good_chars (by decide))
  have g4 : LineWord (k ++ ">"ₛ) := hk.append (lineWord_literal _ (by decide) (by decide))
  rw [e, tokens_cons (good_chars (by decide)) (by decide) rfl, tokens_cons (Good.blank g1.good) g1.ne rfl,
    tokens_cons (good_chars (by decide)) (by decide) rfl, tokens_cons g3 (append_ne_nil (by decide)) rfl,
    tokens_single (Good.blank g4.good) g4.ne]
  unfold readKtTop
  dsimp only
  rw [if_pos ⟨rfl, rfl⟩, List.append_assoc, after_append, Option.bind_some, ktBefore_append, Option.bind_some, ktBefore_append]
  rfl

theorem keyType_lineWord {sc : Strcase} {o : KtOption} {t : Table} (hn : Ident (ktClassName sc o t)) : LineWord (ktKeyType sc o t) := by
  unfold ktKeyType
  split
  · exact (lineWord_type _).1
  · exact lineWord_ident (ident_append hn (by decide))

theorem read_repository {sc : Strcase} {o : KtOption} {s : Schema} (hc : CleanCase sc) (hp : PlainJpa o s) (hr : Word o.reposPackage)
    {t : Table} (ht : t ∈ s.tables) :
    readKt (unlines (repositoryLines o (ktClassName sc o t) (ktKeyType sc o t))) = some (ktRepositoryFile sc o t) := by
  have hn := ident_ktClassName hc hp ht
  have hk := keyType_lineWord hn
  have hi : ∀ i ∈ [o.package ++ ".*"ₛ, "org.springframework.data.jpa.repository.JpaRepository"ₛ,
      "org.springframework.stereotype.Repository"ₛ], LineWord i := by
    intro i hi
    rcases List.mem_cons.1 hi with rfl | hi
    · exact (lineWord_word hp.package).append (lineWord_literal _ (by decide) (by decide))
    · rcases List.mem_cons.1 hi with rfl | hi
      · exact lineWord_literal _ (by decide) (by decide)
      · rw [List.mem_singleton.1 hi]
        exact lineWord_literal _ (by decide) (by decide)
  have hnl : ∀ x ∈ repositoryLines o (ktClassName sc o t) (ktKeyType sc o t), '\n' ∉ x := by
    intro x hx
    unfold repositoryLines at hx
    rcases List.mem_cons.1 hx with rfl | hx
    · exact newline_append (by decide) (lineWord_word hr).newline
    · rcases List.mem_cons.1 hx with rfl | hx
      · exact List.not_mem_nil
      · rcases List.mem_append.1 hx with hx | hx
        · obtain ⟨i, hi', rfl⟩ := List.mem_map.1 hx
          exact newline_append (by decide) (hi i hi').newline
        · rcases List.mem_cons.1 hx with rfl | hx
          · exact List.not_mem_nil
          · rcases List.mem_cons.1 hx with rfl | hx
            · decide
            · rw [List.mem_singleton.1 hx]
              exact newline_append (by decide) (newline_append (newline_ident hn) (newline_append (by decide)
                (newline_append (newline_ident hn) (newline_append (by decide) (newline_append hk.newline (by decide))))))
  unfold readKt
  rw [split_unlines hnl]
  unfold repositoryLines
  rw [List.cons_append, List.foldlM_cons, read_package hr]
  show Option.bind (List.foldlM readKtLine _ _) _ = _
  rw [List.cons_append, List.foldlM_cons, read_top_blank]
  show Option.bind (List.foldlM readKtLine _ _) _ = _
  rw [List.append_assoc, List.foldlM_append, read_imports _ _ hi rfl rfl]
  show Option.bind (List.foldlM readKtLine _ _) _ = _
  rw [List.cons_append, List.cons_append, List.cons_append, List.nil_append]
  rw [List.foldlM_cons, read_top_blank]
  show Option.bind (List.foldlM readKtLine _ _) _ = _
  rw [List.foldlM_cons, read_other (a := "@Repository"ₛ) (.inr ⟨by decide, by decide⟩)]
  show Option.bind (List.foldlM readKtLine _ _) _ = _
  rw [List.foldlM_cons, read_interface hn hk]
  rfl

/-! ### Runs -/

theorem writeAll_done (stop : Ending) (dir : List Str) (name : KotlinClass → Str) (text : KotlinClass → Option Str) (ks : List KotlinClass)
    (g : KotlinClass → Str) (h : ∀ k ∈ ks, text k = some (g k)) :
    writeAll stop dir name text ks = ⟨ks.map fun k => (pathJoin (dir ++ [name k]), g k), .done⟩ := by
  induction ks with
  | nil => rfl
  | cons k ks ih =>
    unfold writeAll
    rw [h k List.mem_cons_self]
    dsimp only
    rw [ih fun x hx => h x (List.mem_cons_of_mem _ hx)]
    rfl

theorem writeAll_stop (stop : Ending) (dir : List Str) (name : KotlinClass → Str) (text : KotlinClass → Option Str) (ks : List KotlinClass)
    (h : ∃ k ∈ ks, text k = none) : (writeAll stop dir name text ks).ending = stop := by
  induction ks with
  | nil => obtain ⟨k, hk, _⟩ := h; cases hk
  | cons k ks ih =>
    unfold writeAll
    cases ht : text k with
    | none => rfl
    | some t =>
      obtain ⟨x, hx, e⟩ := h
      rcases List.mem_cons.1 hx with rfl | hx
      · rw [ht] at e; cases e
      · exact ih ⟨x, hx, e⟩

theorem writeAll_mem {stop : Ending} {dir : List Str} {name : KotlinClass → Str} {text : KotlinClass → Option Str} {ks : List KotlinClass}
    {w : List Str × Str} (h : w ∈ (writeAll stop dir name text ks).writes) :
    ∃ k ∈ ks, text k = some w.2 ∧ w.1 = pathJoin (dir ++ [name k]) := by
  induction ks with
  | nil => cases h
  | cons k ks ih =>
    unfold writeAll at h
    cases ht : text k with
    | none => rw [ht] at h; cases h
    | some t =>
      rw [ht] at h
      rcases List.mem_cons.1 h with rfl | h
      · exact ⟨k, List.mem_cons_self, ht, rfl⟩
      · obtain ⟨x, hx, e⟩ := ih h
        exact ⟨x, List.mem_cons_of_mem _ hx, e⟩

theorem pathJoin_append (a b : List Str) : pathJoin (a ++ b) = pathJoin a ++ pathJoin b := List.filter_append ..

theorem pathJoin_idem (a : List Str) : pathJoin (pathJoin a) = pathJoin a := by
  unfold pathJoin
  rw [List.filter_filter]
  simp

theorem path_eq {out pkg n : Str} (hp : pkg ≠ []) (hn : n ≠ []) :
    pathJoin (packageDir out pkg ++ [n]) = ((out :: split '.' pkg).filter (· ≠ [])) ++ [n] := by
  unfold packageDir
  rw [if_neg hp, pathJoin_append, pathJoin_idem]
  congr 1
  unfold pathJoin
  rw [List.filter_cons_of_pos (by simpa using hn)]
  rfl

/-- All classes that columns refer to exist. -/
def AllRelated (sc : Strcase) (o : KtOption) (s : Schema) : Prop := ∀ t ∈ JpaSelected o s, ∀ c ∈ t.columns, Related sc o s c

/-- The text of the entity of a table. -/
def entityStr (sc : Strcase) (o : KtOption) (s : Schema) (t : Table) : Str := unlines (entityLines (entityParts sc o s t))

theorem entities_done {sc : Strcase} {o : KtOption} {s : Schema} (hc : CleanCase sc) (hp : PlainJpa o s) (hR : AllRelated sc o s) (out : Str) :
    generateEntities sc o (newClasses sc o s) out = ⟨(JpaSelected o s).map fun t => (entityPath sc o out t, entityStr sc o s t), .done⟩ := by
  unfold generateEntities
  rw [writeAll_done _ _ _ _ _ (fun k => entityStr sc o s k.table)]
  · congr 1
    rw [newClasses_eq, List.map_map]
    apply List.map_congr_left
    intro t _
    show (pathJoin (packageDir out o.package ++ [className sc o t ++ ".kt"ₛ]), entityStr sc o s t) = _
    rw [className_eq, path_eq hp.package.1 (append_ne_nil (by decide))]
    rfl
  · intro k hk
    rw [newClasses_eq] at hk
    obtain ⟨t, ht, rfl⟩ := List.mem_map.1 hk
    rw [entityText_eq hc hp, if_pos (hR t ht)]
    rfl

theorem entities_fatal {sc : Strcase} {o : KtOption} {s : Schema} (hc : CleanCase sc) (hp : PlainJpa o s) (hR : ¬AllRelated sc o s) (out : Str) :
    (generateEntities sc o (newClasses sc o s) out).ending = .fatal := by
  unfold generateEntities
  apply writeAll_stop
  unfold AllRelated at hR
  push Not at hR
  obtain ⟨t, ht, c, hc', h⟩ := hR
  refine ⟨newClass sc o t, ?_, ?_⟩
  · rw [newClasses_eq]; exact List.mem_map_of_mem ht
  · rw [entityText_eq hc hp, if_neg fun h' => h (h' c hc')]

/-- All selected tables have a primary key. -/
def AllKeyed (o : KtOption) (s : Schema) : Prop := ∀ t ∈ JpaSelected o s, keyColumns t ≠ []

/-- The text of the repository of a table. -/
def repositoryStr (sc : Strcase) (o : KtOption) (t : Table) : Str := unlines (repositoryLines o (ktClassName sc o t) (ktKeyType sc o t))

theorem repositories_done {sc : Strcase} {o : KtOption} {s : Schema} (hr : o.reposPackage ≠ []) (hK : AllKeyed o s) (out : Str) :
    generateRepositories o (newClasses sc o s) out =
      ⟨(JpaSelected o s).map fun t => (repositoryPath sc o out t, repositoryStr sc o t), .done⟩ := by
  unfold generateRepositories
  rw [writeAll_done _ _ _ _ _ (fun k => repositoryStr sc o k.table)]
  · congr 1
    rw [newClasses_eq, List.map_map]
    apply List.map_congr_left
    intro t _
    show (pathJoin (packageDir out o.reposPackage ++ [className sc o t ++ "Repository.kt"ₛ]), repositoryStr sc o t) = _
    rw [className_eq, path_eq hr (append_ne_nil (by decide))]
    rfl
  · intro k hk
    rw [newClasses_eq] at hk
    obtain ⟨t, ht, rfl⟩ := List.mem_map.1 hk
    rw [repositoryText_eq, if_neg (hK t ht)]
    rfl

theorem repositories_panic {sc : Strcase} {o : KtOption} {s : Schema} (hK : ¬AllKeyed o s) (out : Str) :
    (generateRepositories o (newClasses sc o s) out).ending = .panic := by
  unfold generateRepositories
  apply writeAll_stop
  unfold AllKeyed at hK
  push Not at hK
  obtain ⟨t, ht, h⟩ := hK
  refine ⟨newClass sc o t, ?_, ?_⟩
  · rw [newClasses_eq]; exact List.mem_map_of_mem ht
  · rw [repositoryText_eq, if_pos h]

theorem generate_fatal {sc : Strcase} {o : KtOption} {s : Schema} (hc : CleanCase sc) (hp : PlainJpa o s) (hR : ¬AllRelated sc o s) (out : Str) :
    generate sc o s out = generateEntities sc o (newClasses sc o s) out := by
  unfold generate
  dsimp only
  rw [entities_fatal hc hp hR]

theorem generate_entities {sc : Strcase} {o : KtOption} {s : Schema} (hc : CleanCase sc) (hp : PlainJpa o s) (hR : AllRelated sc o s)
    (hr : o.reposPackage = []) (out : Str) :
    generate sc o s out = ⟨(JpaSelected o s).map fun t => (entityPath sc o out t, entityStr sc o s t), .done⟩ := by
  unfold generate
  dsimp only
  rw [entities_done hc hp hR]
  dsimp only
  rw [if_pos hr]

theorem generate_repositories {sc : Strcase} {o : KtOption} {s : Schema} (hc : CleanCase sc) (hp : PlainJpa o s) (hR : AllRelated sc o s)
    (hr : o.reposPackage ≠ []) (out : Str) : generate sc o s out =
      ⟨((JpaSelected o s).map fun t => (entityPath sc o out t, entityStr sc o s t)) ++
        (generateRepositories o (newClasses sc o s) out).writes, (generateRepositories o (newClasses sc o s) out).ending⟩ := by
  unfold generate
  dsimp only
  rw [entities_done hc hp hR]
  dsimp only
  rw [if_neg hr]

theorem generate_ending {sc : Strcase} {o : KtOption} {s : Schema} (hc : CleanCase sc) (hp : PlainJpa o s) (out : Str) :
    ((generate sc o s out).ending = .fatal ↔ ¬AllRelated sc o s) ∧
    ((generate sc o s out).ending = .panic ↔ AllRelated sc o s ∧ o.reposPackage ≠ [] ∧ ¬AllKeyed o s) := by
  by_cases hR : AllRelated sc o s
  · by_cases hr : o.reposPackage = []
    · rw [generate_entities hc hp hR hr]
      exact ⟨⟨fun e => (by cases e), fun e => absurd hR e⟩, ⟨fun e => (by cases e), fun e => absurd hr e.2.1⟩⟩
    · rw [generate_repositories hc hp hR hr]
      dsimp only
      by_cases hK : AllKeyed o s
      · rw [repositories_done hr hK]
        exact ⟨⟨fun e => (by cases e), fun e => absurd hR e⟩, ⟨fun e => (by cases e), fun e => absurd hK e.2.2⟩⟩
      · rw [repositories_panic hK]
        exact ⟨⟨fun e => (by cases e), fun e => absurd hR e⟩, ⟨fun _ => ⟨hR, hr, hK⟩, fun _ => rfl⟩⟩
  · rw [generate_fatal hc hp hR, entities_fatal hc hp hR]
    exact ⟨⟨fun _ => hR, fun _ => rfl⟩, ⟨fun e => (by cases e), fun e => absurd e.1 hR⟩⟩

theorem entity_written {sc : Strcase} {o : KtOption} {s : Schema} (hc : CleanCase sc) (hp : PlainJpa o s) (hR : AllRelated sc o s) (out : Str)
    {t : Table} (ht : t ∈ JpaSelected o s) : (entityPath sc o out t, entityStr sc o s t) ∈ (generate sc o s out).writes := by
  have hm := List.mem_map_of_mem (f := fun t => (entityPath sc o out t, entityStr sc o s t)) ht
  by_cases hr : o.reposPackage = []
  · rw [generate_entities hc hp hR hr]; exact hm
  · rw [generate_repositories hc hp hR hr]; exact List.mem_append_left _ hm

end Octo.Jpa
