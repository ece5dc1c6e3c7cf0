import Verif.Spec.Targets
import Verif.Lemmas.CliOutput
import Verif.Lemmas.Paths
import Verif.Props.Crash

/-! Property C131: commands write the files that are documented, and no others. -/

namespace Octo.Cli
open Spec

/-- Goes through the elements of a text. -/
def enter (rooted : Bool) (acc : List Str) (e : Str) : List Str := (split '/' e).foldl (cleanStep rooted) acc

theorem enter_nil (rooted : Bool) (acc : List Str) : enter rooted acc [] = acc := by
  unfold enter
  rw [split_no_sep List.not_mem_nil, List.foldl_cons, List.foldl_nil, cleanStep.eq_def, if_pos (.inl rfl)]

theorem enter_append (rooted : Bool) (acc : List Str) (a b : Str) : enter rooted acc (a ++ '/' :: b) = enter rooted (enter rooted acc a) b := by
  unfold enter
  rw [split_append, List.foldl_append]

theorem join_slash (a x : Str) (l : List Str) : join "/"ₛ (a :: x :: l) = a ++ '/' :: join "/"ₛ (x :: l) := by
  show a ++ "/"ₛ ++ join "/"ₛ (x :: l) = _
  rw [List.append_assoc]
  rfl

theorem enter_join (rooted : Bool) (l : List Str) (acc : List Str) : enter rooted acc (join "/"ₛ l) = l.foldl (enter rooted) acc := by
  induction l generalizing acc with
  | nil => exact enter_nil _ _
  | cons a l ih =>
    cases l with
    | nil => rfl
    | cons x l => rw [join_slash, enter_append, ih]; rfl

theorem foldl_enter_filter (rooted : Bool) (l : List Str) (acc : List Str) :
    (l.filter (· ≠ [])).foldl (enter rooted) acc = l.foldl (enter rooted) acc := by
  induction l generalizing acc with
  | nil => rfl
  | cons a l ih =>
    by_cases h : a = []
    · rw [List.filter_cons_of_neg (by simp [h]), ih, List.foldl_cons, h, enter_nil]
    · rw [List.filter_cons_of_pos (by simp [h]), List.foldl_cons, List.foldl_cons, ih]

theorem pathOf_enter {a : Str} (ha : a ≠ []) (x : Str) :
    pathOf (a ++ '/' :: x) = ⟨(pathOf a).rooted, (enter (pathOf a).rooted (pathOf a).elems.reverse x).reverse⟩ := pathOf_slash ha x

theorem joined_enter {out : Str} (ho : out ≠ []) (l : List Str) :
    joined (Jpa.pathJoin (out :: l)) = ⟨(pathOf out).rooted, (l.foldl (enter (pathOf out).rooted) (pathOf out).elems.reverse).reverse⟩ := by
  unfold joined Jpa.pathJoin
  rw [List.filter_cons_of_pos (by simp [ho]), ← foldl_enter_filter _ l]
  cases l.filter (· ≠ []) with
  | nil =>
    show pathOf out = _
    rw [List.foldl_nil, List.reverse_reverse]
  | cons x m => rw [join_slash, pathOf_enter ho, enter_join]

theorem joined_dir {out : Str} (ho : out ≠ []) (name : Str) : joined (Jpa.pathJoin [out, name]) = pathOf (out ++ "/"ₛ ++ name) := by
  rw [joined_enter ho, List.append_assoc, show "/"ₛ ++ name = '/' :: name from rfl, pathOf_enter ho]
  rfl

/-- Dots as slashes. -/
theorem enter_dots (rooted : Bool) (pkg : Str) (acc : List Str) :
    enter rooted acc (pkg.map fun c => if c = '.' then '/' else c) = (split '.' pkg).foldl (enter rooted) acc := by
  have hs : ∀ s : Str, split '/' (s.map fun c => if c = '.' then '/' else c) = (split '.' s).flatMap (split '/') := by
    intro s
    induction s with
    | nil => rfl
    | cons c s ih =>
      obtain ⟨a, l, hl⟩ : ∃ a l, split '.' s = a :: l := by
        cases h : split '.' s with
        | nil => exact absurd h (split_ne_nil _ _)
        | cons a l => exact ⟨a, l, rfl⟩
      rw [List.map_cons]
      by_cases h : c = '.'
      · subst h
        rw [if_pos rfl, split, if_pos rfl, ih, split, if_pos rfl, List.flatMap_cons]
        rfl
      · rw [if_neg h, split_cons_ne (sep := '.') h, hl, List.flatMap_cons, List.headD_cons, List.tail_cons]
        rw [hl, List.flatMap_cons] at ih
        by_cases h' : c = '/'
        · subst h'
          rw [split, if_pos rfl, ih, split, if_pos rfl]
          rfl
        · rw [split_cons_ne h', split_cons_ne h', ih]
          cases ha : split '/' a with
          | nil => exact absurd ha (split_ne_nil _ _)
          | cons x m => rfl
  unfold enter
  rw [hs]
  induction split '.' pkg generalizing acc with
  | nil => rfl
  | cons a l ih => rw [List.flatMap_cons, List.foldl_append, ih, List.foldl_cons]

theorem joined_package {out : Str} (ho : out ≠ []) (pkg name : Str) (hn : name ≠ []) :
    joined (Jpa.pathJoin (Jpa.packageDir out pkg ++ [name])) = pathOf (inPackage out pkg name) := by
  unfold Jpa.packageDir inPackage
  by_cases hp : pkg = []
  · rw [if_pos hp, if_pos hp]
    unfold joined Jpa.pathJoin
    rw [List.nil_append, List.filter_cons_of_pos (by simp [hn])]
    rfl
  · rw [if_neg hp, if_neg hp]
    have e : Jpa.pathJoin (Jpa.pathJoin (out :: split '.' pkg) ++ [name]) = Jpa.pathJoin (out :: (split '.' pkg ++ [name])) := by
      unfold Jpa.pathJoin
      rw [List.filter_append, List.filter_filter, ← List.cons_append, List.filter_append]
      congr 1
      exact List.filter_congr fun x _ => Bool.and_self _
    rw [e, joined_enter ho, List.foldl_append, ← enter_dots]
    have e2 : out ++ "/"ₛ ++ (pkg.map fun c => if c = '.' then '/' else c) ++ "/"ₛ ++ name =
        out ++ '/' :: ((pkg.map fun c => if c = '.' then '/' else c) ++ '/' :: name) := by
      rw [List.append_assoc, List.append_assoc, List.append_assoc]
      rfl
    rw [e2, pathOf_enter ho, enter_append]
    rfl

theorem endsIn_iff {exts : List Str} (he : ∀ e ∈ exts, ∃ x, e = '.' :: x ∧ '/' ∉ x ∧ '.' ∉ x) (out : Str) :
    lower (fileExt out) ∈ exts ↔ EndsIn exts out := by
  constructor
  · intro h
    obtain ⟨x, hx⟩ := fileExt_eq out
    exact ⟨x, _, hx, h⟩
  · rintro ⟨x, y, rfl, hy⟩
    obtain ⟨z, hz, h1, h2⟩ := he _ hy
    cases y with
    | nil => cases hz
    | cons c y =>
      have hc : c.toLower = '.' := (List.cons.inj hz).1
      have hyz : lower y = z := (List.cons.inj hz).2
      have hdot : ∀ d : Char, d.toLower = '.' → d = '.' := by
        intro d hd
        have := toNat_toLower d
        rw [hd] at this
        have e : ('.' : Char).toNat = 46 := rfl
        rw [e] at this
        split at this
        · omega
        · exact (Char.toNat_inj.1 (e.trans this)).symm
      have hno : ∀ d : Char, d.toLower = d → d ∉ z → d ∉ y := by
        intro d hd hdz hdy
        exact hdz (hyz ▸ hd ▸ List.mem_map_of_mem hdy)
      rw [hdot c hc] at hy ⊢
      rw [fileExt_dot x y ⟨hno _ (by decide) h1, hno _ (by decide) h2⟩]
      exact hy

theorem applyWrites_some {ws : List (Path × Content)} {p : Path} (h : ∃ q ∈ ws, q.1 = p) (fs : Files) : applyWrites fs ws p ≠ none := by
  induction ws generalizing fs with
  | nil => obtain ⟨q, hq, _⟩ := h; cases hq
  | cons q ws ih =>
    show applyWrites (fs.set q.1 q.2) ws p ≠ none
    by_cases hm : ∃ r ∈ ws, r.1 = p
    · exact ih hm _
    · rw [applyWrites_of_not_mem fun r hr e => hm ⟨r, hr, e⟩]
      obtain ⟨r, hr, e⟩ := h
      rcases List.mem_cons.1 hr with rfl | hr
      · unfold Files.set
        rw [if_pos e.symm]
        exact fun e => by cases e
      · exact absurd ⟨r, hr, e⟩ hm

/-- The files that are written, and no others. -/
def Wrote (W : Str → Prop) (fs fs' : Files) : Prop :=
  ∀ p, ((∃ f, W f ∧ pathOf f = p) → fs' p ≠ none) ∧ ((¬∃ f, W f ∧ pathOf f = p) → fs' p = fs p)

theorem Wrote.list {W : Str → Prop} {fs fs' : Files} {l : List (Path × Content)} (h : fs' = applyWrites fs l)
    (hl : ∀ p, (∃ q ∈ l, q.1 = p) ↔ ∃ f, W f ∧ pathOf f = p) : Wrote W fs fs' := by
  intro p
  rw [← hl p, h]
  exact ⟨fun h => applyWrites_some h fs, fun h => applyWrites_of_not_mem (fun q hq e => h ⟨q, hq, e⟩) fs⟩

theorem Wrote.one {W : Str → Prop} {fs fs' : Files} {q : Path} {x : Content} (h : fs' = fs.set q x) (h1 : ∃ f, W f ∧ pathOf f = q)
    (h2 : ∀ f, W f → pathOf f = q) : Wrote W fs fs' := by
  refine .list (l := [(q, x)]) h fun p => ⟨?_, ?_⟩
  · rintro ⟨r, hr, rfl⟩
    rw [List.mem_singleton] at hr
    rw [hr]
    exact h1
  · rintro ⟨f, hf, rfl⟩
    exact ⟨_, List.mem_singleton.2 rfl, (h2 f hf).symm⟩

theorem Wrote.out {fs fs' : Files} {out : Str} {x : Content} (h : fs' = fs.set (pathOf out) x) : Wrote (fun f => f = out) fs fs' :=
  .one h ⟨out, rfl, rfl⟩ fun f e => by rw [e]

theorem jpa_written {stop : Jpa.Ending} (hs : stop ≠ .done) {dir : List Str} {name : Jpa.KotlinClass → Str} {text : Jpa.KotlinClass → Option Str}
    {ks : List Jpa.KotlinClass} (h : (Jpa.writeAll stop dir name text ks).ending = .done) :
    (Jpa.writeAll stop dir name text ks).writes.map (·.1) = ks.map fun k => Jpa.pathJoin (dir ++ [name k]) := by
  induction ks with
  | nil => rfl
  | cons k ks ih =>
    unfold Jpa.writeAll at h ⊢
    cases ht : text k with
    | none => rw [ht] at h; exact absurd h hs
    | some t =>
      rw [ht] at h
      dsimp only
      rw [List.map_cons, List.map_cons, ih h]

/-- The files of `generate sqlalchemy` for a directory. -/
theorem sa_targets {w : World} {v : Values} {fs : Files} (ho : v "output"ₛ ≠ []) {s : Schema} (hs : load w fs (v "input"ₛ) = some s)
    {m : PrefixMapper} (h1 : ¬Sqlalchemy.single (v "output"ₛ) = true) (p : Path) :
    (∃ q ∈ (Sqlalchemy.classFiles (saOption v m) (v "output"ₛ) Sqlalchemy.start (Sqlalchemy.newClasses w.sc (saOption v m) s)).map
      (fun x => ((joined x.1, .text x.2) : Path × Content)), q.1 = p) ↔ ∃ f, Writes w v fs f .sqlalchemy ∧ pathOf f = p := by
  have hpy := endsIn_iff (exts := [".py"ₛ]) (fun e he => by rw [List.mem_singleton] at he; exact ⟨"py"ₛ, he, by decide, by decide⟩) (v "output"ₛ)
  have hsingle : Sqlalchemy.single (v "output"ₛ) = true ↔ EndsIn [".py"ₛ] (v "output"ₛ) := by
    rw [← hpy, List.mem_singleton]
    exact beq_iff_eq
  have hmem : ∀ (l : List Sqlalchemy.SaClass) st, (Sqlalchemy.classFiles (saOption v m) (v "output"ₛ) st l).map (·.1) =
      l.map fun k => Jpa.pathJoin [v "output"ₛ, k.table.name ++ ".py"ₛ] := by
    intro l
    induction l with
    | nil => intro st; rfl
    | cons k l ih => intro st; unfold Sqlalchemy.classFiles; dsimp only; rw [List.map_cons, List.map_cons, ih]
  have hcls : (Sqlalchemy.newClasses w.sc (saOption v m) s).map (fun k => Jpa.pathJoin [v "output"ₛ, k.table.name ++ ".py"ₛ]) =
      (s.tables.filter (passes (getTableFilterFn (v "groups"ₛ)))).map fun t => Jpa.pathJoin [v "output"ₛ, t.name ++ ".py"ₛ] := by
    unfold Sqlalchemy.newClasses
    rw [List.map_map]
    rfl
  constructor
  · rintro ⟨q, hq, rfl⟩
    obtain ⟨x, hx, rfl⟩ := List.mem_map.1 hq
    have hx' : x.1 ∈ (Sqlalchemy.classFiles (saOption v m) (v "output"ₛ) Sqlalchemy.start (Sqlalchemy.newClasses w.sc (saOption v m) s)).map (·.1) :=
      List.mem_map_of_mem hx
    rw [hmem, hcls] at hx'
    obtain ⟨t, ht, e'⟩ := List.mem_map.1 hx'
    obtain ⟨ht, hg⟩ := List.mem_filter.1 ht
    refine ⟨_, .inr ⟨fun h2 => h1 (hsingle.2 h2), s, hs, t, ht, (passes_groups _ _).1 hg, rfl⟩, ?_⟩
    show _ = joined x.1
    rw [← e', joined_dir ho]
  · rintro ⟨f, hf, rfl⟩
    rcases hf with ⟨h2, _⟩ | ⟨_, s', hs', t, ht, hg, rfl⟩
    · exact absurd (hsingle.2 h2) h1
    · rw [hs] at hs'
      cases hs'
      have ht' : Jpa.pathJoin [v "output"ₛ, t.name ++ ".py"ₛ] ∈ (s.tables.filter (passes (getTableFilterFn (v "groups"ₛ)))).map fun t =>
          Jpa.pathJoin [v "output"ₛ, t.name ++ ".py"ₛ] := List.mem_map_of_mem (List.mem_filter.2 ⟨ht, (passes_groups _ _).2 hg⟩)
      rw [← hcls, ← hmem _ Sqlalchemy.start] at ht'
      obtain ⟨x, hx, e'⟩ := List.mem_map.1 ht'
      refine ⟨_, List.mem_map_of_mem hx, ?_⟩
      show joined x.1 = _
      rw [e', joined_dir ho]

/-- The files of `generate kt`. -/
theorem kt_targets {w : World} {v : Values} {fs : Files} (ho : v "output"ₛ ≠ []) {s : Schema} (hs : load w fs (v "input"ₛ) = some s)
    {a : AnnotationMapper} {m : PrefixMapper} (hm : newPrefixMapper (v "prefix"ₛ) = some m)
    (hd : (Jpa.generate w.sc (ktOption v a m) s (v "output"ₛ)).ending = .done) (p : Path) :
    (∃ q ∈ ktFiles (Jpa.generate w.sc (ktOption v a m) s (v "output"ₛ)), q.1 = p) ↔ ∃ f, Writes w v fs f .kt ∧ pathOf f = p := by
  have hkt : ∀ x : Str, x ++ ".kt"ₛ ≠ [] := fun x => List.append_ne_nil_of_right_ne_nil _ (List.cons_ne_nil _ _)
  have hrp : ∀ x : Str, x ++ "Repository.kt"ₛ ≠ [] := fun x => List.append_ne_nil_of_right_ne_nil _ (List.cons_ne_nil _ _)
  have hcls : ∀ pkg suffix, (Jpa.newClasses w.sc (ktOption v a m) s).map (fun k => Jpa.pathJoin (Jpa.packageDir (v "output"ₛ) pkg ++ [k.name ++ suffix])) =
      (s.tables.filter (passes (getTableFilterFn (v "groups"ₛ)))).map fun t =>
        Jpa.pathJoin (Jpa.packageDir (v "output"ₛ) pkg ++ [ktClass w.sc m v t ++ suffix]) := by
    intro pkg suffix
    unfold Jpa.newClasses
    rw [List.map_map]
    refine List.map_congr_left fun t _ => ?_
    have : (Jpa.newClass w.sc (ktOption v a m) t).name = ktClass w.sc m v t := Jpa.className_eq w.sc (ktOption v a m) t
    show Jpa.pathJoin (_ ++ [(Jpa.newClass w.sc (ktOption v a m) t).name ++ suffix]) = _
    rw [this]
  have hwrites : (Jpa.generate w.sc (ktOption v a m) s (v "output"ₛ)).writes.map (·.1) =
      ((s.tables.filter (passes (getTableFilterFn (v "groups"ₛ)))).map fun t =>
        Jpa.pathJoin (Jpa.packageDir (v "output"ₛ) (v "package"ₛ) ++ [ktClass w.sc m v t ++ ".kt"ₛ])) ++
      (if v "reposPackage"ₛ = [] then [] else (s.tables.filter (passes (getTableFilterFn (v "groups"ₛ)))).map fun t =>
        Jpa.pathJoin (Jpa.packageDir (v "output"ₛ) (v "reposPackage"ₛ) ++ [ktClass w.sc m v t ++ "Repository.kt"ₛ])) := by
    have hent : (Jpa.generateEntities w.sc (ktOption v a m) (Jpa.newClasses w.sc (ktOption v a m) s) (v "output"ₛ)).ending = .done := by
      cases he : (Jpa.generateEntities w.sc (ktOption v a m) (Jpa.newClasses w.sc (ktOption v a m) s) (v "output"ₛ)).ending with
      | done => rfl
      | fatal => unfold Jpa.generate at hd; dsimp only at hd; rw [he] at hd; dsimp only at hd; rw [he] at hd; cases hd
      | panic => unfold Jpa.generate at hd; dsimp only at hd; rw [he] at hd; dsimp only at hd; rw [he] at hd; cases hd
    have hw1 := jpa_written (by decide) hent
    unfold Jpa.generate at hd ⊢
    dsimp only at hd ⊢
    rw [hent] at hd ⊢
    dsimp only at hd ⊢
    rw [← hcls, ← hcls]
    by_cases hr : v "reposPackage"ₛ = []
    · rw [if_pos hr, if_pos (show (ktOption v a m).reposPackage = [] from hr), List.append_nil]
      exact hw1
    · rw [if_neg (show ¬(ktOption v a m).reposPackage = [] from hr)] at hd ⊢
      rw [if_neg hr, List.map_append]
      exact congrArg₂ _ hw1 (jpa_written (by decide) hd)
  constructor
  · rintro ⟨q, hq, rfl⟩
    obtain ⟨x, hx, rfl⟩ := List.mem_map.1 hq
    have hx' := List.mem_map_of_mem (f := fun y : List Str × Str => y.1) hx
    rw [hwrites] at hx'
    rcases List.mem_append.1 hx' with hx' | hx'
    · obtain ⟨t, ht, e'⟩ := List.mem_map.1 hx'
      obtain ⟨ht, hg⟩ := List.mem_filter.1 ht
      refine ⟨_, ⟨s, m, hs, hm, t, ht, (passes_groups _ _).1 hg, .inl rfl⟩, ?_⟩
      show _ = joined x.1
      rw [← e', joined_package ho _ _ (hkt _)]
    · split at hx'
      · cases hx'
      · rename_i hr
        obtain ⟨t, ht, e'⟩ := List.mem_map.1 hx'
        obtain ⟨ht, hg⟩ := List.mem_filter.1 ht
        refine ⟨_, ⟨s, m, hs, hm, t, ht, (passes_groups _ _).1 hg, .inr ⟨hr, rfl⟩⟩, ?_⟩
        show _ = joined x.1
        rw [← e', joined_package ho _ _ (hrp _)]
  · rintro ⟨f, ⟨s', m', hs', hm', t, ht, hg, hf⟩, rfl⟩
    rw [hs] at hs'
    cases hs'
    rw [hm] at hm'
    cases hm'
    have ht' := List.mem_filter.2 ⟨ht, (passes_groups _ _).2 hg⟩
    have hin : ∀ y : List Str, y ∈ (Jpa.generate w.sc (ktOption v a m) s (v "output"ₛ)).writes.map (·.1) →
        ∃ q ∈ ktFiles (Jpa.generate w.sc (ktOption v a m) s (v "output"ₛ)), q.1 = joined y := by
      intro y hy
      obtain ⟨x, hx, rfl⟩ := List.mem_map.1 hy
      exact ⟨_, List.mem_map_of_mem hx, rfl⟩
    rw [hwrites] at hin
    rcases hf with rfl | ⟨hr, rfl⟩
    · rw [← joined_package ho _ _ (hkt _)]
      exact hin _ (List.mem_append_left _ (List.mem_map_of_mem ht'))
    · rw [← joined_package ho _ _ (hrp _)]
      refine hin _ (List.mem_append_right _ ?_)
      rw [if_neg hr]
      exact List.mem_map_of_mem ht'

/-- C131: a command that succeeds has written exactly the files that are documented: the file that is named, or the documented files
in the directory. -/
theorem C131_files (w : World) (c : Cmd) (v : Values) (fs : Files) (hc : c = .kt → v "output"ₛ ≠ []) (h : (action w c v fs).status = .ok) :
    ∀ p, ((∃ f, Writes w v fs f c ∧ pathOf f = p) → (action w c v fs).files p ≠ none) ∧
      ((¬∃ f, Writes w v fs f c ∧ pathOf f = p) → (action w c v fs).files p = fs p) := by
  show Wrote (fun f => Writes w v fs f c) fs (action w c v fs).files
  have hgo := endsIn_iff (exts := [".go"ₛ]) (fun e he => by rw [List.mem_singleton] at he; exact ⟨"go"ₛ, he, by decide, by decide⟩) (v "output"ₛ)
  have hpy := endsIn_iff (exts := [".py"ₛ]) (fun e he => by rw [List.mem_singleton] at he; exact ⟨"py"ₛ, he, by decide, by decide⟩) (v "output"ₛ)
  have hpu := endsIn_iff (exts := plantumlExts) (fun e he => by
    have : ∀ e ∈ plantumlExts, e = '.' :: e.tail ∧ '/' ∉ e.tail ∧ '.' ∉ e.tail := by decide
    exact ⟨_, this e he⟩) (v "output"ₛ)
  cases c with
  | init => obtain ⟨x, e⟩ := import_done (List.mem_of_getElem? (i := 0) rfl) h; exact .out e
  | importMysql => obtain ⟨x, e⟩ := import_done (List.mem_of_getElem? (i := 1) rfl) h; exact .out e
  | importOjson => obtain ⟨x, e⟩ := import_done (List.mem_of_getElem? (i := 2) rfl) h; exact .out e
  | importStaruml => obtain ⟨x, e⟩ := import_done (List.mem_of_getElem? (i := 3) rfl) h; exact .out e
  | importXlsx => obtain ⟨x, e⟩ := import_done (List.mem_of_getElem? (i := 4) rfl) h; exact .out e
  | exportDbml => obtain ⟨s, _, e⟩ := dbml_done h; exact .out e
  | exportQuickdbd => obtain ⟨s, _, e⟩ := quickdbd_done h; exact .out e
  | exportMysql => obtain ⟨s, _, _, e⟩ := mysql_done h; exact .out e
  | exportXlsx => obtain ⟨s, _, _, _, e⟩ := xlsx_done h; exact .out e
  | liquibase => obtain ⟨s, _, _, _, e⟩ := liquibase_done h; exact .out e
  | pb => obtain ⟨s, _, _, _, _, _, e⟩ := pb_done h; exact .out e
  | diffFlyway => obtain ⟨_, _, _, _, e⟩ := flyway_done h; exact .out e
  | diffLiquibase => obtain ⟨_, _, _, _, _, _, e⟩ := diffLiquibase_done h; exact .out e
  | diffMd => obtain ⟨_, _, _, _, e⟩ := md_done h; exact .out e
  | gorm =>
    obtain ⟨s, m, p, _, _, hp, e⟩ := gorm_done h
    rcases hp with ⟨h1, rfl⟩ | ⟨h1, ho, rfl⟩
    · refine .one e ⟨_, .inl ⟨hgo.1 h1, rfl⟩, rfl⟩ ?_
      rintro f (⟨_, rfl⟩ | ⟨h2, _⟩)
      · rfl
      · exact absurd (hgo.1 h1) h2
    · have hj := joined_dir ho "output.go"ₛ
      rw [List.append_assoc] at hj
      refine .one e ⟨_, .inr ⟨fun h2 => h1 (hgo.2 h2), rfl⟩, hj.symm⟩ ?_
      rintro f (⟨h2, _⟩ | ⟨_, rfl⟩)
      · exact absurd (hgo.2 h2) h1
      · exact hj.symm
  | plantuml =>
    obtain ⟨s, p, _, hp, e⟩ := plantuml_done h
    rcases hp with ⟨h1, rfl⟩ | ⟨h1, ho, rfl⟩
    · refine .one e ⟨_, .inl ⟨hpu.1 h1, rfl⟩, rfl⟩ ?_
      rintro f (⟨_, rfl⟩ | ⟨h2, _⟩)
      · rfl
      · exact absurd (hpu.1 h1) h2
    · have hj := joined_dir ho "output.plantuml"ₛ
      rw [List.append_assoc] at hj
      refine .one e ⟨_, .inr ⟨fun h2 => h1 (hpu.2 h2), rfl⟩, hj.symm⟩ ?_
      rintro f (⟨h2, _⟩ | ⟨_, rfl⟩)
      · exact absurd (hpu.2 h2) h1
      · exact hj.symm
  | graphql =>
    obtain ⟨ho, s, m, hs, _, e⟩ := graphql_done h
    have hj := joined_dir ho (s.name ++ "-"ₛ ++ s.version ++ ".graphqls"ₛ)
    refine .one e ⟨_, ⟨s, hs, rfl⟩, hj.symm⟩ ?_
    rintro f ⟨s', hs', rfl⟩
    rw [hs] at hs'
    cases hs'
    exact hj.symm
  | sqlalchemy =>
    obtain ⟨ho, s, m, hs, _, e⟩ := sa_done h
    have hsingle : Sqlalchemy.single (v "output"ₛ) = true ↔ EndsIn [".py"ₛ] (v "output"ₛ) := by
      rw [← hpy, List.mem_singleton]
      exact beq_iff_eq
    unfold Sqlalchemy.generate at e
    dsimp only at e
    by_cases h1 : Sqlalchemy.single (v "output"ₛ) = true
    · rw [if_pos h1] at e
      have hj : joined (Jpa.pathJoin [v "output"ₛ]) = pathOf (v "output"ₛ) := by
        unfold Jpa.pathJoin
        rw [List.filter_cons_of_pos (by exact decide_eq_true ho)]
        rfl
      refine .one (e.trans rfl) ⟨_, .inl ⟨hsingle.1 h1, rfl⟩, hj.symm⟩ ?_
      rintro f (⟨_, rfl⟩ | ⟨h2, _⟩)
      · exact hj.symm
      · exact absurd (hsingle.1 h1) h2
    · rw [if_neg h1] at e
      exact .list e (sa_targets ho hs (m := m) h1)
  | kt =>
    obtain ⟨s, a, m, hs, ha, hm, hd, e⟩ := kt_done h
    exact .list e (kt_targets (hc rfl) hs hm hd)

/-- C131: commands succeed, also with the extension in capitals and with a package of two parts. -/
example :
    let r := action demoWorld .gorm (given [("input"ₛ, "a.json"ₛ), ("output"ₛ, "x.GO"ₛ)]) crashFiles
    let r' := action demoWorld .kt (given [("input"ₛ, "a.json"ₛ), ("output"ₛ, "o"ₛ), ("package"ₛ, "p.q"ₛ), ("groups"ₛ, "g"ₛ)]) crashFiles
    r.status = .ok ∧ r.files (pathOf "x.GO"ₛ) ≠ none ∧ r.files (pathOf "x.GO/output.go"ₛ) = none ∧
    r'.status = .ok ∧ r'.files (pathOf "o/p/q/AT.kt"ₛ) ≠ none := by
  have hn : ∀ {a : Option Content}, a.isSome = true → a ≠ none := by
    intro a h1 e; rw [e] at h1; cases h1
  have hs : ∀ {a : Option Content}, a.isSome = false → a = none := by
    intro a h1
    cases a
    · rfl
    · cases h1
  exact ⟨by decide +kernel, hn (by decide +kernel), hs (by decide +kernel), by decide +kernel, hn (by decide +kernel)⟩

end Octo.Cli
