import Verif.Lemmas.CliNames
import Verif.Lemmas.CliDemo
import Verif.Props.Json
import Verif.Props.Xlsx
import Verif.Props.MysqlImport

/-! The commands as a whole: which files they change (C109, C110, C116), the sample of `init` (C111), conversions (C112, C113, C119,
C120) and the choice of the command (C118). -/

namespace Octo.Cli
open Spec

/-- The outcome of an action: writes to targets, the rest stays. -/
theorem action_changes (w : World) (c : Cmd) (v : Values) (fs : Files) (p : Path) (h : (action w c v fs).files p ≠ fs p) :
    Target w v fs p c := by
  obtain ⟨ws, st, h1, h2, -⟩ := action_effect w c v fs
  rw [h1 fs fun _ _ => rfl] at h
  by_contra hp
  exact h (applyWrites_of_not_mem (fun q hq e => by have := h2 q hq; rw [e] at this; exact hp this) fs)

/-! ### C109 -/

/-- C109 (partial): a command changes only the output and files below it.  Missing: names with separators, and Kotlin classes without
package; see the `C109_violated` theorems. -/
theorem C109_frame_partial (w : World) (hsc : w.sc = strcase) (env : Str → Option Str) (c : Cmd) (args : List Str) (fs : Files)
    (hs : ∀ v, parse c.flags env args = .run v → SafeNames w v fs c) (p : Path) (h : (run w env c args fs).files p ≠ fs p) :
    ∃ v, parse c.flags env args = .run v ∧ Below (pathOf (v "output"ₛ)) p := by
  unfold run at h
  split at h
  · exact absurd rfl h
  · exact absurd rfl h
  · rename_i v hv
    exact ⟨v, hv, below_target hsc (hs v hv) (action_changes w c v fs p h)⟩

/-- C109 (partial): commands that write a single file change exactly that file. -/
theorem C109_single_partial (w : World) (c : Cmd) (hc : c ∉ [.gorm, .plantuml, .graphql, .kt, .sqlalchemy]) (v : Values) (fs : Files)
    (p : Path) (h : (action w c v fs).files p ≠ fs p) : p = pathOf (v "output"ₛ) := by
  have := action_changes w c v fs p h
  cases c with
  | gorm => exact absurd hc (by decide)
  | plantuml => exact absurd hc (by decide)
  | graphql => exact absurd hc (by decide)
  | kt => exact absurd hc (by decide)
  | sqlalchemy => exact absurd hc (by decide)
  | _ => exact this

/-- C109 fails without package: the Kotlin classes are written into the working directory, not into the output. -/
theorem C109_violated_kt (w : World) (hsc : w.sc = strcase) (v : Values) (fs : Files) (hp : v "package"ₛ = []) (hr : v "reposPackage"ₛ = [])
    (hx : '/' ∉ v "prefix"ₛ) (ht : ∀ s, load w fs (v "input"ₛ) = some s → ∀ t ∈ s.tables, '/' ∉ t.className)
    (p : Path) (h : (action w .kt v fs).files p ≠ fs p) : p.rooted = false ∧ p.elems.length ≤ 1 := by
  obtain ⟨s, m, hl, hm, t, htm, o, ho, -, e | ⟨hne, -⟩⟩ := action_changes w .kt v fs p h
  · have hn : '/' ∉ Jpa.className w.sc o t ++ ".kt"ₛ := by
      rw [hsc]; exact mem_last (className_slash (ho ▸ hm) hx (ht s hl t htm)) (by decide)
    have hne : Jpa.className w.sc o t ++ ".kt"ₛ ≠ [] := by
      intro e; exact absurd (List.append_eq_nil_iff.mp e).2 (by decide)
    rw [hp] at e
    have e2 : joined (Jpa.pathJoin (Jpa.packageDir (v "output"ₛ) [] ++ [Jpa.className w.sc o t ++ ".kt"ₛ])) =
        pathOf (Jpa.className w.sc o t ++ ".kt"ₛ) := by
      unfold Jpa.packageDir Jpa.pathJoin joined
      rw [if_pos rfl, List.nil_append, List.filter_cons_of_pos (by exact decide_eq_true hne)]
      rfl
    rw [e, e2]
    have hh : (Jpa.className w.sc o t ++ ".kt"ₛ).head? ≠ some '/' := fun e => hn (List.mem_of_mem_head? e)
    refine ⟨beq_eq_false_iff_ne.mpr hh, ?_⟩
    unfold pathOf
    simp only [split_no_sep hn, List.foldl_cons, List.foldl_nil, List.length_reverse]
    have hc : ∀ (b : Bool) (e : Str), (cleanStep b [] e).length ≤ 1 := by
      intro b e
      unfold cleanStep
      split
      · decide
      · split
        · cases b <;> decide
        · exact Nat.le_refl _
    exact hc _ _
  · exact absurd hr hne

/-- The values of options. -/
def given (l : List (Str × Str)) : Values := fun n => (l.lookup n).getD []

/-- One file `a.json` with a schema. -/
def oneFile (s : Schema) : Files := fun p => if p = pathOf "a.json"ₛ then (s.toJson tableSort).map .text else none

/-- C109 fails as stated: a schema with the name `../../x` lets `generate graphql` write outside of the output directory, a table with
such a name `generate sqlalchemy`, and `generate kt` without package writes into the working directory. -/
theorem C109_violated :
    (∃ (s : Schema) (v : Values) (p : Path), ¬Below (pathOf (v "output"ₛ)) p ∧
      (action demoWorld .graphql v (oneFile s)).files p ≠ oneFile s p) ∧
    (∃ (s : Schema) (v : Values) (p : Path), ¬Below (pathOf (v "output"ₛ)) p ∧
      (action demoWorld .sqlalchemy v (oneFile s)).files p ≠ oneFile s p) ∧
    (∃ (s : Schema) (v : Values) (p : Path), ¬Below (pathOf (v "output"ₛ)) p ∧
      (action demoWorld .kt v (oneFile s)).files p ≠ oneFile s p) := by
  have hb : ∀ {o : Str} {p : Path}, (pathOf o).elems.isPrefixOf p.elems = false → ¬Below (pathOf o) p := by
    intro o p h ⟨_, r, hr, _⟩
    rw [hr, show (pathOf o).elems.isPrefixOf ((pathOf o).elems ++ r) = true from
      List.isPrefixOf_iff_prefix.mpr (List.prefix_append ..)] at h
    cases h
  have hn : ∀ {a b : Option Content}, a.isSome = true → b.isSome = false → a ≠ b := by
    intro a b h1 h2 e; rw [e, h2] at h1; cases h1
  refine ⟨⟨{ name := "../../x"ₛ, version := "1"ₛ }, given [("input"ₛ, "a.json"ₛ), ("output"ₛ, "o"ₛ)], pathOf "../x-1.graphqls"ₛ,
      hb (by decide +kernel), hn (by decide +kernel) (by decide +kernel)⟩,
    ⟨{ tables := [{ name := "../../x"ₛ }] }, given [("input"ₛ, "a.json"ₛ), ("output"ₛ, "o"ₛ)], pathOf "../x.py"ₛ,
      hb (by decide +kernel), hn (by decide +kernel) (by decide +kernel)⟩,
    ⟨{ tables := [{ name := "x"ₛ }] }, given [("input"ₛ, "a.json"ₛ), ("output"ₛ, "o"ₛ)], pathOf "X.kt"ₛ,
      hb (by decide +kernel), hn (by decide +kernel) (by decide +kernel)⟩⟩

/-- C109: with a safe name the file is below the output. -/
example : (action demoWorld .graphql (demoValues .graphql) demoFiles).files (pathOf "o/s-1.graphqls"ₛ) ≠
    demoFiles (pathOf "o/s-1.graphqls"ₛ) := by
  have hn : ∀ {a b : Option Content}, a.isSome = true → b.isSome = false → a ≠ b := by
    intro a b h1 h2 e; rw [e, h2] at h1; cases h1
  exact hn (by decide +kernel) (by decide +kernel)

/-! ### C110 -/

/-- C110 (partial): when a command fails, no file has changed; for all commands that write one file. -/
theorem C110_failure_partial (w : World) (env : Str → Option Str) (c : Cmd) (hc : c ≠ .kt ∧ c ≠ .sqlalchemy) (args : List Str)
    (fs : Files) (h : (run w env c args fs).status ≠ .ok) : (run w env c args fs).files = fs := by
  unfold run at h ⊢
  split
  · rfl
  · rfl
  · rename_i v hv
    rw [hv] at h
    obtain ⟨ws, st, h1, -, h3⟩ := action_effect w c v fs
    have h1 := h1 fs fun _ _ => rfl
    simp only [h1] at h ⊢
    rw [h3 hc h]; rfl

theorem split_last {sep : Char} {y : Str} (hy : sep ∉ y) (x : Str) : ∃ l e, split sep (x ++ y) = l ++ [e ++ y] := by
  induction x with
  | nil => exact ⟨[], [], by rw [List.nil_append, split_no_sep hy]; rfl⟩
  | cons c x ih =>
    obtain ⟨l, e, h⟩ := ih
    by_cases hc : c = sep
    · refine ⟨[] :: l, e, ?_⟩
      rw [List.cons_append, split, if_pos hc, h]; rfl
    · cases l with
      | nil => exact ⟨[], c :: e, by rw [List.cons_append, split_cons_ne hc, h]; rfl⟩
      | cons a l => exact ⟨(c :: a) :: l, e, by rw [List.cons_append, split_cons_ne hc, h]; rfl⟩

/-- A path with a long end without separator names a file. -/
theorem pathOf_elems {x y : Str} (hy : '/' ∉ y) (hl : 2 < y.length) : (pathOf (x ++ y)).elems ≠ [] := by
  obtain ⟨l, e, h⟩ := split_last hy x
  unfold pathOf
  simp only [h, List.foldl_append, List.foldl_cons, List.foldl_nil]
  have h3 : 2 < (e ++ y).length := by rw [List.length_append]; omega
  unfold cleanStep
  rw [if_neg (fun hc => ?_), if_neg (fun hc => ?_)]
  · simp only [List.reverse_cons]
    exact List.append_ne_nil_of_right_ne_nil _ (List.cons_ne_nil _ _)
  · rw [hc] at h3; exact absurd h3 (by decide)
  · rcases hc with hc | hc <;> · rw [hc] at h3; exact absurd h3 (by decide)

theorem joined_elems {out y : Str} (hy : '/' ∉ y) (hl : 2 < y.length) (x : Str) :
    (joined (Jpa.pathJoin [out, x ++ y])).elems ≠ [] := by
  have hne : x ++ y ≠ [] := fun e => by rw [(List.append_eq_nil_iff.mp e).2] at hl; exact absurd hl (by decide)
  unfold joined Jpa.pathJoin
  by_cases ho : out = []
  · rw [List.filter_cons_of_neg (by rw [ho]; decide), List.filter_cons_of_pos (by exact decide_eq_true hne)]
    exact pathOf_elems hy hl
  · rw [List.filter_cons_of_pos (by exact decide_eq_true ho), List.filter_cons_of_pos (by exact decide_eq_true hne)]
    show (pathOf (join "/"ₛ [out, x ++ y])).elems ≠ []
    rw [show join "/"ₛ [out, x ++ y] = out ++ "/"ₛ ++ (x ++ y) from rfl, ← List.append_assoc]
    exact pathOf_elems hy hl

theorem fileExt_eq (out : Str) : ∃ x, out = x ++ fileExt out := by
  unfold fileExt
  simp only
  split
  · rename_i r hr
    refine ⟨r.reverse, ?_⟩
    have := List.takeWhile_append_dropWhile (p := fun c : Char => c ≠ '/' && c ≠ '.') (l := out.reverse)
    rw [hr] at this
    have := congrArg List.reverse this
    rw [List.reverse_reverse, List.reverse_append, List.reverse_cons] at this
    conv_lhs => rw [← this]
    rw [List.append_assoc]; rfl
  · exact ⟨out, (List.append_nil _).symm⟩

theorem writeAll_ok {w : World} {l : List (Path × Content)} (h : ∀ q ∈ l, w.writable q.1 = true) (fs : Files) :
    (writeAll w .ok fs l).status = .ok := by
  induction l generalizing fs with
  | nil => rfl
  | cons q l ih =>
    unfold writeAll
    rw [if_pos (h q (List.mem_cons_self ..))]
    exact ih (fun r hr => h r (List.mem_cons_of_mem _ hr)) _

/-- C110 (partial): the same for `generate sqlalchemy`, unless a file cannot be written. -/
theorem C110_sqlalchemy_partial (w : World) (hw : Writable w) (env : Str → Option Str) (args : List Str) (fs : Files)
    (h : (run w env .sqlalchemy args fs).status ≠ .ok) : (run w env .sqlalchemy args fs).files = fs := by
  unfold run at h ⊢
  split
  · rfl
  · rfl
  · rename_i v hv
    rw [hv] at h
    show (sqlalchemyAction w v fs).files = fs
    replace h : (sqlalchemyAction w v fs).status ≠ .ok := h
    unfold sqlalchemyAction withSchema at h ⊢
    split
    · rfl
    · rename_i s hs
      rw [hs] at h
      simp only at h ⊢
      split
      · rfl
      · rename_i m hm
        rw [hm] at h
        simp only at h ⊢
        by_cases hmk : mkdir w (if Sqlalchemy.single (v "output"ₛ) = true then dirOf (v "output"ₛ) else v "output"ₛ) = true
        · rw [if_pos hmk] at h
          refine absurd (writeAll_ok (fun q hq => hw.1 _ ?_) fs) h
          obtain ⟨x, hx, rfl⟩ := List.mem_map.mp hq
          unfold Sqlalchemy.generate at hx
          simp only at hx
          split at hx
          · rename_i h1
            rw [List.mem_singleton] at hx; subst hx
            obtain ⟨x, hx⟩ := fileExt_eq (v "output"ₛ)
            have hpy : lower (fileExt (v "output"ₛ)) = ".py"ₛ := eq_of_beq h1
            have hl : (fileExt (v "output"ₛ)).length = 3 := by
              have := congrArg List.length hpy
              rwa [lower, List.length_map] at this
            have hsl : '/' ∉ fileExt (v "output"ₛ) := by
              intro hm
              have : Char.toLower '/' ∈ lower (fileExt (v "output"ₛ)) := List.mem_map_of_mem hm
              rw [hpy] at this
              exact absurd this (by decide)
            have hne : v "output"ₛ ≠ [] := fun e => by rw [e] at hl; exact absurd hl (by decide)
            show (joined (Jpa.pathJoin [v "output"ₛ])).elems ≠ []
            unfold joined Jpa.pathJoin
            rw [List.filter_cons_of_pos (by exact decide_eq_true hne)]
            show (pathOf (v "output"ₛ)).elems ≠ []
            rw [hx]
            exact pathOf_elems hsl (by rw [hl]; decide)
          · obtain ⟨k, hk, e⟩ := sa_writes _ _ x hx
            show (joined x.1).elems ≠ []
            rw [e]
            exact joined_elems (by decide) (by decide) _
        · rw [if_neg hmk]

/-- C110 fails as stated: `generate kt` ends the process after it has written some of the classes, when a later table refers to a table
that does not exist; `generate sqlalchemy` has written some files when a later one cannot be written. -/
theorem C110_violated :
    (∃ (s : Schema) (v : Values) (p : Path), (action demoWorld .kt v (oneFile s)).status ≠ .ok ∧
      (action demoWorld .kt v (oneFile s)).files p ≠ oneFile s p) ∧
    (∃ (w : World) (s : Schema) (v : Values) (p : Path), Faithful w ∧ (action w .sqlalchemy v (oneFile s)).status ≠ .ok ∧
      (action w .sqlalchemy v (oneFile s)).files p ≠ oneFile s p) := by
  have hn : ∀ {a b : Option Content}, a.isSome = true → b.isSome = false → a ≠ b := by
    intro a b h1 h2 e; rw [e, h2] at h1; cases h1
  refine ⟨⟨{ tables := [{ name := "a"ₛ }, { name := "b"ₛ, columns := [{ name := "c"ₛ, type := "int"ₛ, ref := some ⟨"q"ₛ, "id"ₛ, []⟩ }] }] },
      given [("input"ₛ, "a.json"ₛ), ("output"ₛ, "o"ₛ), ("package"ₛ, "p"ₛ), ("relation"ₛ, "VRelation"ₛ)], pathOf "o/p/A.kt"ₛ,
      by decide +kernel, hn (by decide +kernel) (by decide +kernel)⟩,
    ⟨{ demoWorld with writable := fun p => p ≠ pathOf "o/b.py"ₛ }, { tables := [{ name := "a"ₛ }, { name := "b"ₛ }] },
      given [("input"ₛ, "a.json"ₛ), ("output"ₛ, "o"ₛ)], pathOf "o/a.py"ₛ,
      ⟨demo_faithful.1, demo_faithful.2, demo_faithful.3, demo_faithful.4, demo_faithful.5, demo_faithful.6⟩,
      by decide +kernel, hn (by decide +kernel) (by decide +kernel)⟩⟩

/-- C110: a missing input is an error of every command that reads one. -/
example : (action demoWorld .exportDbml (given [("input"ₛ, "q.json"ₛ), ("output"ₛ, "o"ₛ)]) demoFiles).status = .error := by decide +kernel

/-! ### C116 -/

/-- C116: the result depends on the arguments and the named input files only: with the same inputs the same files are written, with
the same contents, and the command ends in the same way. -/
theorem C116_inputs (w : World) (c : Cmd) (v : Values) (fs fs' : Files) (h : ∀ i ∈ inputs c, fs'.at (v i) = fs.at (v i)) :
    (action w c v fs).status = (action w c v fs').status ∧
    ∀ p, (action w c v fs).files p = (action w c v fs').files p ∨
      ((action w c v fs).files p = fs p ∧ (action w c v fs').files p = fs' p) := by
  obtain ⟨ws, st, h1, -, -⟩ := action_effect w c v fs
  rw [h1 fs fun _ _ => rfl, h1 fs' h]
  refine ⟨rfl, fun p => ?_⟩
  by_cases hp : ∃ q ∈ ws, q.1 = p
  · exact .inl (applyWrites_of_mem hp _ _)
  · have hp' : ∀ q ∈ ws, q.1 ≠ p := fun q hq e => hp ⟨q, hq, e⟩
    exact .inr ⟨applyWrites_of_not_mem hp' _, applyWrites_of_not_mem hp' _⟩

/-- C116: running a command again changes nothing, unless it has overwritten one of its inputs. -/
theorem C116_again (w : World) (c : Cmd) (v : Values) (fs : Files)
    (h : ∀ i ∈ inputs c, (action w c v fs).files.at (v i) = fs.at (v i)) :
    action w c v (action w c v fs).files = action w c v fs := by
  obtain ⟨ws, st, h1, -, -⟩ := action_effect w c v fs
  have e := h1 fs fun _ _ => rfl
  rw [e] at h
  rw [e, h1 _ h, applyWrites_twice]

/-- C116: in particular when the output is apart from the inputs. -/
theorem C116_apart (w : World) (c : Cmd) (hc : c ∉ [.gorm, .plantuml, .graphql, .kt, .sqlalchemy]) (v : Values) (fs : Files)
    (h : ∀ i ∈ inputs c, pathOf (v i) ≠ pathOf (v "output"ₛ)) : action w c v (action w c v fs).files = action w c v fs :=
  C116_again w c v fs fun i hi => by
    by_contra hne
    exact h i hi (C109_single_partial w c hc v fs _ hne)

/-- C116: the demonstration keeps input and output apart. -/
example : ∀ i ∈ inputs .diffMd, pathOf (demoValues .diffMd i) ≠ pathOf (demoValues .diffMd "output"ₛ) := by decide +kernel

/-! ### C118 -/

theorem dropWords_append (ws args : List Str) : dropWords ws (ws ++ args) = some args := by
  induction ws with
  | nil => rfl
  | cons x ws ih => show dropWords (x :: ws) (x :: (ws ++ args)) = _; unfold dropWords; rw [if_pos rfl, ih]

theorem dropWords_none {ws : List Str} : ∀ {us : List Str} (args : List Str), ¬ws <+: us → ¬us <+: ws → dropWords ws (us ++ args) = none := by
  induction ws with
  | nil => intro us args h; exact absurd (List.nil_prefix) h
  | cons x ws ih =>
    intro us args h h'
    cases us with
    | nil => exact absurd (List.nil_prefix) h'
    | cons y us =>
      show dropWords (x :: ws) (y :: (us ++ args)) = none
      unfold dropWords
      split
      · rename_i e
        subst e
        exact ih args (fun hp => h (List.prefix_cons_inj x |>.mpr hp)) (fun hp => h' (List.prefix_cons_inj x |>.mpr hp))
      · rfl

/-- C118: the words of a command select it, and the arguments after them are its arguments. -/
theorem C118_command (w : World) (env : Str → Option Str) (c : Cmd) (args : List Str) (fs : Files) :
    main w env (c.words ++ args) fs = run w env c args fs := by
  have key : ∀ c ∈ Cmd.all, ∀ d ∈ Cmd.all, d ≠ c → d.words.isPrefixOf c.words = false := by decide +kernel
  have hnone : ∀ d, d ≠ c → dropWords d.words (c.words ++ args) = none := fun d hd =>
    dropWords_none args
      (fun hp => by have := key c (mem_all c) d (mem_all d) hd; rw [List.isPrefixOf_iff_prefix.mpr hp] at this; cases this)
      (fun hp => by have := key d (mem_all d) c (mem_all c) (Ne.symm hd); rw [List.isPrefixOf_iff_prefix.mpr hp] at this; cases this)
  have hfind : ∀ l : List Cmd, c ∈ l →
      l.findSome? (fun d => (dropWords d.words (c.words ++ args)).map fun rest => (d, rest)) = some (c, args) := by
    intro l
    induction l with
    | nil => intro h; cases h
    | cons d l ih =>
      intro h
      by_cases hd : d = c
      · subst hd; rw [List.findSome?_cons, dropWords_append]; rfl
      · rw [List.findSome?_cons, hnone d hd]
        exact ih ((List.mem_cons.mp h).resolve_left (Ne.symm hd))
  unfold main
  rw [hfind _ (mem_all c)]

/-- C118: arguments that select no command change nothing. -/
theorem C118_other (w : World) (env : Str → Option Str) (args : List Str) (fs : Files)
    (h : ∀ c : Cmd, ¬c.words <+: args) : main w env args fs = ⟨fs, .help⟩ := by
  have hd : ∀ (ws args : List Str), ¬ws <+: args → dropWords ws args = none := by
    intro ws
    induction ws with
    | nil => intro args h; exact absurd List.nil_prefix h
    | cons x ws ih =>
      intro args h
      cases args with
      | nil => rfl
      | cons y args =>
        unfold dropWords
        split
        · rename_i e; subst e; exact ih args fun hp => h (List.prefix_cons_inj x |>.mpr hp)
        · rfl
  unfold main
  rw [List.findSome?_eq_none_iff.mpr fun c _ => by rw [hd _ _ (h c)]; rfl]

/-- C118: `oct export dbml -i a.json -o o`. -/
example (w : World) (env : Str → Option Str) (fs : Files) :
    main w env ["export"ₛ, "dbml"ₛ, "-i"ₛ, "a.json"ₛ, "-o"ₛ, "o"ₛ] fs = run w env .exportDbml ["-i"ₛ, "a.json"ₛ, "-o"ₛ, "o"ₛ] fs :=
  C118_command w env .exportDbml _ fs

end Octo.Cli
