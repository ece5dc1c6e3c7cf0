import Verif.Lemmas.CliDemo
import Verif.Lemmas.CliDiff
import Verif.Lemmas.CliParse

/-! The options of the commands: which have an effect (C108), how values are given (C114), documentation (C115), required options
(C117). -/

namespace Octo.Cli
open Spec

/-! ### C108 -/

theorem bool_congr {u v : Values} {n : Str} (h : u n = v n) : u.bool n = v.bool n := by unfold Values.bool; rw [h]

/-- The inert options change nothing, in any world and for any files. -/
theorem inert_congr (w : World) {c : Cmd} {opt : Str} (hi : (c, opt) ∈ inert) {u v : Values} (h : ∀ n, n ≠ opt → u n = v n) (fs : Files) :
    action w c u fs = action w c v fs := by
  unfold inert at hi
  simp only [List.mem_cons, List.not_mem_nil, or_false, Prod.mk.injEq] at hi
  rcases hi with ⟨rfl, rfl⟩ | ⟨rfl, rfl⟩ | ⟨rfl, rfl⟩ | ⟨rfl, rfl⟩ | ⟨rfl, rfl⟩ | ⟨rfl, rfl⟩ | ⟨rfl, rfl⟩ | ⟨rfl, rfl⟩ | ⟨rfl, rfl⟩
  · show exportDbmlAction w u fs = exportDbmlAction w v fs
    unfold exportDbmlAction
    rw [h "input"ₛ (by decide), h "output"ₛ (by decide)]
    rfl
  · show graphqlAction w u fs = graphqlAction w v fs
    unfold graphqlAction
    rw [h "input"ₛ (by decide), h "output"ₛ (by decide), h "prefix"ₛ (by decide), h "groups"ₛ (by decide), h "removePrefix"ₛ (by decide)]
  · show ktAction w u fs = ktAction w v fs
    unfold ktAction
    rw [h "input"ₛ (by decide), h "output"ₛ (by decide), h "prefix"ₛ (by decide), h "groups"ₛ (by decide), h "removePrefix"ₛ (by decide),
      h "annotation"ₛ (by decide), h "idEntity"ₛ (by decide), h "package"ₛ (by decide), h "relation"ₛ (by decide),
      h "reposPackage"ₛ (by decide), h "uniqueNameSuffix"ₛ (by decide)]
  · show pbAction w u fs = pbAction w v fs
    unfold pbAction Protobuf.cliOption
    rw [h "input"ₛ (by decide), h "output"ₛ (by decide), h "prefix"ₛ (by decide), h "groups"ₛ (by decide), h "removePrefix"ₛ (by decide),
      h "package"ₛ (by decide), h "goPackage"ₛ (by decide)]
  · show pbAction w u fs = pbAction w v fs
    unfold pbAction Protobuf.cliOption
    rw [h "input"ₛ (by decide), h "output"ₛ (by decide), h "prefix"ₛ (by decide), h "groups"ₛ (by decide), h "removePrefix"ₛ (by decide),
      h "package"ₛ (by decide), h "goPackage"ₛ (by decide)]
  · show diffFlywayAction w u fs = diffFlywayAction w v fs
    unfold diffFlywayAction withSchemas
    rw [h "from"ₛ (by decide), h "to"ₛ (by decide), h "output"ₛ (by decide), h "uniqueNameSuffix"ₛ (by decide)]
    congr 1; funext a; congr 1; funext b
    simp only []
    rw [flyway_getDiff (p := diffOption u a b) (q := diffOption v a b)
      (congrArg getTableFilterFn (h "groups"ₛ (by decide))) rfl rfl (bool_congr (h "comments"ₛ (by decide)))]
  · show diffMdAction w u fs = diffMdAction w v fs
    unfold diffMdAction withSchemas
    rw [h "from"ₛ (by decide), h "to"ₛ (by decide), h "output"ₛ (by decide)]
    congr 1; funext a; congr 1; funext b
    simp only []
    rw [markdown_getDiff (p := diffOption u a b) (q := diffOption v a b)
      (congrArg getTableFilterFn (h "groups"ₛ (by decide))) rfl rfl (bool_congr (h "comments"ₛ (by decide)))]
  · show diffMdAction w u fs = diffMdAction w v fs
    unfold diffMdAction withSchemas
    rw [h "from"ₛ (by decide), h "to"ₛ (by decide), h "output"ₛ (by decide)]
    congr 1; funext a; congr 1; funext b
    simp only []
    rw [markdown_getDiff (p := diffOption u a b) (q := diffOption v a b)
      (congrArg getTableFilterFn (h "groups"ₛ (by decide))) rfl rfl (bool_congr (h "comments"ₛ (by decide)))]
  · show diffLiquibaseAction w u fs = diffLiquibaseAction w v fs
    unfold diffLiquibaseAction withSchemas
    rw [h "from"ₛ (by decide), h "to"ₛ (by decide), h "output"ₛ (by decide), h "groups"ₛ (by decide), h "author"ₛ (by decide),
      bool_congr (h "comments"ₛ (by decide))]

/-- C108 (partial): exactly the options that are not listed in `inert` have an effect on the result.  Full statement: every declared
option has one; see `C108_violated`. -/
theorem C108_effect_partial (c : Cmd) (f : Flag) (hf : f ∈ c.flags) : HasEffect c f.name ↔ (c, f.name) ∉ inert := by
  constructor
  · rintro ⟨w, v, x, fs, -, -, -, hne⟩ hi
    exact hne (inert_congr w hi (fun n hn => if_neg hn) fs)
  · intro hi
    exact effect_of_shows (shows_all c (mem_all c) f hf hi)

/-- C108 fails as stated: there are options of seven commands that are declared and change nothing. -/
theorem C108_violated : ¬∀ c : Cmd, ∀ f ∈ c.flags, HasEffect c f.name := by
  intro h
  exact (C108_effect_partial .kt (boo "useUTC"ₛ "u"ₛ "OCTOPUS_USE_UTC"ₛ) (by decide)).mp (h _ _ (by decide)) (by decide)

/-- C108: the inert options are declared options, and there are nine of them. -/
example : (∀ p ∈ inert, ∃ f ∈ p.1.flags, f.name = p.2) ∧ inert.length = 9 ∧ (Cmd.all.flatMap Cmd.flags).length = 92 := by decide

/-- C108: for example `generate gorm --embed` has an effect, `generate kt --useUTC` has none. -/
example : HasEffect .gorm "embed"ₛ ∧ ¬HasEffect .kt "useUTC"ₛ :=
  ⟨(C108_effect_partial .gorm (str "embed"ₛ "e"ₛ "OCTOPUS_EMBED"ₛ) (by decide)).mpr (by decide),
    fun h => (C108_effect_partial .kt (boo "useUTC"ₛ "u"ₛ "OCTOPUS_USE_UTC"ₛ) (by decide)).mp h (by decide)⟩

/-! ### C114 -/

/-- C114: a command line that gives every option at most once, and all required ones, and does not ask for help (`--help=false` does
not), runs the command; every option has the value
that is given, under all of its names, else the value of its environment variable, else none. -/
theorem C114_values (w : World) (env : Str → Option Str) (c : Cmd) (henv : GoodEnv env c) (given : List (Flag × Str))
    (args : List (List Str)) (hg : ∀ p ∈ given, p.1 ∈ c.flags ∨ p = (helpFlag, "false"ₛ)) (hd : (given.map Prod.fst).Nodup)
    (h : List.Forall₂ (fun p a => Form p.1 p.2 a) given args)
    (hr : ∀ f ∈ c.flags, f.required = true → (∃ x, (f, x) ∈ given) ∨ ∃ x, env f.env = some x) (fs : Files) :
    ∃ v : Values, run w env c args.flatten fs = action w c v fs ∧
      (∀ f ∈ c.flags, ∀ n ∈ f.names, ∀ x, v n = x ↔ Chosen env given f x) ∧ ∀ n, (∀ f ∈ c.flags, n ∉ f.names) → v n = [] := by
  obtain ⟨v, h1, h2, h3⟩ := parse_forms henv hg hd h hr
  refine ⟨v, ?_, fun f hf n hn x => ⟨fun e => e ▸ h2 f hf n hn, fun hx => Chosen.unique hd (h2 f hf n hn) hx⟩, h3⟩
  unfold run; rw [h1]

/-- C114: it does not matter how values are given: by which name, with one dash or two, as next argument or behind a sign, in which
order, or in the environment. -/
theorem C114_forms (w : World) (env env' : Str → Option Str) (c : Cmd) (henv : GoodEnv env c) (henv' : GoodEnv env' c)
    (given given' : List (Flag × Str)) (args args' : List (List Str))
    (hg : ∀ p ∈ given, p.1 ∈ c.flags ∨ p = (helpFlag, "false"ₛ))
    (hg' : ∀ p ∈ given', p.1 ∈ c.flags ∨ p = (helpFlag, "false"ₛ))
    (hd : (given.map Prod.fst).Nodup) (hd' : (given'.map Prod.fst).Nodup)
    (h : List.Forall₂ (fun p a => Form p.1 p.2 a) given args) (h' : List.Forall₂ (fun p a => Form p.1 p.2 a) given' args')
    (hr : ∀ f ∈ c.flags, f.required = true → (∃ x, (f, x) ∈ given) ∨ ∃ x, env f.env = some x)
    (hr' : ∀ f ∈ c.flags, f.required = true → (∃ x, (f, x) ∈ given') ∨ ∃ x, env' f.env = some x)
    (hc : ∀ f ∈ c.flags, ∀ x, Chosen env given f x → Chosen env' given' f x) (fs : Files) :
    run w env c args.flatten fs = run w env' c args'.flatten fs := by
  obtain ⟨v, e, h1, h2⟩ := C114_values w env c henv given args hg hd h hr fs
  obtain ⟨v', e', h1', h2'⟩ := C114_values w env' c henv' given' args' hg' hd' h' hr' fs
  have : v = v' := by
    funext n
    by_cases hn : ∃ f ∈ c.flags, n ∈ f.names
    · obtain ⟨f, hf, hn⟩ := hn
      exact ((h1' f hf n hn _).mpr (hc f hf _ ((h1 f hf n hn _).mp rfl))).symm
    · have hn' : ∀ f ∈ c.flags, n ∉ f.names := fun f hf hm => hn ⟨f, hf, hm⟩
      rw [h2 n hn', h2' n hn']
  rw [e, e', this]

/-- C114: a command line that gives every option at most once and asks for help, in any form, shows the help and touches no file,
whether or not required options are there. -/
theorem C114_help (w : World) (env : Str → Option Str) (c : Cmd) (henv : GoodEnv env c) (given : List (Flag × Str))
    (args : List (List Str)) (hg : ∀ p ∈ given, p.1 ∈ helpFlag :: c.flags) (hd : (given.map Prod.fst).Nodup)
    (h : List.Forall₂ (fun p a => Form p.1 p.2 a) given args) (hh : (helpFlag, "true"ₛ) ∈ given) (fs : Files) :
    run w env c args.flatten fs = ⟨fs, .help⟩ := by
  unfold run; rw [parse_help henv hg hd h hh]

/-- C114: `export quickdbd -o o -h`. -/
example (w : World) (fs : Files) :
    run w (fun _ => none) .exportQuickdbd ["-o"ₛ, "o"ₛ, "-h"ₛ] fs = ⟨fs, .help⟩ :=
  C114_help w _ .exportQuickdbd (fun f hf hb t ht => by cases ht) [(outputFlag, "o"ₛ), (helpFlag, "true"ₛ)]
    [["-o"ₛ, "o"ₛ], ["-h"ₛ]] (by decide) (by decide)
    (.cons (.next "-"ₛ "o"ₛ "o"ₛ (by decide) (by decide) rfl) (.cons (.on "-"ₛ "h"ₛ (by decide) (by decide) rfl) .nil))
    (List.mem_cons_of_mem _ (List.mem_cons_self ..)) fs

/-- C114: `export quickdbd -i a.json --output=o` and `OCTOPUS_INPUT=a.json export quickdbd -o o`. -/
example (w : World) (fs : Files) :
    run w (fun _ => none) .exportQuickdbd ["-i"ₛ, "a.json"ₛ, "--output=o"ₛ] fs =
    run w (fun n => if n = "OCTOPUS_INPUT"ₛ then some "a.json"ₛ else none) .exportQuickdbd ["-o"ₛ, "o"ₛ] fs := by
  refine C114_forms w _ _ .exportQuickdbd ?_ ?_ [(inputFlag, "a.json"ₛ), (outputFlag, "o"ₛ)] [(outputFlag, "o"ₛ)]
    [["-i"ₛ, "a.json"ₛ], ["--output=o"ₛ]] [["-o"ₛ, "o"ₛ]] (by decide) (by decide) (by decide) (by decide) ?_ ?_ ?_ ?_ ?_ fs
  · intro f hf hb t ht; cases ht
  · intro f hf hb t ht
    have : ∀ f ∈ Cmd.exportQuickdbd.flags, f.bool = false := by decide
    rw [this f hf] at hb; cases hb
  · exact .cons (.next "-"ₛ "i"ₛ "a.json"ₛ (by decide) (by decide) rfl)
      (.cons (.sign "--"ₛ "output"ₛ "o"ₛ (by decide) (by decide) rfl) .nil)
  · exact .cons (.next "-"ₛ "o"ₛ "o"ₛ (by decide) (by decide) rfl) .nil
  · intro f hf _
    rcases List.mem_cons.mp hf with rfl | hf
    · exact .inl ⟨_, List.mem_cons_self ..⟩
    · rw [List.mem_singleton] at hf; subst hf; exact .inl ⟨_, List.mem_cons_of_mem _ (List.mem_cons_self ..)⟩
  · intro f hf _
    rcases List.mem_cons.mp hf with rfl | hf
    · exact .inr ⟨"a.json"ₛ, if_pos rfl⟩
    · rw [List.mem_singleton] at hf; subst hf; exact .inl ⟨_, List.mem_cons_self ..⟩
  · intro f hf x hx
    rcases List.mem_cons.mp hf with rfl | hf
    · have e : x = "a.json"ₛ := Chosen.unique (given := [(inputFlag, "a.json"ₛ), (outputFlag, "o"ₛ)]) (by decide) hx
        (.given _ (List.mem_cons_self ..))
      subst e
      exact .env _ (fun y hy => by rw [List.mem_singleton, Prod.mk.injEq] at hy; exact absurd hy.1 (by decide)) rfl (if_pos rfl)
    · rw [List.mem_singleton] at hf; subst hf
      have e : x = "o"ₛ := Chosen.unique (given := [(inputFlag, "a.json"ₛ), (outputFlag, "o"ₛ)]) (by decide) hx
        (.given _ (List.mem_cons_of_mem _ (List.mem_cons_self ..)))
      subst e
      exact .given _ (List.mem_cons_self ..)

/-! ### C115 -/

/-- The flag is what the documentation says: name, short name, variable, and a switch needs no value. -/
def Matches (d : DocOption) (f : Flag) : Prop :=
  f.name = d.long ∧ (∀ s, d.short = some s → f.aliases = [s]) ∧ f.env = d.env ∧ f.bool = d.switch

/-- C115 (partial): every documented option is declared as documented, and every declared one is documented, except for the switch
`--useUTC` of `generate sqlalchemy`. -/
theorem C115_documented_partial (c : Cmd) :
    (∀ d ∈ documented c, (c, d.long) ≠ (.sqlalchemy, "useUTC"ₛ) → ∃ f ∈ c.flags, Matches d f) ∧
    (∀ f ∈ c.flags, (c, f.name) ≠ (.sqlalchemy, "useUTC"ₛ) → ∃ d ∈ documented c, Matches d f) := by
  have key : ∀ c ∈ Cmd.all,
      (∀ d ∈ documented c, (c, d.long) ≠ (.sqlalchemy, "useUTC"ₛ) →
        ∃ f ∈ c.flags, f.name = d.long ∧ (d.short = none ∨ f.aliases = d.short.toList) ∧ f.env = d.env ∧ f.bool = d.switch) ∧
      (∀ f ∈ c.flags, (c, f.name) ≠ (.sqlalchemy, "useUTC"ₛ) →
        ∃ d ∈ documented c, f.name = d.long ∧ (d.short = none ∨ f.aliases = d.short.toList) ∧ f.env = d.env ∧ f.bool = d.switch) := by
    decide +kernel
  have m : ∀ {d : DocOption} {f : Flag}, (d.short = none ∨ f.aliases = d.short.toList) → ∀ s, d.short = some s → f.aliases = [s] := by
    rintro d f (h | h) s hs
    · rw [hs] at h; cases h
    · rw [h, hs]; rfl
  obtain ⟨h1, h2⟩ := key c (mem_all c)
  refine ⟨fun d hd hne => ?_, fun f hf hne => ?_⟩
  · obtain ⟨f, hf, a, b, e⟩ := h1 d hd hne; exact ⟨f, hf, a, m b, e⟩
  · obtain ⟨d, hd, a, b, e⟩ := h2 f hf hne; exact ⟨d, hd, a, m b, e⟩

/-- C115 (partial): a documented switch is on when it is given without a value. -/
theorem C115_switch_partial (w : World) (env : Str → Option Str) (c : Cmd) (d : DocOption) (hdoc : d ∈ documented c)
    (hs : d.switch = true) (hne : (c, d.long) ≠ (.sqlalchemy, "useUTC"ₛ)) (henv : GoodEnv env c)
    (given : List (Flag × Str)) (args : List (List Str)) (hg : ∀ p ∈ given, p.1 ∈ c.flags ∧ p.1.name ≠ d.long)
    (hd : (given.map Prod.fst).Nodup) (h : List.Forall₂ (fun p a => Form p.1 p.2 a) given args)
    (hr : ∀ f ∈ c.flags, f.required = true → (∃ x, (f, x) ∈ given) ∨ ∃ x, env f.env = some x) (fs : Files) :
    ∃ v : Values, run w env c (("--"ₛ ++ d.long) :: args.flatten) fs = action w c v fs ∧ v.bool d.long = true := by
  obtain ⟨f, hf, hn, -, -, hb⟩ := (C115_documented_partial c).1 d hdoc hne
  have hmem : d.long ∈ f.names := hn ▸ List.mem_cons_self ..
  obtain ⟨v, h1, h2, -⟩ := C114_values w env c henv ((f, "true"ₛ) :: given) (["--"ₛ ++ d.long] :: args)
    (fun p hp => by
      rcases List.mem_cons.mp hp with rfl | hp
      · exact .inl hf
      · exact .inl (hg p hp).1)
    (List.nodup_cons.mpr ⟨fun hm => by
      obtain ⟨p, hp, e⟩ := List.mem_map.mp hm
      exact (hg p hp).2 (e ▸ hn), hd⟩)
    (.cons (.on "--"ₛ d.long (by decide) hmem (hb.trans hs)) h)
    (fun g hgf hreq => (hr g hgf hreq).imp (fun ⟨x, hx⟩ => ⟨x, List.mem_cons_of_mem _ hx⟩) id) fs
  refine ⟨v, h1, ?_⟩
  have e : v d.long = "true"ₛ := (h2 f hf _ hmem _).mpr (.given _ (List.mem_cons_self ..))
  unfold Values.bool; rw [e]; decide

/-- C115 fails as stated: the switch `--useUTC` of `generate sqlalchemy` is not accepted without a value, at the end of the command
line, and it takes the next option for its value elsewhere, here `-i`, so that the required input is missing. -/
theorem C115_violated (w : World) (fs : Files) :
    ⟨"useUTC"ₛ, some "t"ₛ, "OCTOPUS_USE_UTC"ₛ, true⟩ ∈ documented .sqlalchemy ∧
    (∀ env, (run w env .sqlalchemy ["-i"ₛ, "a.json"ₛ, "-o"ₛ, "o"ₛ, "--useUTC"ₛ] fs) = ⟨fs, .usage⟩) ∧
    (run w (fun _ => none) .sqlalchemy ["--useUTC"ₛ, "-i"ₛ, "a.json"ₛ, "-o"ₛ, "o"ₛ] fs) = ⟨fs, .usage⟩ := by
  refine ⟨by decide, fun env => ?_, ?_⟩
  · have hp : parse (Cmd.flags .sqlalchemy) env ["-i"ₛ, "a.json"ₛ, "-o"ₛ, "o"ₛ, "--useUTC"ₛ] = .usage := by
      unfold parse
      rw [show parseArgs (helpFlag :: Cmd.flags .sqlalchemy) ["-i"ₛ, "a.json"ₛ, "-o"ₛ, "o"ₛ, "--useUTC"ₛ] = none by decide +kernel]
      simp only [ite_self]
    unfold run; rw [hp]
  · have hp : parse (Cmd.flags .sqlalchemy) (fun _ => none) ["--useUTC"ₛ, "-i"ₛ, "a.json"ₛ, "-o"ₛ, "o"ₛ] = .usage := by
      unfold parse
      rw [if_neg (by decide), show parseArgs (helpFlag :: Cmd.flags .sqlalchemy) ["--useUTC"ₛ, "-i"ₛ, "a.json"ₛ, "-o"ₛ, "o"ₛ] =
        some [("useUTC"ₛ, "-i"ₛ)] by decide +kernel]
      simp only []
      rw [if_neg (by decide +kernel), if_neg (by decide +kernel), if_pos (by decide +kernel)]
    unfold run; rw [hp]

/-- C115: the documentation of `generate kt` has a switch, which is accepted. -/
example (w : World) (fs : Files) : ∃ v : Values,
    run w (fun _ => none) .kt ["--useUTC"ₛ, "-i"ₛ, "a.json"ₛ, "-o"ₛ, "o"ₛ] fs = action w .kt v fs ∧ v.bool "useUTC"ₛ = true :=
  C115_switch_partial w (fun _ => none) .kt ⟨"useUTC"ₛ, some "u"ₛ, "OCTOPUS_USE_UTC"ₛ, true⟩ (by decide) rfl (by decide)
    (fun f _ _ t ht => by cases ht) [(inputFlag, "a.json"ₛ), (outputFlag, "o"ₛ)] [["-i"ₛ, "a.json"ₛ], ["-o"ₛ, "o"ₛ]]
    (by decide) (by decide)
    (.cons (.next "-"ₛ "i"ₛ "a.json"ₛ (by decide) (by decide) rfl) (.cons (.next "-"ₛ "o"ₛ "o"ₛ (by decide) (by decide) rfl) .nil))
    (fun f hf hr => .inl (by
      have : ∀ f ∈ Cmd.kt.flags, f.required = true → f = inputFlag ∨ f = outputFlag := by decide
      rcases this f hf hr with rfl | rfl
      · exact ⟨_, List.mem_cons_self ..⟩
      · exact ⟨_, List.mem_cons_of_mem _ (List.mem_cons_self ..)⟩)) fs

/-! ### C117 -/

/-- C117: a command line that does not mention a required option, whose variable is not set, does not run the command, and no file
is touched. -/
theorem C117_required (w : World) (env : Str → Option Str) (c : Cmd) (args : List Str) (f : Flag) (hf : f ∈ c.flags)
    (hr : f.required = true) (he : env f.env = none) (hm : ¬Mentions f args) (fs : Files) :
    ∃ st, run w env c args fs = ⟨fs, st⟩ ∧ st ≠ .ok := by
  have h := parse_required hf hr he hm
  unfold run
  cases hp : parse c.flags env args with
  | help => exact ⟨.help, rfl, by decide⟩
  | usage => exact ⟨.usage, rfl, by decide⟩
  | run v => exact absurd hp (h v)

/-- C117: the files a command reads and writes are named by required options, except for the output of `init`. -/
theorem C117_names (c : Cmd) (n : Str) (hn : n ∈ inputs c ∨ (n = "output"ₛ ∧ c ≠ .init)) :
    ∃ f ∈ c.flags, f.name = n ∧ f.required = true := by
  rcases hn with hn | ⟨rfl, hc⟩
  · have key : ∀ c ∈ Cmd.all, ∀ n ∈ inputs c, ∃ f ∈ c.flags, f.name = n ∧ f.required = true := by decide
    exact key c (mem_all c) n hn
  · have key : ∀ c ∈ Cmd.all, c ≠ .init → ∃ f ∈ c.flags, f.name = "output"ₛ ∧ f.required = true := by decide
    exact key c (mem_all c) hc

/-- C117: `export dbml -i a.json` without an output. -/
example : inputFlag.required = true ∧ ¬Mentions outputFlag ["-i"ₛ, "a.json"ₛ] := by
  refine ⟨rfl, ?_⟩
  rintro ⟨a, ha, d, hd, n, hn, h⟩
  have key : ∀ a ∈ ["-i"ₛ, "a.json"ₛ], ∀ d ∈ ["-"ₛ, "--"ₛ], ∀ n ∈ outputFlag.names, ¬(a = d ++ n ∨ (d ++ n ++ "="ₛ) <+: a) := by decide
  exact key a ha d hd n hn h

end Octo.Cli
