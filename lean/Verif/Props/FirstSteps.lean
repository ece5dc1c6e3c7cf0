import Verif.Props.Success
import Verif.Props.CliConvert

/-! C139: the first steps of the documentation. -/

namespace Octo.Cli
open Spec

theorem init_groups : ∀ t ∈ initSchema.tables, t.group = [] := by decide +kernel

theorem init_defaults : ∀ t ∈ initSchema.tables, ∀ c ∈ t.columns, c.defaultValue = [] := by decide +kernel

theorem init_classes : ∀ t ∈ initSchema.tables, t.name = "user"ₛ ∨ t.name = "group"ₛ := by decide +kernel

/-- Both tables of the sample are in the groups, or none. -/
theorem init_together {g : Str} {t u : Table} (ht : t ∈ initSchema.tables) (hu : u ∈ initSchema.tables) (h : InGroups g t) : InGroups g u := by
  unfold InGroups at h ⊢
  rw [init_groups u hu]
  rwa [init_groups t ht] at h

theorem init_references : ∀ t ∈ initSchema.tables, ∀ c ∈ t.columns, ∀ r, c.ref = some r → ∃ u ∈ initSchema.tables, u.name = r.table := by
  have : ∀ t ∈ initSchema.tables, ∀ c ∈ t.columns, ∀ r ∈ c.ref.toList, ∃ u ∈ initSchema.tables, u.name = r.table := by decide +kernel
  intro t ht c hc r hr
  exact this t ht c hc r (by rw [hr]; exact .head _)

theorem init_keyed : ∀ t ∈ initSchema.tables, ∃ c ∈ t.columns, c.primaryKey = true := by decide +kernel

/-- The sample is fit for every command. -/
theorem init_fit (w : World) (v : Values) (c : Cmd) (hp : ¬MixedOption (v "prefix"ₛ)) (ha : ¬MixedOption (v "annotation"ₛ))
    (hacc : ∀ n, w.accepts n = true) : Fit w v initSchema c := by
  have hdang : ¬DanglingReference (v "groups"ₛ) initSchema := by
    rintro ⟨t, ht, -, c, hc, r, hr, h⟩
    obtain ⟨u, hu, e⟩ := init_references t ht c hc r hr
    exact h u hu e
  have hleave : ¬LeavingReference (v "groups"ₛ) initSchema := by
    rintro ⟨t, ht, hg, c, hc, r, hr, h⟩
    obtain ⟨u, hu, e⟩ := init_references t ht c hc r hr
    exact h u hu (init_together ht hu hg) e
  have hkeyless : ¬Keyless (v "groups"ₛ) initSchema := by
    rintro ⟨t, ht, -, h⟩
    obtain ⟨c, hc, e⟩ := init_keyed t ht
    rw [h c hc] at e; cases e
  cases c with
  | exportXlsx =>
    refine ⟨hacc _, fun _ _ => hacc _, fun t ht e => ?_, fun t ht u hu _ => ?_⟩
    · rw [init_groups t ht] at e; cases e
    · rw [init_groups t ht, init_groups u hu]
  | liquibase => exact fun t ht _ c hc h => h.1 (init_defaults t ht c hc)
  | gorm => exact hp
  | graphql => exact hp
  | sqlalchemy => exact hp
  | pb => exact ⟨hp, hdang⟩
  | kt => exact ⟨hp, ha, fun h => hleave h.2, .inr hkeyless⟩
  | _ => trivial

theorem makes_some {v : Values} {d : Str} {c : Cmd} (ho : v "output"ₛ ≠ []) (h : Makes v d c) : d ≠ [] := by
  have hpk : ∀ p, packageIn (v "output"ₛ) p ≠ [] := fun p e => by
    unfold packageIn at e
    exact ho (List.append_eq_nil_iff.1 (List.append_eq_nil_iff.1 e).1).1
  cases c with
  | gorm => rw [h.2]; exact ho
  | plantuml => rw [h.2]; exact ho
  | graphql => rw [show d = v "output"ₛ from h]; exact ho
  | sqlalchemy =>
    rcases h with ⟨-, h⟩ | ⟨-, h⟩
    · rcases h with ⟨h, -⟩ | ⟨n, -, ⟨h, -⟩ | ⟨h, -⟩⟩
      · rw [h]; decide
      · exact h
      · rw [h]; decide
    · rw [h]; exact ho
  | kt =>
    rcases h with ⟨-, h⟩ | ⟨-, h⟩
    · rw [h]; exact hpk _
    · rw [h]; exact hpk _
  | _ => exact absurd h id

/-- C139: after `oct init`, every command that reads schemas succeeds on the file, whatever its options, as long as an output is
given, names of classes are left, prefixes and annotations are well-formed, and files can be written. -/
theorem C139_first_steps (w : World) (hw : Faithful w) (hwr : ∀ p, w.writable p = true) (hmk : ∀ d, w.mkdir d = true)
    (hacc : ∀ n, w.accepts n = true) (file : Str) (hf : IsOctopus file) (hfile : (pathOf file).elems ≠ [])
    (env : Str → Option Str) (args : List Str) (ha : Form initOutput file args) (fs : Files)
    (c : Cmd) (hc : ReadsSchema c) (v : Values) (hin : ∀ n ∈ inputs c, v n = file) (ho : v "output"ₛ ≠ [])
    (hp : ¬MixedOption (v "prefix"ₛ)) (han : ¬MixedOption (v "annotation"ₛ)) (hk : c = .kt → ClassesNamed w.sc v initSchema) :
    (run w env .init args fs).status = .ok ∧ (action w c v (run w env .init args fs).files).status = .ok := by
  obtain ⟨h1, h2, -⟩ := C111_init_partial w hw ⟨fun p _ => hwr p, hmk⟩ file hf hfile env fs args ha
  refine ⟨h1, ?_⟩
  generalize (run w env .init args fs).files = fs' at h2
  by_cases hd : c ∈ [Cmd.diffFlyway, .diffLiquibase, .diffMd]
  · have h := C136_two w v fs'
    have hfrom : v "from"ₛ = file := hin _ (by
      have : ∀ c ∈ [Cmd.diffFlyway, .diffLiquibase, .diffMd], "from"ₛ ∈ inputs c := by decide
      exact this c hd)
    have hto : v "to"ₛ = file := hin _ (by
      have : ∀ c ∈ [Cmd.diffFlyway, .diffLiquibase, .diffMd], "to"ₛ ∈ inputs c := by decide
      exact this c hd)
    rw [hfrom, hto] at h
    have hone := h.1
    have hlq := h.2.2 initSchema initSchema h2 h2 (hwr _) fun t ht _ c hc hb => hb.1 (init_defaults t ht c hc)
    simp only [List.mem_cons, List.not_mem_nil, or_false] at hd
    rcases hd with rfl | rfl | rfl
    · exact (hone _ (.head _)).2 ⟨⟨_, _, h2, h2⟩, hwr _⟩
    · exact hlq
    · exact (hone _ (.tail _ (.head _))).2 ⟨⟨_, _, h2, h2⟩, hwr _⟩
  · have hi : v "input"ₛ = file := hin _ (by
      revert hc hd
      unfold ReadsSchema
      cases c <;> decide)
    refine (C136_one w c hc hd v fs' fun e => ⟨ho, fun s hs => ?_⟩).2 ⟨⟨initSchema, by rw [hi]; exact h2, init_fit w v c hp han hacc⟩,
      fun d hdm => ⟨makes_some ho hdm, hmk _⟩, fun _ _ => hwr _⟩
    rw [hi, h2] at hs
    cases hs
    exact hk e

/-- C139: without `--removePrefix` the tables have class names. -/
theorem init_named {sc : Strcase} {v : Values} (hr : v "removePrefix"ₛ = [])
    (hu : sc.toCamel "user"ₛ ≠ []) (hg : sc.toCamel "group"ₛ ≠ []) : ClassesNamed sc v initSchema := by
  intro m _ t ht _ _ e
  have e' := (List.append_eq_nil_iff.1 e).2
  rw [hr] at e'
  change sc.toCamel (trimPrefix t.name []) = [] at e'
  rcases init_classes t ht with h | h
  · rw [h] at e'; exact hu e'
  · rw [h] at e'; exact hg e'

/-- C139: there are such worlds and options, for all commands. -/
example : Faithful demoWorld ∧ (∀ n, demoWorld.accepts n = true) ∧ IsOctopus "user.json"ₛ ∧ (pathOf "user.json"ₛ).elems ≠ [] ∧
    ∀ c : Cmd, let v : Values := fun n => if n ∈ inputs c then "user.json"ₛ else if n = "output"ₛ then "out"ₛ else []
      v "output"ₛ ≠ [] ∧ ¬MixedOption (v "prefix"ₛ) ∧ ¬MixedOption (v "annotation"ₛ) ∧ ClassesNamed strcase v initSchema := by
  refine ⟨demo_faithful, fun _ => rfl, by decide +kernel, by decide +kernel, fun c => ?_⟩
  have hi : ∀ c : Cmd, "output"ₛ ∉ inputs c ∧ "prefix"ₛ ∉ inputs c ∧ "annotation"ₛ ∉ inputs c ∧ "removePrefix"ₛ ∉ inputs c := by
    intro c; cases c <;> decide
  obtain ⟨h1, h2, h3, h4⟩ := hi c
  have n1 : "prefix"ₛ ≠ "output"ₛ := by decide
  have n2 : "annotation"ₛ ≠ "output"ₛ := by decide
  have n3 : "removePrefix"ₛ ≠ "output"ₛ := by decide
  have hm : ¬MixedOption [] := fun h => absurd h.1 List.not_mem_nil
  dsimp only
  refine ⟨?_, ?_, ?_, init_named ?_ (by decide +kernel) (by decide +kernel)⟩
  · rw [if_neg h1, if_pos rfl]; decide
  · rw [if_neg h2, if_neg n1]; exact hm
  · rw [if_neg h3, if_neg n2]; exact hm
  · rw [if_neg h4, if_neg n3]

end Octo.Cli
