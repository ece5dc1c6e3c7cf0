import Verif.Lemmas.CliAction
import Verif.Lemmas.Strcase

/-! Lemmas on the names of the files that the commands write. -/

namespace Octo.Cli
open Spec

theorem camel_slash (s : Str) : '/' ∉ strcase.toCamel s := by
  intro h
  have h1 : (strcase.toCamel s).all isAlnum = true := camelLoop_alnum _ _ _
  exact absurd (List.all_eq_true.mp h1 _ h) (by decide)

theorem mem_splitN2 {sep x : Char} {s v : Str} (h : (splitN2 sep s).2 = some v) (hx : x ∈ v) : x ∈ s := by
  induction s with
  | nil => cases h
  | cons c s ih =>
    unfold splitN2 at h
    split at h
    · cases h; exact List.mem_cons_of_mem _ hx
    · exact List.mem_cons_of_mem _ (ih h)

theorem mem_optionToken {x : Char} {t : Str} {kv : Str × Str} (h : optionToken t = some kv) (hx : x ∈ kv.2) : x ∈ t := by
  unfold optionToken at h
  split at h
  · rename_i k v hs
    cases h
    exact mem_splitN2 (by rw [hs]) hx
  · cases h

theorem mem_optionTokens {x : Char} {ts : List Str} {kvs : List (Str × Str)} (h : optionTokens ts = some kvs) :
    ∀ kv ∈ kvs, x ∈ kv.2 → ∃ t ∈ ts, x ∈ t := by
  induction ts generalizing kvs with
  | nil => intro kv hk; cases h; cases hk
  | cons t ts ih =>
    intro kv hk hx
    unfold optionTokens at h
    split at h
    · cases h
    · rename_i p hp
      obtain ⟨l, hl, rfl⟩ := Option.map_eq_some_iff.mp h
      rcases List.mem_cons.mp hk with rfl | hk
      · exact ⟨t, List.mem_cons_self .., mem_optionToken hp hx⟩
      · obtain ⟨t', h1, h2⟩ := ih hl kv hk hx
        exact ⟨t', List.mem_cons_of_mem _ h1, h2⟩

theorem mem_mapSet {κ ν : Type} [DecidableEq κ] {m : List (κ × ν)} {k : κ} {v : ν} : ∀ p ∈ mapSet m k v, p ∈ m ∨ p = (k, v) := by
  induction m with
  | nil => intro p hp; exact .inr (List.mem_singleton.mp hp)
  | cons q m ih =>
    intro p hp
    unfold mapSet at hp
    split at hp
    · rcases List.mem_cons.mp hp with rfl | hp
      · exact .inr rfl
      · exact .inl (List.mem_cons_of_mem _ hp)
    · rcases List.mem_cons.mp hp with rfl | hp
      · exact .inl (List.mem_cons_self ..)
      · rcases ih p hp with h | h
        · exact .inl (List.mem_cons_of_mem _ h)
        · exact .inr h

theorem mem_foldl_mapSet {κ ν : Type} [DecidableEq κ] {l : List (κ × ν)} : ∀ (m : List (κ × ν)),
    ∀ p ∈ l.foldl (fun m p => mapSet m p.1 p.2) m, p ∈ m ∨ p ∈ l := by
  induction l with
  | nil => intro m p hp; exact .inl hp
  | cons q l ih =>
    intro m p hp
    rcases ih _ p hp with h | h
    · rcases mem_mapSet p h with h | h
      · exact .inl h
      · exact .inr (h ▸ List.mem_cons_self ..)
    · exact .inr (List.mem_cons_of_mem _ h)

theorem mem_mapGet {κ ν : Type} [DecidableEq κ] {m : List (κ × ν)} {k : κ} {v : ν} (h : mapGet m k = some v) : (k, v) ∈ m := by
  induction m with
  | nil => cases h
  | cons q m ih =>
    unfold mapGet at h
    split at h
    · rename_i e; subst e; cases h; exact List.mem_cons_self ..
    · exact List.mem_cons_of_mem _ (ih h)

/-- The prefixes are parts of the option. -/
theorem mem_getPrefix {x : Char} {p g : Str} {m : PrefixMapper} (h : newPrefixMapper p = some m) (hx : x ∈ m.getPrefix g) : x ∈ p := by
  unfold newPrefixMapper at h
  split at h
  · obtain ⟨kvs, hk, rfl⟩ := Option.map_eq_some_iff.mp h
    unfold PrefixMapper.getPrefix at hx
    split at hx
    · cases hg : mapGet (mapOf kvs) g with
      | none => simp only [hg] at hx; cases hx
      | some v =>
        simp only [hg] at hx
        have hm := mem_mapGet hg
        rcases mem_foldl_mapSet _ _ hm with h' | h'
        · cases h'
        · obtain ⟨t, h1, h2⟩ := mem_optionTokens hk _ h' hx
          exact mem_of_split h1 h2
    · exact hx
  · cases h; exact hx

theorem className_slash {o : Jpa.KtOption} {t : Table} {p : Str} (hm : newPrefixMapper p = some o.prefixMapper) (hp : '/' ∉ p)
    (ht : '/' ∉ t.className) : '/' ∉ Jpa.className strcase o t := by
  unfold Jpa.className
  split
  · simp only
    split
    · intro h
      rcases List.mem_append.mp h with h | h
      · exact hp (mem_getPrefix hm h)
      · exact camel_slash _ h
    · exact camel_slash _
  · exact ht

theorem mem_last {a b : Str} {x : Char} (ha : x ∉ a) (hb : x ∉ b) : x ∉ a ++ b := fun h =>
  (List.mem_append.mp h).elim ha hb

theorem not_dots {a b : Str} (hb : 2 < b.length) : a ++ b ≠ ".."ₛ := fun e => by
  have := congrArg List.length e
  rw [List.length_append, show (".."ₛ).length = 2 from rfl] at this
  omega

/-- With safe names the targets of a command are at or below the output. -/
theorem below_target {w : World} (hsc : w.sc = strcase) {v : Values} {fs : Files} {p : Path} {c : Cmd} (hs : SafeNames w v fs c)
    (h : Target w v fs p c) : Below (pathOf (v "output"ₛ)) p := by
  cases c with
  | gorm =>
    rcases h with rfl | rfl
    · exact below_self _
    · exact below_join _ (by decide) (by decide)
  | plantuml =>
    rcases h with rfl | rfl
    · exact below_self _
    · exact below_join _ (by decide) (by decide)
  | graphql =>
    obtain ⟨s, hl, rfl⟩ := h
    obtain ⟨h1, h2⟩ := hs s hl
    have : '/' ∉ s.name ++ "-"ₛ ++ s.version ++ ".graphqls"ₛ :=
      mem_last (mem_last (mem_last h1 (by decide)) h2) (by decide)
    refine below_join _ (fun e he => ?_) (fun he => ?_)
    · rw [List.mem_singleton] at he; exact he ▸ this
    · exact not_dots (by decide) (List.mem_singleton.mp he).symm
  | kt =>
    obtain ⟨h1, h2, h3, h4, h5⟩ := hs
    obtain ⟨s, m, hl, hm, t, ht, o, ho, -, hp | ⟨hr, hp⟩⟩ := h
    · rw [hp, hsc]
      exact below_package _ h1 h2 (mem_last (className_slash (ho ▸ hm) h4 (h5 s hl t ht)) (by decide)) (not_dots (by decide))
    · rw [hp, hsc]
      exact below_package _ hr h3 (mem_last (className_slash (ho ▸ hm) h4 (h5 s hl t ht)) (by decide)) (not_dots (by decide))
  | sqlalchemy =>
    rcases h with ⟨-, rfl⟩ | ⟨s, hl, t, ht, rfl⟩
    · exact below_join _ (by decide) (by decide)
    · have := mem_last (hs s hl t ht) (show '/' ∉ ".py"ₛ by decide)
      refine below_join _ (fun e he => ?_) (fun he => ?_)
      · rw [List.mem_singleton] at he; exact he ▸ this
      · exact not_dots (by decide) (List.mem_singleton.mp he).symm
  | _ => exact (show p = pathOf (v "output"ₛ) from h) ▸ below_self _

end Octo.Cli
