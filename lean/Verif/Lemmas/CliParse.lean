import Verif.Spec.Cli
import Verif.Lemmas.Str
import Mathlib.Data.List.TakeWhile

/-! Lemmas on the parser of arguments. -/

namespace Octo.Cli
open Spec

/-! ### Names -/

/-- A name that can be found again in an argument. -/
def CleanName (n : Str) : Prop := n ≠ [] ∧ n.head? ≠ some '-' ∧ '=' ∉ n

instance (n : Str) : Decidable (CleanName n) := inferInstanceAs (Decidable (_ ∧ _ ∧ _))

theorem clean_names (c : Cmd) : ∀ f ∈ helpFlag :: c.flags, ∀ n ∈ f.names, CleanName n := by cases c <;> decide +kernel

theorem names_nodup (c : Cmd) : ((helpFlag :: c.flags).flatMap Flag.names).Nodup := by cases c <;> decide +kernel

theorem flags_nodup (c : Cmd) : (helpFlag :: c.flags).Nodup := by cases c <;> decide +kernel

/-- Two flags that share a name are the same. -/
theorem flag_unique {fs : List Flag} (h : (fs.flatMap Flag.names).Nodup) : ∀ {f g : Flag} {n : Str}, f ∈ fs → g ∈ fs → n ∈ f.names →
    n ∈ g.names → f = g := by
  induction fs with
  | nil => intro f g n hf; cases hf
  | cons a l ih =>
    intro f g n hf hg hnf hng
    rw [List.flatMap_cons, List.nodup_append] at h
    rcases List.mem_cons.mp hf with ef | hf' <;> rcases List.mem_cons.mp hg with eg | hg'
    · rw [ef, eg]
    · exact absurd rfl (h.2.2 n (ef ▸ hnf) n (List.mem_flatMap.mpr ⟨g, hg', hng⟩))
    · exact absurd rfl (h.2.2 n (eg ▸ hng) n (List.mem_flatMap.mpr ⟨f, hf', hnf⟩))
    · exact ih h.2.1 hf' hg' hnf hng

/-- A name finds its flag. -/
theorem find_flag {fs : List Flag} (h : (fs.flatMap Flag.names).Nodup) {f : Flag} {n : Str} (hf : f ∈ fs) (hn : n ∈ f.names) :
    fs.find? (fun f => decide (n ∈ f.names)) = some f := by
  induction fs with
  | nil => cases hf
  | cons a l ih =>
    by_cases ha : n ∈ a.names
    · rw [List.find?_cons_of_pos (p := fun f : Flag => decide (n ∈ f.names)) (decide_eq_true ha), flag_unique h (List.mem_cons_self ..) hf ha hn]
    · rw [List.find?_cons_of_neg (p := fun f : Flag => decide (n ∈ f.names)) (by rw [decide_eq_false ha]; exact Bool.noConfusion)]
      rcases List.mem_cons.mp hf with rfl | hf
      · exact absurd hn ha
      · rw [List.flatMap_cons, List.nodup_append] at h; exact ih h.2.1 hf

/-! ### Arguments -/

theorem flagText_dash {d n : Str} (hd : d ∈ ["-"ₛ, "--"ₛ]) (hn : n.head? ≠ some '-') (h0 : n ≠ []) (r : Str) :
    flagText (d ++ n ++ r) = some (n ++ r) := by
  cases n with
  | nil => exact absurd rfl h0
  | cons c n =>
    have hc : c ≠ '-' := fun e => hn (by rw [e]; rfl)
    rcases List.mem_cons.mp hd with rfl | hd
    · show flagText ('-' :: c :: (n ++ r)) = _
      unfold flagText; split
      · rename_i h; injection h with _ h; injection h with h _; exact absurd h hc
      · rename_i h; injection h with _ h; rw [← h]; rfl
      · rename_i h; exact absurd rfl (h c (n ++ r))
    · rcases List.mem_cons.mp hd with rfl | hd
      · rfl
      · cases hd

theorem dropWhile_none {s : Str} (h : '=' ∉ s) : s.dropWhile (· ≠ '=') = [] :=
  List.dropWhile_eq_nil_iff.mpr fun _ hc => decide_eq_true fun e => h (e ▸ hc)

theorem takeWhile_app {s r : Str} (h : '=' ∉ s) : (s ++ '=' :: r).takeWhile (· ≠ '=') = s := by
  induction s with
  | nil => rfl
  | cons c s ih =>
    have hc : c ≠ '=' := fun e => h (e ▸ List.mem_cons_self ..)
    rw [List.cons_append, List.takeWhile_cons_of_pos (p := fun c : Char => decide (c ≠ '=')) (decide_eq_true hc), ih fun hm => h (List.mem_cons_of_mem _ hm)]

theorem dropWhile_app {s r : Str} (h : '=' ∉ s) : (s ++ '=' :: r).dropWhile (· ≠ '=') = '=' :: r := by
  induction s with
  | nil => rfl
  | cons c s ih =>
    have hc : c ≠ '=' := fun e => h (e ▸ List.mem_cons_self ..)
    rw [List.cons_append, List.dropWhile_cons_of_pos (p := fun c : Char => decide (c ≠ '=')) (decide_eq_true hc), ih fun hm => h (List.mem_cons_of_mem _ hm)]

theorem splitValue_plain {n : Str} (h : CleanName n) : splitValue n = (n, none) := by
  cases n with
  | nil => rfl
  | cons c n => unfold splitValue; simp only; rw [dropWhile_none fun hm => h.2.2 (List.mem_cons_of_mem _ hm)]

theorem splitValue_sign {n : Str} (h : CleanName n) (x : Str) : splitValue (n ++ "="ₛ ++ x) = (n, some x) := by
  cases n with
  | nil => exact absurd rfl h.1
  | cons c n =>
    have hn : '=' ∉ n := fun hm => h.2.2 (List.mem_cons_of_mem _ hm)
    have e : c :: n ++ "="ₛ ++ x = c :: (n ++ '=' :: x) := by rw [List.cons_append, List.cons_append, List.append_assoc]; rfl
    rw [e]; unfold splitValue; simp only; rw [dropWhile_app hn, takeWhile_app hn]

theorem head_clean {n : Str} (h : CleanName n) (r : Str) : n ++ r ≠ [] ∧ ¬((n ++ r).head? = some '-' ∨ (n ++ r).head? = some '=') := by
  cases n with
  | nil => exact absurd rfl h.1
  | cons c n =>
    refine ⟨List.cons_ne_nil _ _, ?_⟩
    rintro (e | e)
    · exact h.2.1 e
    · injection e with e; exact h.2.2 (e ▸ List.mem_cons_self ..)

theorem parseBool_texts {b : Bool} {t : Str} (h : t ∈ boolTexts b) : parseBool t = some b := by
  cases b
  · have : ∀ t ∈ boolTexts false, parseBool t = some false := by decide
    exact this t h
  · have : ∀ t ∈ boolTexts true, parseBool t = some true := by decide
    exact this t h

theorem texts_of_parseBool {t : Str} {b : Bool} (h : parseBool t = some b) : t ∈ boolTexts b := by
  unfold parseBool at h
  split at h
  · injection h with h; subst h; assumption
  · split at h
    · injection h with h; subst h; assumption
    · cases h

/-- The first argument gives a flag a value. -/
theorem parseArgs_form {flags : List Flag} (hu : (flags.flatMap Flag.names).Nodup) (hc : ∀ f ∈ flags, ∀ n ∈ f.names, CleanName n)
    {f : Flag} (hf : f ∈ flags) {x : Str} {a : List Str} (h : Form f x a) (rest : List Str) :
    ∃ n ∈ f.names, parseArgs flags (a ++ rest) = (parseArgs flags rest).map ((n, x) :: ·) := by
  cases h with
  | next d n x hd hn hb =>
    have cn := hc f hf n hn
    refine ⟨n, hn, ?_⟩
    have ht := flagText_dash hd cn.2.1 cn.1 []
    have hh := head_clean cn []
    rw [List.append_nil] at ht
    simp only [List.append_nil] at ht hh
    show parseArgs flags ((d ++ n) :: x :: rest) = _
    rw [parseArgs, ht]
    simp only [if_neg hh.1, if_neg hh.2, splitValue_plain cn, find_flag hu hf hn, hb]
    rfl
  | sign d n x hd hn hb =>
    have cn := hc f hf n hn
    refine ⟨n, hn, ?_⟩
    have ht := flagText_dash hd cn.2.1 cn.1 ("="ₛ ++ x)
    have hh := head_clean cn ("="ₛ ++ x)
    rw [← List.append_assoc, ← List.append_assoc] at ht
    rw [← List.append_assoc] at hh
    show parseArgs flags ((d ++ n ++ "="ₛ ++ x) :: rest) = _
    rw [parseArgs, ht]
    simp only [if_neg hh.1, if_neg hh.2, splitValue_sign cn, find_flag hu hf hn, hb]
    rfl
  | on d n hd hn hb =>
    have cn := hc f hf n hn
    refine ⟨n, hn, ?_⟩
    have ht := flagText_dash hd cn.2.1 cn.1 []
    have hh := head_clean cn []
    simp only [List.append_nil] at ht hh
    show parseArgs flags ((d ++ n) :: rest) = _
    rw [parseArgs, ht]
    simp only [if_neg hh.1, if_neg hh.2, splitValue_plain cn, find_flag hu hf hn, hb]
    rfl
  | switch d n b t hd hn hb hx =>
    have cn := hc f hf n hn
    refine ⟨n, hn, ?_⟩
    have ht := flagText_dash hd cn.2.1 cn.1 ("="ₛ ++ t)
    have hh := head_clean cn ("="ₛ ++ t)
    rw [← List.append_assoc, ← List.append_assoc] at ht
    rw [← List.append_assoc] at hh
    show parseArgs flags ((d ++ n ++ "="ₛ ++ t) :: rest) = _
    rw [parseArgs, ht]
    simp only [if_neg hh.1, if_neg hh.2, splitValue_sign cn, find_flag hu hf hn, hb, parseBool_texts hx]
    cases b <;> rfl

/-- All flags that are given. -/
theorem parseArgs_forms {flags : List Flag} (hu : (flags.flatMap Flag.names).Nodup) (hc : ∀ f ∈ flags, ∀ n ∈ f.names, CleanName n)
    {given : List (Flag × Str)} {args : List (List Str)} (hg : ∀ p ∈ given, p.1 ∈ flags)
    (h : List.Forall₂ (fun p a => Form p.1 p.2 a) given args) :
    ∃ l, parseArgs flags args.flatten = some l ∧ List.Forall₂ (fun (p : Flag × Str) (q : Str × Str) => q.1 ∈ p.1.names ∧ q.2 = p.2) given l := by
  induction h with
  | nil => exact ⟨[], rfl, .nil⟩
  | @cons p a given args h _ ih =>
    obtain ⟨l, hl, hf⟩ := ih fun q hq => hg q (List.mem_cons_of_mem _ hq)
    obtain ⟨n, hn, he⟩ := parseArgs_form hu hc (hg p (List.mem_cons_self ..)) h args.flatten
    exact ⟨(n, p.2) :: l, by rw [List.flatten_cons, he, hl]; rfl, .cons ⟨hn, rfl⟩ hf⟩

/-! ### Values -/

theorem forall₂_left {α β : Type} {R : α → β → Prop} : ∀ {l : List α} {m : List β}, List.Forall₂ R l m → ∀ {a : α}, a ∈ l →
    ∃ b ∈ m, R a b
  | _, _, .nil, _, h => by cases h
  | _, _, .cons (a := x) (b := y) h hs, a, ha => by
    rcases List.mem_cons.mp ha with rfl | ha
    · exact ⟨y, List.mem_cons_self .., h⟩
    · obtain ⟨b, hb, hr⟩ := forall₂_left hs ha; exact ⟨b, List.mem_cons_of_mem _ hb, hr⟩

theorem forall₂_right {α β : Type} {R : α → β → Prop} : ∀ {l : List α} {m : List β}, List.Forall₂ R l m → ∀ {b : β}, b ∈ m →
    ∃ a ∈ l, R a b
  | _, _, .nil, _, h => by cases h
  | _, _, .cons (a := x) (b := y) h hs, b, hb => by
    rcases List.mem_cons.mp hb with rfl | hb
    · exact ⟨x, List.mem_cons_self .., h⟩
    · obtain ⟨a, ha, hr⟩ := forall₂_right hs hb; exact ⟨a, List.mem_cons_of_mem _ ha, hr⟩

section
variable {flags : List Flag} (hu : (flags.flatMap Flag.names).Nodup) {given : List (Flag × Str)} {l : List (Str × Str)}
  (hg : ∀ p ∈ given, p.1 ∈ flags)
  (h : List.Forall₂ (fun (p : Flag × Str) (q : Str × Str) => q.1 ∈ p.1.names ∧ q.2 = p.2) given l)
include hu hg h

/-- A flag that is given has that value. -/
theorem givenValue_some (hd : (given.map Prod.fst).Nodup) {f : Flag} (hf : f ∈ flags) {x : Str} (hm : (f, x) ∈ given) :
    givenValue l f = some x := by
  obtain ⟨q, hq, hn, hx⟩ := forall₂_left h hm
  have huniq : ∀ q' ∈ l, q'.1 ∈ f.names → q'.2 = x := by
    intro q' hq' hn'
    obtain ⟨p', hp', hr, hx'⟩ := forall₂_right h hq'
    have e : p'.1 = f := flag_unique hu (hg p' hp') hf hr hn'
    have : p' = (f, x) := by
      have := List.inj_on_of_nodup_map hd hp' hm e
      exact this
    rw [hx', this]
  unfold givenValue
  cases hfind : l.reverse.find? fun p => decide (p.1 ∈ f.names) with
  | none => exact absurd (List.find?_eq_none.mp hfind q (List.mem_reverse.mpr hq)) (by simpa using hn)
  | some r =>
    have h1 : decide (r.1 ∈ f.names) = true := List.find?_some (p := fun p : Str × Str => decide (p.1 ∈ f.names)) hfind
    have h2 := List.mem_reverse.mp (List.mem_of_find?_eq_some hfind)
    show some r.2 = _
    rw [huniq r h2 (of_decide_eq_true h1)]

/-- A flag that is not given has no value. -/
theorem givenValue_none {f : Flag} (hf : f ∈ flags) (hm : ∀ y, (f, y) ∉ given) : givenValue l f = none := by
  unfold givenValue
  rw [List.find?_eq_none.mpr]; · rfl
  intro q hq
  obtain ⟨p, hp, hn, _⟩ := forall₂_right h (List.mem_reverse.mp hq)
  intro hd
  have e : p.1 = f := flag_unique hu (hg p hp) hf hn (of_decide_eq_true hd)
  exact hm p.2 (by rw [← e]; exact hp)

/-- No flag is given under two names. -/
theorem givenNames_le (hd : (given.map Prod.fst).Nodup) {f : Flag} (hf : f ∈ flags) (hfn : f.names.Nodup) : (givenNames l f).length ≤ 1 := by
  unfold givenNames
  have hsame : ∀ n ∈ f.names.filter (fun n => l.any (·.1 == n)), ∀ m ∈ f.names.filter (fun n => l.any (·.1 == n)), n = m := by
    intro n hn m hm
    obtain ⟨hn1, hn2⟩ := List.mem_filter.mp hn
    obtain ⟨hm1, hm2⟩ := List.mem_filter.mp hm
    obtain ⟨q, hq, eq⟩ := List.any_eq_true.mp hn2
    obtain ⟨r, hr, er⟩ := List.any_eq_true.mp hm2
    have eq : q.1 = n := by simpa using eq
    have er : r.1 = m := by simpa using er
    -- both come from the one place where the flag is given
    obtain ⟨i, hi, rfl⟩ := List.getElem_of_mem hq
    obtain ⟨j, hj, rfl⟩ := List.getElem_of_mem hr
    have hlen := h.length_eq
    have hi' : i < given.length := hlen ▸ hi
    have hj' : j < given.length := hlen ▸ hj
    have h1 := (List.forall₂_iff_get.mp h).2 i hi' hi
    have h2 := (List.forall₂_iff_get.mp h).2 j hj' hj
    simp only [List.get_eq_getElem] at h1 h2
    have e1 : given[i].1 = f := flag_unique hu (hg _ (List.getElem_mem hi')) hf h1.1 (eq ▸ hn1)
    have e2 : given[j].1 = f := flag_unique hu (hg _ (List.getElem_mem hj')) hf h2.1 (er ▸ hm1)
    have e : i = j := by
      have := (List.Nodup.getElem_inj_iff (hi := by simpa using hi') (hj := by simpa using hj') hd (i := i) (j := j)).mp
        (by simp only [List.getElem_map]; rw [e1, e2])
      exact this
    subst e
    rw [← eq, ← er]
  have hnd : (f.names.filter (fun n => l.any (·.1 == n))).Nodup := hfn.filter _
  cases hl : f.names.filter (fun n => l.any (·.1 == n)) with
  | nil => exact Nat.zero_le _
  | cons a t =>
    cases t with
    | nil => exact Nat.le_refl _
    | cons b t =>
      rw [hl] at hsame hnd
      have := hsame a (List.mem_cons_self ..) b (List.mem_cons_of_mem _ (List.mem_cons_self ..))
      subst this
      exact absurd (List.mem_cons_self ..) (List.nodup_cons.mp hnd).1

end

/-! ### Commands -/

theorem required_plain (c : Cmd) : ∀ f ∈ c.flags, f.required = true → f.bool = false := by cases c <;> decide

theorem flag_names_nodup (c : Cmd) : ∀ f ∈ helpFlag :: c.flags, f.names.Nodup := by cases c <;> decide +kernel

theorem flags_names_nodup (c : Cmd) : (c.flags.flatMap Flag.names).Nodup := by
  have := names_nodup c
  rw [List.flatMap_cons, List.nodup_append] at this
  exact this.2.1

theorem badEnv_false {env : Str → Option Str} {c : Cmd} (h : GoodEnv env c) : c.flags.any (badEnv env) = false := by
  rw [List.any_eq_false]
  intro f hf hb
  unfold badEnv at hb
  split at hb
  · cases hb
  · rename_i t ht
    simp only [Bool.and_eq_true, bne_iff_ne, ne_eq, Option.isNone_iff_eq_none] at hb
    rcases h f hf hb.1.1 t ht with e | ⟨b, hbt⟩
    · exact hb.1.2 e
    · rw [parseBool_texts hbt] at hb; cases hb.2

/-- The value of a flag that is given or not. -/
theorem chosen_of {env : Str → Option Str} {c : Cmd} (h : GoodEnv env c) {given : List (Flag × Str)} {f : Flag} (hf : f ∈ c.flags)
    (g : Option Str) (hs : ∀ x, (f, x) ∈ given → g = some x) (hn : (∀ y, (f, y) ∉ given) → g = none) :
    Chosen env given f ((g.or (envValue env f)).getD (if f.bool then "false"ₛ else [])) := by
  by_cases hm : ∃ x, (f, x) ∈ given
  · obtain ⟨x, hx⟩ := hm
    rw [hs x hx]; exact .given x hx
  · have hm : ∀ y, (f, y) ∉ given := fun y hy => hm ⟨y, hy⟩
    rw [hn hm, Option.none_or]
    unfold envValue
    cases he : env f.env with
    | none =>
      cases hb : f.bool
      · exact .unset hm hb he
      · exact .unsetSwitch hm hb (.inl he)
    | some t =>
      cases hb : f.bool
      · exact .env t hm hb he
      · by_cases ht : t = []
        · subst ht; exact .unsetSwitch hm hb (.inr he)
        · rcases h f hf hb t he with e | ⟨b, hbt⟩
          · exact absurd e ht
          · simp only [if_neg ht, if_true, parseBool_texts hbt, Option.map_some, Option.getD_some]
            have := Chosen.envSwitch (env := env) b t hm hb he hbt
            cases b <;> exact this

/-- A command line that gives every option at most once and does not ask for help. -/
theorem parse_forms {env : Str → Option Str} {c : Cmd} (henv : GoodEnv env c) {given : List (Flag × Str)} {args : List (List Str)}
    (hg : ∀ p ∈ given, p.1 ∈ c.flags ∨ p = (helpFlag, "false"ₛ)) (hd : (given.map Prod.fst).Nodup)
    (h : List.Forall₂ (fun p a => Form p.1 p.2 a) given args)
    (hr : ∀ f ∈ c.flags, f.required = true → (∃ x, (f, x) ∈ given) ∨ ∃ x, env f.env = some x) :
    ∃ v, parse c.flags env args.flatten = .run v ∧ (∀ f ∈ c.flags, ∀ n ∈ f.names, Chosen env given f (v n)) ∧
      ∀ n, (∀ f ∈ c.flags, n ∉ f.names) → v n = [] := by
  have hg' : ∀ p ∈ given, p.1 ∈ helpFlag :: c.flags := fun p hp => by
    rcases hg p hp with h | rfl
    · exact List.mem_cons_of_mem _ h
    · exact List.mem_cons_self
  obtain ⟨l, hl, hf2⟩ := parseArgs_forms (names_nodup c) (clean_names c) hg' h
  have hval : ∀ f ∈ c.flags, ∀ x, (f, x) ∈ given → givenValue l f = some x := fun f hf x hx =>
    givenValue_some (names_nodup c) hg' hf2 hd (List.mem_cons_of_mem _ hf) hx
  have hnon : ∀ f ∈ c.flags, (∀ y, (f, y) ∉ given) → givenValue l f = none := fun f hf hm =>
    givenValue_none (names_nodup c) hg' hf2 (List.mem_cons_of_mem _ hf) hm
  refine ⟨values c.flags env l, ?_, ?_, ?_⟩
  · unfold parse
    rw [if_neg (by rw [badEnv_false henv]; exact Bool.noConfusion), hl]
    have h1 : ((helpFlag :: c.flags).any fun f => decide ((givenNames l f).length > 1)) = false := by
      rw [List.any_eq_false]
      intro f hf hgt
      exact absurd (of_decide_eq_true hgt)
        (Nat.not_lt.mpr (givenNames_le (names_nodup c) hg' hf2 hd hf (flag_names_nodup c f hf)))
    have h2 : ¬givenValue l helpFlag = some "true"ₛ := by
      by_cases hx : ∃ x, (helpFlag, x) ∈ given
      · obtain ⟨x, hx⟩ := hx
        rw [givenValue_some (names_nodup c) hg' hf2 hd (List.mem_cons_self ..) hx]
        rcases hg _ hx with h | h
        · exact absurd h (List.nodup_cons.mp (flags_nodup c)).1
        · rw [(Prod.mk.inj h).2]; decide
      · rw [givenValue_none (names_nodup c) hg' hf2 (List.mem_cons_self ..) fun y hy => hx ⟨y, hy⟩]
        exact fun h => by cases h
    have h3 : (c.flags.any fun f => f.required && ((givenValue l f).or (envValue env f)).isNone) = false := by
      rw [List.any_eq_false]
      intro f hf hgt
      rw [Bool.and_eq_true] at hgt
      by_cases hx : ∃ x, (f, x) ∈ given
      · obtain ⟨x, hx⟩ := hx
        rw [hval f hf x hx] at hgt; cases hgt.2
      · have hm : ∀ y, (f, y) ∉ given := fun y hy => hx ⟨y, hy⟩
        rcases hr f hf hgt.1 with ⟨x, hx'⟩ | ⟨x, hx'⟩
        · exact hx ⟨x, hx'⟩
        · rw [hnon f hf hm, Option.none_or] at hgt
          unfold envValue at hgt
          rw [hx', required_plain c f hf hgt.1] at hgt
          cases hgt.2
    simp only [h1, h3, if_neg h2]
    rfl
  · intro f hf n hn
    unfold values
    rw [find_flag (flags_names_nodup c) hf hn]
    exact chosen_of henv hf (givenValue l f) (hval f hf) (hnon f hf)
  · intro n hn
    unfold values
    rw [List.find?_eq_none.mpr fun f hf hd => hn f hf (of_decide_eq_true hd)]

/-- A command line that asks for help. -/
theorem parse_help {env : Str → Option Str} {c : Cmd} (henv : GoodEnv env c) {given : List (Flag × Str)} {args : List (List Str)}
    (hg : ∀ p ∈ given, p.1 ∈ helpFlag :: c.flags) (hd : (given.map Prod.fst).Nodup)
    (h : List.Forall₂ (fun p a => Form p.1 p.2 a) given args) (hh : (helpFlag, "true"ₛ) ∈ given) :
    parse c.flags env args.flatten = .help := by
  obtain ⟨l, hl, hf2⟩ := parseArgs_forms (names_nodup c) (clean_names c) hg h
  unfold parse
  rw [if_neg (by rw [badEnv_false henv]; exact Bool.noConfusion), hl]
  have h1 : ((helpFlag :: c.flags).any fun f => decide ((givenNames l f).length > 1)) = false := by
    rw [List.any_eq_false]
    intro f hf hgt
    exact absurd (of_decide_eq_true hgt)
      (Nat.not_lt.mpr (givenNames_le (names_nodup c) hg hf2 hd hf (flag_names_nodup c f hf)))
  have h2 : givenValue l helpFlag = some "true"ₛ := givenValue_some (names_nodup c) hg hf2 hd (List.mem_cons_self ..) hh
  simp only [h1, if_pos h2]
  rfl

/-- The value of an option is determined. -/
theorem Chosen.unique {env : Str → Option Str} {given : List (Flag × Str)} (hd : (given.map Prod.fst).Nodup) {f : Flag} {x y : Str}
    (hx : Chosen env given f x) (hy : Chosen env given f y) : x = y := by
  have hb : ∀ {b b' : Bool} {t : Str}, t ∈ boolTexts b → t ∈ boolTexts b' → b = b' := fun h h' => by
    have e := parseBool_texts h; rw [parseBool_texts h'] at e; injection e with e; exact e.symm
  have hne : ∀ {b : Bool}, [] ∉ boolTexts b := fun {b} h => by have := parseBool_texts h; revert this; cases b <;> decide
  cases hx with
  | given x hm =>
    cases hy with
    | given y hm' => exact congrArg Prod.snd (List.inj_on_of_nodup_map hd hm hm' rfl)
    | env y hn _ _ => exact absurd hm (hn x)
    | envSwitch b t hn _ _ _ => exact absurd hm (hn x)
    | unset hn _ _ => exact absurd hm (hn x)
    | unsetSwitch hn _ _ => exact absurd hm (hn x)
  | env x hn h1 h2 =>
    cases hy with
    | given y hm' => exact absurd hm' (hn y)
    | env y _ _ h2' => rw [h2] at h2'; injection h2'
    | envSwitch b t _ h1' _ _ => rw [h1] at h1'; cases h1'
    | unset _ _ h2' => rw [h2] at h2'; cases h2'
    | unsetSwitch _ h1' _ => rw [h1] at h1'; cases h1'
  | envSwitch b t hn h1 h2 h3 =>
    cases hy with
    | given y hm' => exact absurd hm' (hn _)
    | env y _ h1' _ => rw [h1] at h1'; cases h1'
    | envSwitch b' t' _ _ h2' h3' => rw [h2] at h2'; injection h2' with e; subst e; rw [hb h3 h3']
    | unset _ h1' _ => rw [h1] at h1'; cases h1'
    | unsetSwitch _ _ h =>
      rcases h with h | h <;> rw [h2] at h
      · cases h
      · injection h with e; subst e; exact absurd h3 hne
  | unset hn h1 h2 =>
    cases hy with
    | given y hm' => exact absurd hm' (hn _)
    | env y _ _ h2' => rw [h2] at h2'; cases h2'
    | envSwitch b t _ h1' _ _ => rw [h1] at h1'; cases h1'
    | unset _ _ _ => rfl
    | unsetSwitch _ h1' _ => rw [h1] at h1'; cases h1'
  | unsetSwitch hn h1 h2 =>
    cases hy with
    | given y hm' => exact absurd hm' (hn _)
    | env y _ h1' _ => rw [h1] at h1'; cases h1'
    | envSwitch b' t' _ _ h2' h3' =>
      rcases h2 with h | h <;> rw [h2'] at h
      · cases h
      · injection h with e; subst e; exact absurd h3' hne
    | unset _ h1' _ => rw [h1] at h1'; cases h1'
    | unsetSwitch _ _ _ => rfl

/-! ### Options that are not mentioned -/

theorem flagText_cases {a s : Str} (h : flagText a = some s) : ∃ d ∈ ["-"ₛ, "--"ₛ], a = d ++ s := by
  unfold flagText at h
  split at h
  · injection h with h; subst h; exact ⟨"--"ₛ, by decide, rfl⟩
  · injection h with h; subst h; exact ⟨"-"ₛ, by decide, rfl⟩
  · cases h

theorem splitValue_cases (s : Str) : s = (splitValue s).1 ∨ ((splitValue s).1 ++ "="ₛ) <+: s := by
  cases s with
  | nil => exact .inl rfl
  | cons c r =>
    unfold splitValue; simp only
    split
    · exact .inl rfl
    · rename_i e v h
      refine .inr ⟨v, ?_⟩
      have h1 : e = '=' := by
        have := List.head?_dropWhile_not (p := fun c : Char => decide (c ≠ '=')) (l := r)
        rw [h] at this
        simpa using this
      subst h1
      have h2 := List.takeWhile_append_dropWhile (p := fun c : Char => decide (c ≠ '=')) (l := r)
      rw [h] at h2
      show (c :: List.takeWhile _ r ++ "="ₛ) ++ v = c :: r
      rw [List.append_assoc, List.cons_append]
      exact congrArg (c :: ·) h2

theorem Mentions.tail {f : Flag} {a : Str} {args : List Str} (h : Mentions f args) : Mentions f (a :: args) := by
  obtain ⟨b, hb, h⟩ := h; exact ⟨b, List.mem_cons_of_mem _ hb, h⟩

/-- Names that are given are in the arguments. -/
theorem given_mentioned {flags : List Flag} {f : Flag} : ∀ (k : Nat) {args : List Str} {l : List (Str × Str)}, args.length ≤ k →
    parseArgs flags args = some l → ∀ q ∈ l, q.1 ∈ f.names → Mentions f args := by
  intro k
  induction k with
  | zero =>
    intro args l hk h q hq
    cases args with
    | nil => rw [parseArgs] at h; injection h with h; subst h; cases hq
    | cons _ _ => cases hk
  | succ k ih =>
    intro args l hk h q hq hn
    cases args with
    | nil => rw [parseArgs] at h; injection h with h; subst h; cases hq
    | cons a rest =>
      have hk' : rest.length ≤ k := Nat.le_of_succ_le_succ hk
      rw [parseArgs] at h
      cases ht : flagText a with
      | none => rw [ht] at h; injection h with h; subst h; cases hq
      | some s =>
        rw [ht] at h
        obtain ⟨d, hd, rfl⟩ := flagText_cases ht
        have here : ∀ (x : Str) (rest' : List Str) (l' : List (Str × Str)), parseArgs flags rest' = some l' → l = ((splitValue s).1, x) :: l' →
            rest'.length ≤ k → (Mentions f rest' → Mentions f ((d ++ s) :: rest)) → Mentions f ((d ++ s) :: rest) := by
          intro x rest' l' hl' e hle hup
          subst e
          rcases List.mem_cons.mp hq with rfl | hq
          · refine ⟨d ++ s, List.mem_cons_self .., d, hd, (splitValue s).1, hn, ?_⟩
            rcases splitValue_cases s with e | e
            · exact .inl (congrArg (d ++ ·) e)
            · refine .inr ?_; rw [List.append_assoc]; exact (List.prefix_append_right_inj d).mpr e
          · exact hup (ih hle hl' q hq hn)
        have mapped : ∀ (x : Str) (rest' : List Str), (parseArgs flags rest').map (((splitValue s).1, x) :: ·) = some l → rest'.length ≤ k →
            (Mentions f rest' → Mentions f ((d ++ s) :: rest)) → Mentions f ((d ++ s) :: rest) := by
          intro x rest' h hle hup
          obtain ⟨l', hl', e⟩ := Option.map_eq_some_iff.mp h
          exact here x rest' l' hl' e.symm hle hup
        simp only at h
        split at h
        · injection h with h; subst h; cases hq
        · split at h
          · cases h
          · split at h
            · cases h
            · split at h
              · split at h
                · exact mapped _ rest h hk' Mentions.tail
                · split at h
                  · cases h
                  · exact mapped _ rest h hk' Mentions.tail
              · split at h
                · exact mapped _ rest h hk' Mentions.tail
                · split at h
                  · cases h
                  · exact mapped _ _ h (Nat.le_of_succ_le hk') fun hm => Mentions.tail (Mentions.tail hm)

/-- Without a required option the command is not run. -/
theorem parse_required {env : Str → Option Str} {c : Cmd} {args : List Str} {f : Flag} (hf : f ∈ c.flags) (hr : f.required = true)
    (he : env f.env = none) (hm : ¬Mentions f args) : ∀ v, parse c.flags env args ≠ .run v := by
  intro v h
  unfold parse at h
  split at h
  · cases h
  · split at h
    · cases h
    · rename_i given hg
      split at h
      · cases h
      · split at h
        · cases h
        · split at h
          · cases h
          · rename_i hq
            refine hq (List.any_eq_true.mpr ⟨f, hf, ?_⟩)
            have : givenValue given f = none := by
              unfold givenValue
              rw [List.find?_eq_none.mpr]; · rfl
              intro q hq' hd
              exact hm (given_mentioned args.length (Nat.le_refl _) hg q (List.mem_reverse.mp hq') (of_decide_eq_true hd))
            rw [hr, this, Option.none_or]
            unfold envValue; rw [he]; rfl

end Octo.Cli
