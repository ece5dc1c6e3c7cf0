import Verif.Model.StarumlJson
import Verif.Spec.StarumlJson
import Verif.Lemmas.Staruml

/-! Lemmas about the decoding of StarUML documents. -/

namespace Octo.Staruml
open Spec

/-- One member. -/
def step (d : Decoded) (p : Str × Json) : Decoded :=
  if lower p.1 = lower "ownedElements"ₛ then d.setOwned (decodeList p.2)
  else if lower p.1 = lower "columns"ₛ then d.setColumns (decodeList p.2)
  else d.member p.1 p.2

theorem decodeMembers_eq (l : List (Str × Json)) (d : Decoded) : decodeMembers l d = l.foldl step d := by
  induction l generalizing d with
  | nil => rw [decodeMembers]; rfl
  | cons p l ih => rw [decodeMembers, ih]; rfl

theorem keyOf_eq {k : Str} {κ : Key} (h : keyOf k = some κ) : lower k = lower κ.tag.toList := by
  have := List.find?_some h
  exact beq_iff_eq.1 this

theorem keyOf_none {k : Str} (h : keyOf k = none) (κ : Key) : lower k ≠ lower κ.tag.toList := by
  have := List.find?_eq_none.1 h κ (by cases κ <;> decide)
  exact fun e => this (beq_iff_eq.2 e)

theorem tag_inj : ∀ κ κ' : Key, lower κ.tag.toList = lower κ'.tag.toList → κ = κ' := by
  have : ∀ κ ∈ Key.all, ∀ κ' ∈ Key.all, lower κ.tag.toList = lower κ'.tag.toList → κ = κ' := by decide
  intro κ κ'
  exact this κ (by cases κ <;> decide) κ' (by cases κ' <;> decide)

theorem keyOf_of {k : Str} {κ : Key} (h : lower k = lower κ.tag.toList) : keyOf k = some κ := by
  cases hk : keyOf k with
  | none => exact absurd h (keyOf_none hk κ)
  | some κ' => rw [tag_inj κ κ' (h.symm.trans (keyOf_eq hk))]

theorem not_owned {k : Str} {κ : Key} (h : lower k = lower κ.tag.toList) : lower k ≠ lower "ownedElements"ₛ := by
  rw [h]; cases κ <;> decide

theorem not_columns {k : Str} {κ : Key} (h : lower k = lower κ.tag.toList) : lower k ≠ lower "columns"ₛ := by
  rw [h]; cases κ <;> decide

/-- The member of a field. -/
theorem step_key {p : Str × Json} {κ : Key} (h : lower p.1 = lower κ.tag.toList) (d : Decoded) : step d p = d.set p.2 κ := by
  unfold step
  rw [if_neg (not_owned h), if_neg (not_columns h)]
  unfold Decoded.member
  rw [keyOf_of h]

/-- Kinds of members. -/
theorem step_cases (p : Str × Json) (d : Decoded) :
    (lower p.1 = lower "ownedElements"ₛ ∧ step d p = d.setOwned (decodeList p.2)) ∨
    (lower p.1 = lower "columns"ₛ ∧ step d p = d.setColumns (decodeList p.2)) ∨
    (∃ κ : Key, lower p.1 = lower κ.tag.toList ∧ step d p = d.set p.2 κ) ∨ step d p = d := by
  unfold step
  split
  · rename_i h; exact .inl ⟨h, rfl⟩
  · split
    · rename_i h; exact .inr (.inl ⟨h, rfl⟩)
    · unfold Decoded.member
      cases hk : keyOf p.1 with
      | none => exact .inr (.inr (.inr rfl))
      | some κ => exact .inr (.inr (.inl ⟨κ, keyOf_eq hk, rfl⟩))

theorem foldl_other {α : Type} (π : Decoded → α) (key : String)
    (h1 : ∀ p d, lower p.1 ≠ lower key.toList → π (step d p) = π d) (l : List (Str × Json))
    (h : ∀ p ∈ l, lower p.1 ≠ lower key.toList) (d : Decoded) : π (l.foldl step d) = π d := by
  induction l generalizing d with
  | nil => rfl
  | cons p l ih =>
    rw [List.foldl_cons, ih (fun q hq => h q (List.mem_cons_of_mem _ hq)), h1 p d (h p List.mem_cons_self)]

/-- A part of the result that depends on one member only. -/
theorem foldl_component {α : Type} (π : Decoded → α) (key : String) (a : α) {l : List (Str × Json)} (hn : DistinctKeys l)
    {V : Json → Prop} {ab : Prop} (hs : Says l key V ab)
    (h1 : ∀ p d, lower p.1 ≠ lower key.toList → π (step d p) = π d)
    (h2 : ∀ p d, lower p.1 = lower key.toList → V p.2 → π d = π {} → π (step d p) = a)
    (h0 : ab → π {} = a) : π (l.foldl step {}) = a := by
  rcases hs with ⟨p, hp, hk, hv⟩ | ⟨h, hab⟩
  · obtain ⟨pre, post, rfl⟩ := List.append_of_mem hp
    unfold DistinctKeys at hn
    rw [List.map_append, List.map_cons, List.nodup_append, List.nodup_cons] at hn
    obtain ⟨-, ⟨hpost, -⟩, hpre⟩ := hn
    have e1 : ∀ q ∈ pre, lower q.1 ≠ lower key.toList := by
      intro q hq e
      exact hpre _ (List.mem_map_of_mem hq) _ List.mem_cons_self (e.trans hk.symm)
    have e2 : ∀ q ∈ post, lower q.1 ≠ lower key.toList := by
      intro q hq e
      exact hpost (List.mem_map.2 ⟨q, hq, e.trans hk.symm⟩)
    rw [List.foldl_append, List.foldl_cons, foldl_other π key h1 post e2]
    exact h2 p _ hk hv (foldl_other π key h1 pre e1 {})
  · rw [foldl_other π key h1 l h, h0 hab]

/-- A field of `Info` depends on its own member only. -/
theorem info_other {α : Type} (π : Info → α) (κ : Key)
    (h : ∀ κ', κ' ≠ κ → ∀ (d : Decoded) v, π (d.set v κ').info = π d.info) (p : Str × Json) (d : Decoded)
    (hne : lower p.1 ≠ lower κ.tag.toList) : π (step d p).info = π d.info := by
  rcases step_cases p d with ⟨-, e⟩ | ⟨-, e⟩ | ⟨κ', hk, e⟩ | e
  · rw [e]; rfl
  · rw [e]; rfl
  · rw [e]
    exact h κ' (fun e => hne (e ▸ hk)) d p.2
  · rw [e]

theorem str_info {α : Type} (π : Info → α) (d : Decoded) (v : Json) (f : Str → Info) (h : ∀ s, π (f s) = π d.info) :
    π (d.str v f).info = π d.info := by
  unfold Decoded.str
  cases v <;> first | rfl | exact h _

theorem bool_info {α : Type} (π : Info → α) (d : Decoded) (v : Json) (f : Bool → Info) (h : ∀ s, π (f s) = π d.info) :
    π (d.bool v f).info = π d.info := by
  unfold Decoded.bool
  cases v <;> first | rfl | exact h _

theorem ref_info {α : Type} (π : Info → α) (d : Decoded) (v : Json) (f : Option Str → Info) (h : ∀ s, π (f s) = π d.info) :
    π (d.ref v f).info = π d.info := by
  unfold Decoded.ref
  cases toRef v <;> first | rfl | exact h _

/-- Closes the goals of `info_other`. -/
macro "other_keys" : tactic => `(tactic|
  (intro κ' hne d v
   cases κ' <;> first
     | exact absurd rfl hne
     | exact str_info _ d v _ fun _ => rfl
     | exact bool_info _ d v _ fun _ => rfl
     | exact ref_info _ d v _ fun _ => rfl
     | rfl))

theorem field_of_says {m : List (Str × Json)} {key : String} {s : Str} (hn : DistinctKeys m) (h : SaysStr m key s) :
    Json.toStr (Json.field m key) = some s := by
  unfold Json.field
  rcases h with ⟨p, hp, hk, hv⟩ | ⟨h, rfl⟩
  · have hf : m.reverse.find? (fun p => lower p.1 == lower key.toList) = some p := by
      cases hq : m.reverse.find? (fun p => lower p.1 == lower key.toList) with
      | none =>
        have := List.find?_eq_none.1 hq p (List.mem_reverse.2 hp)
        exact absurd (beq_iff_eq.2 hk) this
      | some q =>
        have h1 : (lower q.1 == lower key.toList) = true := List.find?_some (p := fun p : Str × Json => lower p.1 == lower key.toList) hq
        rw [beq_iff_eq] at h1
        have h2 := List.mem_reverse.1 (List.mem_of_find?_eq_some hq)
        rw [List.inj_on_of_nodup_map hn h2 hp (h1.trans hk.symm)]
    rw [hf]
    rcases hv with e | ⟨e, rfl⟩ <;> simp only [Option.map_some, e] <;> rfl
  · have hf : m.reverse.find? (fun p => lower p.1 == lower key.toList) = none :=
      List.find?_eq_none.2 fun p hp e => h p (List.mem_reverse.1 hp) (beq_iff_eq.1 e)
    rw [hf]; rfl

theorem toRef_of {v : Json} {r : Option Str} (h : IsRef v r) : toRef v = some r := by
  rcases h with ⟨rfl, rfl⟩ | ⟨m, id, rfl, hn, hs, rfl⟩
  · rfl
  · unfold toRef
    simp only [field_of_says hn hs, Option.map_some]

section
variable {l : List (Str × Json)} (hn : DistinctKeys l)
include hn

theorem says_str (π : Info → Str) (κ : Key) {s : Str} (hs : SaysStr l κ.tag s)
    (h : ∀ κ', κ' ≠ κ → ∀ (d : Decoded) v, π (d.set v κ').info = π d.info)
    (h2 : ∀ (d : Decoded) v, ∃ f, d.set v κ = d.str v f ∧ ∀ s, π (f s) = s) (h0 : π {} = []) :
    π (l.foldl step {}).info = s := by
  refine foldl_component (fun d => π d.info) κ.tag s hn hs (fun p d hne => info_other π κ h p d hne) ?_ ?_
  · intro p d hk hv hd
    dsimp only at hd ⊢
    rw [step_key hk]
    obtain ⟨f, e, hf⟩ := h2 d p.2
    rw [e]
    unfold Decoded.str
    rcases hv with e | ⟨e, rfl⟩ <;> rw [e]
    · exact hf s
    · exact hd.trans h0
  · rintro rfl; exact h0

theorem says_bool (π : Info → Bool) (κ : Key) {b : Bool} (hs : SaysBool l κ.tag b)
    (h : ∀ κ', κ' ≠ κ → ∀ (d : Decoded) v, π (d.set v κ').info = π d.info)
    (h2 : ∀ (d : Decoded) v, ∃ f, d.set v κ = d.bool v f ∧ ∀ s, π (f s) = s) (h0 : π {} = false) :
    π (l.foldl step {}).info = b := by
  refine foldl_component (fun d => π d.info) κ.tag b hn hs (fun p d hne => info_other π κ h p d hne) ?_ ?_
  · intro p d hk hv hd
    dsimp only at hd ⊢
    rw [step_key hk]
    obtain ⟨f, e, hf⟩ := h2 d p.2
    rw [e]
    unfold Decoded.bool
    rcases hv with e | ⟨e, rfl⟩ <;> rw [e]
    · exact hf b
    · exact hd.trans h0
  · rintro rfl; exact h0

theorem says_ref (π : Info → Option Str) (κ : Key) {r : Option Str} (hs : SaysRef l κ.tag r)
    (h : ∀ κ', κ' ≠ κ → ∀ (d : Decoded) v, π (d.set v κ').info = π d.info)
    (h2 : ∀ (d : Decoded) v, ∃ f, d.set v κ = d.ref v f ∧ ∀ s, π (f s) = s) (h0 : π {} = none) :
    π (l.foldl step {}).info = r := by
  refine foldl_component (fun d => π d.info) κ.tag r hn hs (fun p d hne => info_other π κ h p d hne) ?_ ?_
  · intro p d hk hv hd
    dsimp only at hd ⊢
    rw [step_key hk]
    obtain ⟨f, e, hf⟩ := h2 d p.2
    rw [e]
    unfold Decoded.ref
    rw [toRef_of hv]
    exact hf r
  · rintro rfl; exact h0

/-- The fields. -/
theorem says_info {i : Info} (hi : SaysInfo l i) : (l.foldl step {}).info = i := by
  have e1 := says_str hn (·.elemType) .elemType hi.elemType (by other_keys) (fun d v => ⟨_, rfl, fun _ => rfl⟩) rfl
  have e2 := says_str hn (·.id) .id hi.id (by other_keys) (fun d v => ⟨_, rfl, fun _ => rfl⟩) rfl
  have e3 := says_ref hn (·.parent) .parent hi.parent (by other_keys) (fun d v => ⟨_, rfl, fun _ => rfl⟩) rfl
  have e4 := says_str hn (·.name) .name hi.name (by other_keys) (fun d v => ⟨_, rfl, fun _ => rfl⟩) rfl
  have e5 : (l.foldl step {}).info.length = i.length := by
    refine foldl_component (fun d => d.info.length) "length" i.length hn hi.length
      (fun p d hne => info_other (·.length) .length (by other_keys) p d hne) ?_ (fun h => h.symm)
    intro p d hk hv hd
    rw [step_key (κ := .length) hk]
    show toLength p.2 = _
    generalize p.2 = v at hv
    cases v <;> exact Eq.symm hv
  have e6 := says_str hn (·.type) .type hi.type (by other_keys) (fun d v => ⟨_, rfl, fun _ => rfl⟩) rfl
  have e7 := says_bool hn (·.primaryKey) .primaryKey hi.primaryKey (by other_keys) (fun d v => ⟨_, rfl, fun _ => rfl⟩) rfl
  have e8 := says_bool hn (·.unique) .unique hi.unique (by other_keys) (fun d v => ⟨_, rfl, fun _ => rfl⟩) rfl
  have e9 := says_bool hn (·.nullable) .nullable hi.nullable (by other_keys) (fun d v => ⟨_, rfl, fun _ => rfl⟩) rfl
  have e10 := says_str hn (·.documentation) .documentation hi.documentation (by other_keys) (fun d v => ⟨_, rfl, fun _ => rfl⟩) rfl
  have e11 := says_ref hn (·.referenceTo) .referenceTo hi.referenceTo (by other_keys) (fun d v => ⟨_, rfl, fun _ => rfl⟩) rfl
  generalize (l.foldl step {}).info = x at *
  cases x; cases i
  dsimp only at e1 e2 e3 e4 e5 e6 e7 e8 e9 e10 e11
  subst e1 e2 e3 e4 e5 e6 e7 e8 e9 e10 e11
  rfl

end

/-- The member of a key is the described one. -/
theorem says_value {l : List (Str × Json)} (hn : DistinctKeys l) {key : String} {V : Json → Prop} {ab : Prop} (hs : Says l key V ab)
    {p : Str × Json} (hp : p ∈ l) (hk : lower p.1 = lower key.toList) : V p.2 := by
  rcases hs with ⟨q, hq, hk', hv⟩ | ⟨h, -⟩
  · rw [List.inj_on_of_nodup_map hn hp hq (hk.trans hk'.symm)]; exact hv
  · exact absurd hk (h p hp)

theorem str_flags (d : Decoded) {v : Json} {s : Str} (h : v = .str s ∨ (v = .null ∧ s = [])) (f : Str → Info) :
    (d.str v f).error = d.error ∧ (d.str v f).null = d.null := by
  rcases h with rfl | ⟨rfl, -⟩ <;> exact ⟨rfl, rfl⟩

theorem bool_flags (d : Decoded) {v : Json} {s : Bool} (h : v = .bool s ∨ (v = .null ∧ s = false)) (f : Bool → Info) :
    (d.bool v f).error = d.error ∧ (d.bool v f).null = d.null := by
  rcases h with rfl | ⟨rfl, -⟩ <;> exact ⟨rfl, rfl⟩

theorem ref_flags (d : Decoded) {v : Json} {r : Option Str} (h : IsRef v r) (f : Option Str → Info) :
    (d.ref v f).error = d.error ∧ (d.ref v f).null = d.null := by
  unfold Decoded.ref
  rw [toRef_of h]
  exact ⟨rfl, rfl⟩

theorem set_flags {l : List (Str × Json)} (hn : DistinctKeys l) {i : Info} (hi : SaysInfo l i) {p : Str × Json} (hp : p ∈ l) {κ : Key}
    (hk : lower p.1 = lower κ.tag.toList) (d : Decoded) : (d.set p.2 κ).error = d.error ∧ (d.set p.2 κ).null = d.null := by
  cases κ with
  | elemType => exact str_flags d (says_value hn hi.elemType hp hk) _
  | id => exact str_flags d (says_value hn hi.id hp hk) _
  | parent => exact ref_flags d (says_value hn hi.parent hp hk) _
  | name => exact str_flags d (says_value hn hi.name hp hk) _
  | length => exact ⟨rfl, rfl⟩
  | type => exact str_flags d (says_value hn hi.type hp hk) _
  | primaryKey => exact bool_flags d (says_value hn hi.primaryKey hp hk) _
  | unique => exact bool_flags d (says_value hn hi.unique hp hk) _
  | nullable => exact bool_flags d (says_value hn hi.nullable hp hk) _
  | documentation => exact str_flags d (says_value hn hi.documentation hp hk) _
  | referenceTo => exact ref_flags d (says_value hn hi.referenceTo hp hk) _
  | head => obtain ⟨r, hr⟩ := hi.others "head" (by simp); exact ref_flags d (says_value hn hr hp hk) _
  | end1 => obtain ⟨r, hr⟩ := hi.others "end1" (by simp); exact ref_flags d (says_value hn hr hp hk) _
  | end2 => obtain ⟨r, hr⟩ := hi.others "end2" (by simp); exact ref_flags d (says_value hn hr hp hk) _
  | reference => obtain ⟨r, hr⟩ := hi.others "reference" (by simp); exact ref_flags d (says_value hn hr hp hk) _

theorem foldl_flags : ∀ (l : List (Str × Json)) (d : Decoded),
    (∀ p ∈ l, ∀ d, (step d p).error = d.error ∧ (step d p).null = d.null) →
    (l.foldl step d).error = d.error ∧ (l.foldl step d).null = d.null
  | [], _, _ => ⟨rfl, rfl⟩
  | p :: l, d, h => by
    have h1 := foldl_flags l (step d p) fun q hq => h q (List.mem_cons_of_mem _ hq)
    have h2 := h p List.mem_cons_self d
    rw [List.foldl_cons]
    exact ⟨h1.1.trans h2.1, h1.2.trans h2.2⟩

theorem set_lists (d : Decoded) (v : Json) (κ : Key) : (d.set v κ).owned = d.owned ∧ (d.set v κ).columns = d.columns := by
  have hs : ∀ f, (d.str v f).owned = d.owned ∧ (d.str v f).columns = d.columns := by
    intro f; unfold Decoded.str; cases v <;> exact ⟨rfl, rfl⟩
  have hb : ∀ f, (d.bool v f).owned = d.owned ∧ (d.bool v f).columns = d.columns := by
    intro f; unfold Decoded.bool; cases v <;> exact ⟨rfl, rfl⟩
  have hr : ∀ f, (d.ref v f).owned = d.owned ∧ (d.ref v f).columns = d.columns := by
    intro f; unfold Decoded.ref; cases toRef v <;> exact ⟨rfl, rfl⟩
  cases κ <;> first | exact hs _ | exact hb _ | exact hr _ | exact ⟨rfl, rfl⟩

theorem owned_other (p : Str × Json) (d : Decoded) (h : lower p.1 ≠ lower "ownedElements".toList) : (step d p).owned = d.owned := by
  rcases step_cases p d with ⟨e, -⟩ | ⟨-, e⟩ | ⟨κ, -, e⟩ | e
  · exact absurd e h
  · rw [e]; rfl
  · rw [e]; exact (set_lists d p.2 κ).1
  · rw [e]

theorem columns_other (p : Str × Json) (d : Decoded) (h : lower p.1 ≠ lower "columns".toList) : (step d p).columns = d.columns := by
  rcases step_cases p d with ⟨-, e⟩ | ⟨e, -⟩ | ⟨κ, -, e⟩ | e
  · rw [e]; rfl
  · exact absurd e h
  · rw [e]; exact (set_lists d p.2 κ).2
  · rw [e]

theorem step_owned {p : Str × Json} (h : lower p.1 = lower "ownedElements".toList) (d : Decoded) :
    step d p = d.setOwned (decodeList p.2) := if_pos h

theorem step_columns {p : Str × Json} (h : lower p.1 = lower "columns".toList) (d : Decoded) :
    step d p = d.setColumns (decodeList p.2) := by
  unfold step
  rw [if_neg (by rw [h]; decide), if_pos h]

/-- The object of an element, given what its lists decode to. -/
theorem decode_obj {l : List (Str × Json)} (hn : DistinctKeys l) {i : Info} (hi : SaysInfo l i) {os cs : List Json} {o c : List Element}
    (ho : Says l "ownedElements" (fun v => v = .arr os ∨ (v = .null ∧ os = [])) (os = [])) (hod : decodeAll os = ⟨o, false, false⟩)
    (hc : Says l "columns" (fun v => v = .arr cs ∨ (v = .null ∧ cs = [])) (cs = [])) (hcd : decodeAll cs = ⟨c, false, false⟩) :
    decode (.obj l) = ⟨i, o, c, false, false⟩ := by
  have hdec : ∀ {v : Json} {xs : List Json} {x : List Element}, (v = .arr xs ∨ (v = .null ∧ xs = [])) →
      decodeAll xs = ⟨x, false, false⟩ → decodeList v = ⟨x, false, false⟩ := by
    rintro v xs x (rfl | ⟨rfl, rfl⟩) h
    · rw [decodeList]; exact h
    · rw [decodeList, ← h, decodeAll]
  have hnil : ∀ {xs : List Json} {x : List Element}, xs = [] → decodeAll xs = ⟨x, false, false⟩ → [] = x := by
    rintro xs x rfl h
    rw [decodeAll] at h
    injection h
  rw [decode, decodeMembers_eq]
  have e1 := says_info hn hi
  have e2 : (l.foldl step {}).owned = o := by
    refine foldl_component (fun d => d.owned) "ownedElements" o hn ho owned_other ?_ (fun h => hnil h hod)
    intro p d hk hv _
    rw [step_owned hk, hdec hv hod]; rfl
  have e3 : (l.foldl step {}).columns = c := by
    refine foldl_component (fun d => d.columns) "columns" c hn hc columns_other ?_ (fun h => hnil h hcd)
    intro p d hk hv _
    rw [step_columns hk, hdec hv hcd]; rfl
  have e4 := foldl_flags l {} (by
    intro p hp d
    rcases step_cases p d with ⟨hk, e⟩ | ⟨hk, e⟩ | ⟨κ, hk, e⟩ | e
    · rw [e, hdec (says_value hn ho hp hk) hod]
      exact ⟨Bool.or_false _, Bool.or_false _⟩
    · rw [e, hdec (says_value hn hc hp hk) hcd]
      exact ⟨Bool.or_false _, Bool.or_false _⟩
    · rw [e]; exact set_flags hn hi hp hk d
    · rw [e]; exact ⟨rfl, rfl⟩)
  generalize l.foldl step {} = x at *
  cases x
  simp only at e1 e2 e3 e4
  obtain ⟨e4, e5⟩ := e4
  subst e1 e2 e3 e4 e5
  rfl

mutual
/-- A value that describes an element is decoded to it. -/
theorem decode_of : ∀ (e : Element) {j : Json}, ElementDoc j e → decode j = ⟨e.info, e.owned, e.columns, false, false⟩
  | .mk i o c, j, h => by
    rw [ElementDoc] at h
    obtain ⟨l, os, cs, rfl, hn, hi, ho, hod, hc, hcd⟩ := h
    exact decode_obj hn hi ho (decodeAll_of o hod) hc (decodeAll_of c hcd)
theorem decodeAll_of : ∀ (es : List Element) {js : List Json}, ElementDocs js es → decodeAll js = ⟨es, false, false⟩
  | [], js, h => by rw [ElementDocs] at h; rw [h, decodeAll]
  | e :: es, js, h => by
    rw [ElementDocs] at h
    obtain ⟨j, r, rfl, h1, h2⟩ := h
    rw [decodeAll, decode_of e h1, decodeAll_of es h2]
    cases e; rfl
end

/-! ### Documents that cannot be decoded -/

theorem str_or (d : Decoded) (v : Json) (f g : Str → Info) :
    (d.str v f).error = (d.error || (Decoded.str {} v g).error) ∧ (d.str v f).null = (d.null || (Decoded.str {} v g).null) := by
  unfold Decoded.str
  cases v <;> simp

theorem bool_or (d : Decoded) (v : Json) (f g : Bool → Info) :
    (d.bool v f).error = (d.error || (Decoded.bool {} v g).error) ∧ (d.bool v f).null = (d.null || (Decoded.bool {} v g).null) := by
  unfold Decoded.bool
  cases v <;> simp

theorem ref_or (d : Decoded) (v : Json) (f g : Option Str → Info) :
    (d.ref v f).error = (d.error || (Decoded.ref {} v g).error) ∧ (d.ref v f).null = (d.null || (Decoded.ref {} v g).null) := by
  unfold Decoded.ref
  cases toRef v <;> simp

theorem set_or (d : Decoded) (v : Json) (κ : Key) :
    (d.set v κ).error = (d.error || (Decoded.set {} v κ).error) ∧ (d.set v κ).null = (d.null || (Decoded.set {} v κ).null) := by
  cases κ <;> first | exact str_or d v _ _ | exact bool_or d v _ _ | exact ref_or d v _ _ | exact ⟨(Bool.or_false _).symm, (Bool.or_false _).symm⟩

theorem step_or (d : Decoded) (p : Str × Json) :
    (step d p).error = (d.error || (step {} p).error) ∧ (step d p).null = (d.null || (step {} p).null) := by
  by_cases h1 : lower p.1 = lower "ownedElements".toList
  · rw [step_owned h1, step_owned h1]; simp [Decoded.setOwned]
  by_cases h2 : lower p.1 = lower "columns".toList
  · rw [step_columns h2, step_columns h2]; simp [Decoded.setColumns]
  have e : ∀ d, step d p = d.member p.1 p.2 := by
    intro d; unfold step; rw [if_neg h1, if_neg h2]
  rw [e, e]
  unfold Decoded.member
  cases keyOf p.1 with
  | none => simp
  | some κ => exact set_or d p.2 κ

theorem foldl_or (l : List (Str × Json)) (d : Decoded) :
    (l.foldl step d).error = (d.error || l.any fun p => (step {} p).error) ∧
    (l.foldl step d).null = (d.null || l.any fun p => (step {} p).null) := by
  induction l generalizing d with
  | nil => simp
  | cons p l ih =>
    rw [List.foldl_cons, (ih _).1, (ih _).2, (step_or d p).1, (step_or d p).2]
    simp [Bool.or_assoc]

theorem decodeAll_or (l : List Json) : (decodeAll l).error = (l.any fun j => (decode j).error) ∧
    (decodeAll l).null = (l.any fun j => (decode j).null) := by
  induction l with
  | nil => rw [decodeAll]; exact ⟨rfl, rfl⟩
  | cons j l ih => rw [decodeAll]; simp [Decoded.cons, ih.1, ih.2]

theorem decode_obj_error (l : List (Str × Json)) : (decode (.obj l)).error = true ↔ ∃ p ∈ l, (step {} p).error = true := by
  rw [decode, decodeMembers_eq, (foldl_or l {}).1]
  simp

theorem decode_obj_null (l : List (Str × Json)) : (decode (.obj l)).null = true ↔ ∃ p ∈ l, (step {} p).null = true := by
  rw [decode, decodeMembers_eq, (foldl_or l {}).2]
  simp

/-- The kind of a field. -/
def Key.kind : Key → Json → Prop
  | .elemType | .id | .name | .type | .documentation => IsText
  | .primaryKey | .unique | .nullable => IsBool
  | .parent | .head | .end1 | .end2 | .reference | .referenceTo => RefLike
  | .length => fun _ => True

theorem str_error (v : Json) (f : Str → Info) : (Decoded.str {} v f).error = true ↔ ¬NullOr IsText v := by
  unfold Decoded.str NullOr IsText
  cases v <;> simp

theorem bool_error (v : Json) (f : Bool → Info) : (Decoded.bool {} v f).error = true ↔ ¬NullOr IsBool v := by
  unfold Decoded.bool NullOr IsBool
  cases v <;> simp

theorem toStr_none (x : Option Json) : Json.toStr x = none ↔ ∃ v, x = some v ∧ ¬NullOr IsText v := by
  unfold NullOr IsText
  rcases x with _ | v
  · simp [Json.toStr]
  · cases v <;> simp [Json.toStr]

theorem toRef_none {v : Json} (hd : ∀ m, v = .obj m → DistinctKeys m) : toRef v = none ↔ ¬NullOr RefLike v := by
  unfold NullOr RefLike
  cases v with
  | obj m =>
    rw [toRef, Option.map_eq_none_iff, toStr_none]
    have hm := hd m rfl
    constructor
    · rintro ⟨v, hf, hv⟩ (h | ⟨m', h, hq⟩)
      · cases h
      · cases h
        obtain ⟨q, hq1, rfl⟩ := Option.map_eq_some_iff.1 hf
        have h1 : (lower q.1 == lower "$ref".toList) = true :=
          List.find?_some (p := fun p : Str × Json => lower p.1 == lower "$ref".toList) hq1
        exact hv (hq q (List.mem_reverse.1 (List.mem_of_find?_eq_some hq1)) (beq_iff_eq.1 h1))
    · intro h
      have h2 : ∃ q ∈ m, lower q.1 = lower "$ref"ₛ ∧ ¬NullOr IsText q.2 := by
        by_contra hc
        exact h (.inr ⟨m, rfl, fun q hq hk => by_contra fun hx => hc ⟨q, hq, hk, hx⟩⟩)
      obtain ⟨q, hq, hk, hx⟩ := h2
      refine ⟨q.2, ?_, hx⟩
      unfold Json.field
      cases hf : m.reverse.find? (fun p => lower p.1 == lower "$ref".toList) with
      | none => exact absurd (beq_iff_eq.2 hk) (List.find?_eq_none.1 hf q (List.mem_reverse.2 hq))
      | some q' =>
        have h1 : (lower q'.1 == lower "$ref".toList) = true :=
          List.find?_some (p := fun p : Str × Json => lower p.1 == lower "$ref".toList) hf
        rw [Option.map_some, List.inj_on_of_nodup_map hm (List.mem_reverse.1 (List.mem_of_find?_eq_some hf)) hq
          ((beq_iff_eq.1 h1).trans hk.symm)]
  | _ => simp [toRef]

theorem ref_error {v : Json} (hd : ∀ m, v = .obj m → DistinctKeys m) (f : Option Str → Info) :
    (Decoded.ref {} v f).error = true ↔ ¬NullOr RefLike v := by
  rw [← toRef_none hd]
  unfold Decoded.ref
  cases toRef v <;> simp

theorem set_error {v : Json} (hd : ∀ m, v = .obj m → DistinctKeys m) (κ : Key) :
    (Decoded.set {} v κ).error = true ↔ ¬NullOr κ.kind v := by
  cases κ <;> first
    | exact str_error v _
    | exact bool_error v _
    | exact ref_error hd _
    | exact ⟨fun h => (by cases h), fun h => absurd (.inr trivial) h⟩

theorem set_null (v : Json) (κ : Key) : (Decoded.set {} v κ).null = false := by
  have hs : ∀ f, (Decoded.str {} v f).null = false := by intro f; unfold Decoded.str; cases v <;> rfl
  have hb : ∀ f, (Decoded.bool {} v f).null = false := by intro f; unfold Decoded.bool; cases v <;> rfl
  have hr : ∀ f, (Decoded.ref {} v f).null = false := by intro f; unfold Decoded.ref; cases toRef v <;> rfl
  cases κ <;> first | exact hs _ | exact hb _ | exact hr _ | rfl

/-- The kinds of the specification, by field. -/
theorem kinds_iff (p : Str × Json) :
    (∀ k ∈ kinds, ∀ key ∈ k.2, lower p.1 = lower key.toList → NullOr k.1 p.2) ↔
    (∀ κ : Key, lower p.1 = lower κ.tag.toList → NullOr κ.kind p.2) ∧
    ((lower p.1 = lower "ownedElements"ₛ ∨ lower p.1 = lower "columns"ₛ) → NullOr IsList p.2) := by
  unfold kinds
  simp only [List.forall_mem_cons, List.not_mem_nil, false_implies, implies_true, and_true]
  constructor
  · rintro ⟨⟨t1, t2, t3, t4, t5⟩, ⟨b1, b2, b3⟩, ⟨r1, r2, r3, r4, r5, r6⟩, ⟨l1, l2⟩⟩
    refine ⟨?_, ?_⟩
    · intro κ
      cases κ with
      | elemType => exact t1
      | id => exact t2
      | name => exact t3
      | type => exact t4
      | documentation => exact t5
      | primaryKey => exact b1
      | unique => exact b2
      | nullable => exact b3
      | parent => exact r1
      | head => exact r2
      | end1 => exact r3
      | end2 => exact r4
      | reference => exact r5
      | referenceTo => exact r6
      | length => exact fun _ => .inr trivial
    · rintro (h | h)
      · exact l1 h
      · exact l2 h
  · rintro ⟨h1, h2⟩
    exact ⟨⟨h1 .elemType, h1 .id, h1 .name, h1 .type, h1 .documentation⟩, ⟨h1 .primaryKey, h1 .unique, h1 .nullable⟩,
      ⟨h1 .parent, h1 .head, h1 .end1, h1 .end2, h1 .reference, h1 .referenceTo⟩, fun h => h2 (.inl h), fun h => h2 (.inr h)⟩

theorem decodeList_error (v : Json) : (decodeList v).error = true ↔
    ¬NullOr IsList v ∨ ∃ xs, v = .arr xs ∧ ∃ x ∈ xs, (decode x).error = true := by
  unfold NullOr IsList
  cases v with
  | arr l => rw [decodeList, (decodeAll_or l).1]; simp
  | null => rw [decodeList]; simp
  | _ => rw [decodeList] <;> simp

theorem decodeList_null (v : Json) : (decodeList v).null = true ↔ ∃ xs, v = .arr xs ∧ ∃ x ∈ xs, (decode x).null = true := by
  cases v with
  | arr l => rw [decodeList, (decodeAll_or l).2]; simp
  | null => rw [decodeList]; simp
  | _ => rw [decodeList] <;> simp

theorem step_error (p : Str × Json) (hd : ∀ m, p.2 = .obj m → DistinctKeys m) : (step {} p).error = true ↔
    ¬(∀ k ∈ kinds, ∀ key ∈ k.2, lower p.1 = lower key.toList → NullOr k.1 p.2) ∨
    ((lower p.1 = lower "ownedElements"ₛ ∨ lower p.1 = lower "columns"ₛ) ∧ ∃ xs, p.2 = .arr xs ∧ ∃ x ∈ xs, (decode x).error = true) := by
  rw [kinds_iff]
  by_cases h1 : lower p.1 = lower "ownedElements"ₛ
  · have hk : ∀ κ : Key, lower p.1 ≠ lower κ.tag.toList := fun κ h => not_owned h h1
    rw [step_owned h1]
    show (false || (decodeList p.2).error) = true ↔ _
    rw [Bool.false_or, decodeList_error]
    simp only [h1, true_or, true_imp_iff, true_and]
    rw [h1] at hk
    rw [not_and]
    constructor
    · rintro (h | h)
      · exact .inl fun _ => h
      · exact .inr h
    · rintro (h | h)
      · exact .inl (h fun κ e => absurd e (hk κ))
      · exact .inr h
  by_cases h2 : lower p.1 = lower "columns"ₛ
  · have hk : ∀ κ : Key, lower p.1 ≠ lower κ.tag.toList := fun κ h => not_columns h h2
    rw [step_columns h2]
    show (false || (decodeList p.2).error) = true ↔ _
    rw [Bool.false_or, decodeList_error]
    simp only [h2, or_true, true_imp_iff, true_and]
    rw [h2] at hk
    rw [not_and]
    constructor
    · rintro (h | h)
      · exact .inl fun _ => h
      · exact .inr h
    · rintro (h | h)
      · exact .inl (h fun κ e => absurd e (hk κ))
      · exact .inr h
  have e : step {} p = Decoded.member {} p.1 p.2 := by unfold step; rw [if_neg h1, if_neg h2]
  rw [e]
  unfold Decoded.member
  have hn : ¬(lower p.1 = lower "ownedElements"ₛ ∨ lower p.1 = lower "columns"ₛ) := by rintro (h | h) <;> contradiction
  cases hk : keyOf p.1 with
  | none =>
    constructor
    · intro h; cases h
    · rintro (h | h)
      · exact absurd ⟨fun κ e => absurd e (keyOf_none hk κ), fun h => absurd h hn⟩ h
      · exact absurd h.1 hn
  | some κ =>
    show (Decoded.set {} p.2 κ).error = true ↔ _
    rw [set_error hd]
    constructor
    · exact fun h => .inl fun h' => h (h'.1 κ (keyOf_eq hk))
    · rintro (h | h)
      · intro hκ
        refine h ⟨fun κ' e => ?_, fun h => absurd h hn⟩
        rw [tag_inj κ' κ (e.symm.trans (keyOf_eq hk))]
        exact hκ
      · exact absurd h.1 hn

theorem step_null (p : Str × Json) : (step {} p).null = true ↔
    (lower p.1 = lower "ownedElements"ₛ ∨ lower p.1 = lower "columns"ₛ) ∧ ∃ xs, p.2 = .arr xs ∧ ∃ x ∈ xs, (decode x).null = true := by
  by_cases h1 : lower p.1 = lower "ownedElements"ₛ
  · rw [step_owned h1, ← decodeList_null]
    show (false || (decodeList p.2).null) = true ↔ _
    rw [Bool.false_or]
    exact ⟨fun h => ⟨.inl h1, h⟩, fun h => h.2⟩
  by_cases h2 : lower p.1 = lower "columns"ₛ
  · rw [step_columns h2, ← decodeList_null]
    show (false || (decodeList p.2).null) = true ↔ _
    rw [Bool.false_or]
    exact ⟨fun h => ⟨.inr h2, h⟩, fun h => h.2⟩
  have e : step {} p = Decoded.member {} p.1 p.2 := by unfold step; rw [if_neg h1, if_neg h2]
  rw [e]
  constructor
  · unfold Decoded.member
    cases keyOf p.1 with
    | none => intro h; cases h
    | some κ => exact fun h => absurd ((set_null p.2 κ).symm.trans h) (by decide)
  · rintro ⟨h | h, -⟩ <;> contradiction

theorem sizeOf_sub {p : Str × Json} {l : List (Str × Json)} {x : Json} {xs : List Json} (hp : p ∈ l) (hx : p.2 = .arr xs) (h : x ∈ xs) :
    sizeOf x < sizeOf (Json.obj l) := by
  have h1 := List.sizeOf_lt_of_mem hp
  have h2 := List.sizeOf_lt_of_mem h
  obtain ⟨k, v⟩ := p
  simp only at hx
  subst hx
  simp only [Prod.mk.sizeOf_spec, Json.arr.sizeOf_spec, Json.obj.sizeOf_spec] at h1 ⊢
  omega

theorem distinct_sub {l : List (Str × Json)} {p : Str × Json} {xs : List Json} {x : Json} (hd : AllDistinctKeys (.obj l)) (hp : p ∈ l)
    (hk : lower p.1 = lower "ownedElements"ₛ ∨ lower p.1 = lower "columns"ₛ) (hx : p.2 = .arr xs) (h : x ∈ xs) : AllDistinctKeys x :=
  fun m hm => hd m (.sub hp hk hx h hm)

/-- A document is in error exactly when one of its parts has not the expected members. -/
theorem decode_error (n : Nat) : ∀ j : Json, sizeOf j < n → AllDistinctKeys j →
    ((decode j).error = true ↔ ∃ x, ElementOf x j ∧ ¬WellTyped x) := by
  induction n with
  | zero => intro j h; omega
  | succ n ih =>
    intro j hj hd
    cases j with
    | obj l =>
      rw [decode_obj_error]
      constructor
      · rintro ⟨p, hp, he⟩
        rcases (step_error p ((hd l (.self _)).2 p hp)).1 he with h | ⟨hk, xs, hx, x, hxx, he⟩
        · refine ⟨_, .self _, ?_⟩
          rintro (e | ⟨l', e, hl⟩)
          · cases e
          · cases e; exact h (hl p hp)
        · obtain ⟨y, hy, hw⟩ := (ih x (by have := sizeOf_sub hp hx hxx; omega) (distinct_sub hd hp hk hx hxx)).1 he
          exact ⟨y, .sub hp hk hx hxx hy, hw⟩
      · rintro ⟨x, hx, hw⟩
        cases hx with
        | self =>
          have : ∃ p ∈ l, ¬(∀ k ∈ kinds, ∀ key ∈ k.2, lower p.1 = lower key.toList → NullOr k.1 p.2) := by
            by_contra hc
            exact hw (.inr ⟨l, rfl, fun p hp => by_contra fun hx => hc ⟨p, hp, hx⟩⟩)
          obtain ⟨p, hp, h⟩ := this
          exact ⟨p, hp, (step_error p ((hd l (.self _)).2 p hp)).2 (.inl h)⟩
        | @sub y l' p xs hp hk hx hxx hy =>
          refine ⟨p, hp, (step_error p ((hd l (.self _)).2 p hp)).2 (.inr ⟨hk, xs, hx, y, hxx, ?_⟩)⟩
          exact (ih y (by have := sizeOf_sub hp hx hxx; omega) (distinct_sub hd hp hk hx hxx)).2 ⟨x, hy, hw⟩
    | null =>
      rw [decode]
      constructor
      · intro h; cases h
      · rintro ⟨x, hx, hw⟩
        cases hx
        exact absurd (.inl rfl) hw
    | _ =>
      rw [decode]
      · refine ⟨fun _ => ⟨_, .self _, ?_⟩, fun _ => rfl⟩
        rintro (e | ⟨l, e, -⟩) <;> cases e
      all_goals (intros; contradiction)

/-- An element is null exactly when a part of the document is. -/
theorem decode_null (n : Nat) : ∀ j : Json, sizeOf j < n → ((decode j).null = true ↔ ElementOf .null j) := by
  induction n with
  | zero => intro j h; omega
  | succ n ih =>
    intro j hj
    cases j with
    | obj l =>
      rw [decode_obj_null]
      constructor
      · rintro ⟨p, hp, he⟩
        obtain ⟨hk, xs, hx, x, hxx, he⟩ := (step_null p).1 he
        exact .sub hp hk hx hxx ((ih x (by have := sizeOf_sub hp hx hxx; omega)).1 he)
      · intro h
        cases h with
        | @sub y l' p xs hp hk hx hxx hy =>
          exact ⟨p, hp, (step_null p).2 ⟨hk, xs, hx, y, hxx, (ih y (by have := sizeOf_sub hp hx hxx; omega)).2 hy⟩⟩
    | null => rw [decode]; exact ⟨fun _ => .self _, fun _ => rfl⟩
    | _ =>
      rw [decode]
      · constructor
        · intro h; cases h
        · intro h; cases h
      all_goals (intros; contradiction)

/-- With a value of the expected kind a member says something. -/
theorem says_of {l : List (Str × Json)} {key : String} {kind : Json → Prop} {α : Type} {V : α → Json → Prop} {ab : α → Prop} {a₀ : α}
    (h : ∀ p ∈ l, lower p.1 = lower key.toList → NullOr kind p.2) (hk : ∀ v, NullOr kind v → ∃ a, V a v) (h0 : ab a₀) :
    ∃ a, Says l key (V a) (ab a) := by
  by_cases hp : ∃ p ∈ l, lower p.1 = lower key.toList
  · obtain ⟨p, hp, e⟩ := hp
    obtain ⟨a, ha⟩ := hk p.2 (h p hp e)
    exact ⟨a, .inl ⟨p, hp, e, ha⟩⟩
  · exact ⟨a₀, .inr ⟨fun p hq e => hp ⟨p, hq, e⟩, h0⟩⟩

theorem text_says {v : Json} (h : NullOr IsText v) : ∃ s : Str, v = .str s ∨ (v = .null ∧ s = []) := by
  rcases h with rfl | ⟨s, rfl⟩
  · exact ⟨[], .inr ⟨rfl, rfl⟩⟩
  · exact ⟨s, .inl rfl⟩

theorem bool_says {v : Json} (h : NullOr IsBool v) : ∃ s : Bool, v = .bool s ∨ (v = .null ∧ s = false) := by
  rcases h with rfl | ⟨s, rfl⟩
  · exact ⟨false, .inr ⟨rfl, rfl⟩⟩
  · exact ⟨s, .inl rfl⟩

theorem list_says {v : Json} (h : NullOr IsList v) : ∃ s : List Json, v = .arr s ∨ (v = .null ∧ s = []) := by
  rcases h with rfl | ⟨s, rfl⟩
  · exact ⟨[], .inr ⟨rfl, rfl⟩⟩
  · exact ⟨s, .inl rfl⟩

theorem length_says (v : Json) : ∃ x, IsLength v x := by
  cases v <;> exact ⟨_, rfl⟩

theorem ref_says {v : Json} (hd : ∀ m, v = .obj m → DistinctKeys m) (h : NullOr RefLike v) : ∃ r, IsRef v r := by
  rcases h with rfl | ⟨m, rfl, hq⟩
  · exact ⟨none, .inl ⟨rfl, rfl⟩⟩
  · obtain ⟨s, hs⟩ := says_of (l := m) (key := "$ref") (V := fun (s : Str) v => v = .str s ∨ (v = .null ∧ s = [])) (ab := fun s => s = [])
      hq (fun v hv => text_says hv) rfl
    exact ⟨some s, .inr ⟨m, s, rfl, hd m rfl, hs, rfl⟩⟩

/-- A document without errors describes an element. -/
theorem describes_of (n : Nat) : ∀ j : Json, sizeOf j < n → AllDistinctKeys j → (∀ x, ElementOf x j → WellTyped x ∧ x ≠ .null) →
    ∃ e, ElementDoc j e := by
  induction n with
  | zero => intro j h; omega
  | succ n ih =>
    intro j hj hd hw
    obtain ⟨h1, h2⟩ := hw j (.self j)
    rcases h1 with rfl | ⟨l, rfl, hk⟩
    · exact absurd rfl h2
    have hk' := fun p hp => (kinds_iff p).1 (hk p hp)
    obtain ⟨hdl, hdm⟩ := hd l (.self _)
    have hstr : ∀ κ : Key, κ.kind = IsText → ∃ s, SaysStr l κ.tag s := by
      intro κ e
      refine says_of (V := fun (s : Str) v => v = .str s ∨ (v = .null ∧ s = [])) (ab := fun s => s = []) (kind := κ.kind)
        (fun p hp => (hk' p hp).1 κ) (fun v hv => text_says (e ▸ hv)) rfl
    have hbool : ∀ κ : Key, κ.kind = IsBool → ∃ s, SaysBool l κ.tag s := by
      intro κ e
      refine says_of (V := fun (s : Bool) v => v = .bool s ∨ (v = .null ∧ s = false)) (ab := fun s => s = false) (kind := κ.kind)
        (fun p hp => (hk' p hp).1 κ) (fun v hv => bool_says (e ▸ hv)) rfl
    have href : ∀ κ : Key, κ.kind = RefLike → ∃ s, SaysRef l κ.tag s := by
      intro κ e
      by_cases hp : ∃ p ∈ l, lower p.1 = lower κ.tag.toList
      · obtain ⟨p, hp, hk⟩ := hp
        obtain ⟨r, hr⟩ := ref_says (hdm p hp) (e ▸ (hk' p hp).1 κ hk)
        exact ⟨r, .inl ⟨p, hp, hk, hr⟩⟩
      · exact ⟨none, .inr ⟨fun p hq e => hp ⟨p, hq, e⟩, rfl⟩⟩
    have hlist : ∀ key : String, (key = "ownedElements" ∨ key = "columns") → ∃ os, Says l key (fun v => v = .arr os ∨ (v = .null ∧ os = [])) (os = []) ∧
        ∃ es, ElementDocs os es := by
      intro key hkey
      obtain ⟨os, hos⟩ := says_of (l := l) (key := key) (V := fun (s : List Json) v => v = .arr s ∨ (v = .null ∧ s = [])) (ab := fun s => s = [])
        (kind := IsList) (fun p hp e => (hk' p hp).2 (by rcases hkey with rfl | rfl; exacts [.inl e, .inr e])) (fun v hv => list_says hv) rfl
      refine ⟨os, hos, ?_⟩
      have hall : ∀ x ∈ os, ∃ e, ElementDoc x e := by
        intro x hx
        rcases hos with ⟨p, hp, hkp, e | ⟨-, rfl⟩⟩ | ⟨-, rfl⟩
        · have hkk : lower p.1 = lower "ownedElements"ₛ ∨ lower p.1 = lower "columns"ₛ := by
            rcases hkey with rfl | rfl; exacts [.inl hkp, .inr hkp]
          exact ih x (by have := sizeOf_sub hp e hx; omega) (distinct_sub hd hp hkk e hx) fun y hy => hw y (.sub hp hkk e hx hy)
        · cases hx
        · cases hx
      clear hos
      induction os with
      | nil => exact ⟨[], by rw [ElementDocs]⟩
      | cons x os iho =>
        obtain ⟨e, he⟩ := hall x List.mem_cons_self
        obtain ⟨es, hes⟩ := iho fun y hy => hall y (List.mem_cons_of_mem _ hy)
        exact ⟨e :: es, by rw [ElementDocs]; exact ⟨x, os, rfl, he, hes⟩⟩
    obtain ⟨elemType, s1⟩ := hstr .elemType rfl
    obtain ⟨id, s2⟩ := hstr .id rfl
    obtain ⟨parent, s3⟩ := href .parent rfl
    obtain ⟨name, s4⟩ := hstr .name rfl
    obtain ⟨length, s5⟩ := says_of (l := l) (key := "length") (V := fun x v => IsLength v x) (ab := fun x => x = .none) (kind := fun _ => True)
      (fun p _ _ => .inr trivial) (fun v _ => length_says v) rfl
    obtain ⟨type, s6⟩ := hstr .type rfl
    obtain ⟨pk, s7⟩ := hbool .primaryKey rfl
    obtain ⟨uq, s8⟩ := hbool .unique rfl
    obtain ⟨nl, s9⟩ := hbool .nullable rfl
    obtain ⟨doc, s10⟩ := hstr .documentation rfl
    obtain ⟨rt, s11⟩ := href .referenceTo rfl
    obtain ⟨os, ho, o, hod⟩ := hlist "ownedElements" (.inl rfl)
    obtain ⟨cs, hc, c, hcd⟩ := hlist "columns" (.inr rfl)
    refine ⟨.mk ⟨elemType, id, parent, name, length, type, pk, uq, nl, doc, rt⟩ o c, ?_⟩
    rw [ElementDoc]
    refine ⟨l, os, cs, rfl, hdl, ⟨s1, s2, s3, s4, s5, s6, s7, s8, s9, s10, s11, ?_⟩, ho, hod, hc, hcd⟩
    simp only [List.forall_mem_cons, List.not_mem_nil, false_implies, implies_true, and_true]
    exact ⟨href .head rfl, href .end1 rfl, href .end2 rfl, href .reference rfl⟩

end Octo.Staruml
