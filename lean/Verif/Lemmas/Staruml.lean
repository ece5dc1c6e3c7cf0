import Verif.Spec.Staruml
import Verif.Lemmas.Ojson
import Verif.Lemmas.Str

/-! Lemmas about the import of StarUML documents. -/

namespace Octo.Staruml
open Spec

/-- The walk visits exactly the parts of the document. -/
theorem mem_walk_of_partOf {e r : Element} (h : PartOf e r) : e ∈ walk r := by
  have key : ∀ (l : List Element) (x e : Element), x ∈ l → e ∈ walk x → e ∈ walkAll l := by
    intro l
    induction l with
    | nil => intro x e h; cases h
    | cons a l ih =>
      intro x e h he
      rw [walkAll, List.mem_append]
      rcases List.mem_cons.1 h with rfl | h
      · exact Or.inl he
      · exact Or.inr (ih x e h he)
  induction h with
  | self => cases e; rw [walk]; exact List.mem_cons_self
  | owned hx _ ih =>
    rename_i r _
    cases r
    rw [walk]; exact List.mem_cons_of_mem _ (List.mem_append_left _ (key _ _ _ hx ih))
  | column hx _ ih =>
    rename_i r _
    cases r
    rw [walk]; exact List.mem_cons_of_mem _ (List.mem_append_right _ (key _ _ _ hx ih))

mutual
theorem partOf_of_mem_walk : ∀ {r e : Element}, e ∈ walk r → PartOf e r
  | .mk i o c, e, h => by
    rw [walk] at h
    rcases List.mem_cons.1 h with rfl | h
    · exact .self _
    · rcases List.mem_append.1 h with h | h
      · obtain ⟨x, hx, hp⟩ := partOf_of_mem_walkAll h
        exact .owned hx hp
      · obtain ⟨x, hx, hp⟩ := partOf_of_mem_walkAll h
        exact .column hx hp
theorem partOf_of_mem_walkAll : ∀ {l : List Element} {e : Element}, e ∈ walkAll l → ∃ x ∈ l, PartOf e x
  | [], e, h => by rw [walkAll] at h; cases h
  | a :: l, e, h => by
    rw [walkAll] at h
    rcases List.mem_append.1 h with h | h
    · exact ⟨a, List.mem_cons_self, partOf_of_mem_walk h⟩
    · obtain ⟨x, hx, hp⟩ := partOf_of_mem_walkAll h
      exact ⟨x, List.mem_cons_of_mem _ hx, hp⟩
end

theorem findById_some {root : Element} {id : Str} {e : Element} (h : findById root id = some e) :
    PartOf e root ∧ e.info.id = id := by
  unfold findById byId at h
  rw [mapGet_mapOf] at h
  obtain ⟨p, hp, rfl⟩ := Option.map_eq_some_iff.1 h
  have h1 := List.mem_of_find?_eq_some hp
  have h2 := List.find?_some hp
  obtain ⟨x, hx, rfl⟩ := List.mem_map.1 (List.mem_reverse.1 h1)
  exact ⟨partOf_of_mem_walk hx, of_decide_eq_true h2⟩

theorem findById_none {root : Element} {id : Str} (h : findById root id = none) :
    ∀ e, PartOf e root → e.info.id ≠ id := by
  intro e he hid
  unfold findById byId at h
  rw [mapGet_mapOf, Option.map_eq_none_iff, List.find?_eq_none] at h
  exact h (e.info.id, e) (List.mem_reverse.2 (List.mem_map.2 ⟨e, mem_walk_of_partOf he, rfl⟩)) (by simpa using hid)

/-- The element that a reference finds, when its id is not used twice. -/
theorem findById_unique {root : Element} (hd : DistinctIds root) {e : Element} (he : PartOf e root) :
    findById root e.info.id = some e := by
  cases h : findById root e.info.id with
  | none => exact absurd rfl (findById_none h e he)
  | some x => rw [hd x e (findById_some h).1 he (findById_some h).2]

theorem refOf_none {root c : Element} : refOf root c = none → ∃ r, c.info.referenceTo = some r ∧
    (DistinctIds root → ¬∃ target table, Leads root r target table) := by
  intro h
  unfold refOf at h
  cases hr : c.info.referenceTo with
  | none => rw [hr] at h; cases h
  | some r =>
    rw [hr] at h
    refine ⟨r, rfl, fun hd ⟨target, table, h1, h2, h3, h4⟩ => ?_⟩
    dsimp only at h
    rw [← h2, findById_unique hd h1] at h
    dsimp only at h
    rw [h4] at h
    dsimp only at h
    rw [findById_unique hd h3] at h
    cases h

theorem refOf_some {root c : Element} {o : Option Reference} (h : refOf root c = some o) :
    (c.info.referenceTo = none → o = none) ∧
    ∀ r, c.info.referenceTo = some r → ∃ target table, Leads root r target table ∧
      o = some ⟨table.info.name, target.info.name, []⟩ := by
  unfold refOf at h
  cases hr : c.info.referenceTo with
  | none => rw [hr] at h; cases h; exact ⟨fun _ => rfl, fun _ h => by cases h⟩
  | some r =>
    rw [hr] at h
    refine ⟨fun h => (by cases h), fun r' e => ?_⟩
    cases e
    dsimp only at h
    split at h
    · cases h
    · rename_i target htarget
      split at h
      · cases h
      · rename_i p hp
        split at h
        · cases h
        · rename_i table htable
          cases h
          exact ⟨target, table, ⟨(findById_some htarget).1, (findById_some htarget).2, (findById_some htable).1,
            by rw [hp, (findById_some htable).2]⟩, rfl⟩

theorem not_sign_of_digit {s : Str} (h : s.all isDigit = true) :
    (∀ r, s ≠ '-' :: r) ∧ (∀ r, s ≠ '+' :: r) := by
  constructor <;> (rintro r rfl; exact absurd h (by simp [List.all_cons, isDigit]))

theorem atoi_digits {s : Str} (h1 : s ≠ []) (h2 : s.all isDigit = true) (h3 : digitsVal s < 65536) :
    atoi s = some (digitsVal s : Int) := by
  have hlt : digitsVal s < 2 ^ 63 := lt_trans h3 (by norm_num)
  have hs := not_sign_of_digit h2
  unfold atoi
  split
  rename_i neg digits heq
  split at heq
  · rename_i r; exact absurd rfl (hs.1 r)
  · rename_i r; exact absurd rfl (hs.2 r)
  · cases heq
    rw [if_neg (by rintro (h | h); exacts [h1 h, h h2])]
    simp only [Bool.false_eq_true, if_false]
    rw [if_pos hlt]

theorem toUInt16_ofNat {n : Nat} (h : n < 65536) : toUInt16 (n : Int) = UInt16.ofNat n := by
  unfold toUInt16
  congr 1
  omega

theorem ofNat_ne_zero {n : Nat} (h : n < 65536) (h0 : n ≠ 0) : UInt16.ofNat n ≠ 0 := by
  intro e
  have := congrArg UInt16.toNat e
  rw [UInt16.toNat_ofNat'] at this
  simp at this
  omega

theorem columnOf_some {root c : Element} {d : Column} (h : columnOf root c = some d) :
    DescribesColumn c d ∧ SizeFromText c d ∧ RefFollows root c d := by
  unfold columnOf at h
  dsimp only at h
  split at h
  · cases h
  · rename_i ref href
    cases h
    refine ⟨⟨rfl, ⟨rfl, rfl, rfl⟩, rfl, rfl, ⟨rfl, rfl, rfl, rfl⟩⟩, ⟨?_, ?_⟩, refOf_some href⟩
    · intro s n hl hn h0
      unfold statedLength at hn
      dsimp only at hn
      split at hn
      · rename_i hs
        cases hn
        show (if toUInt16 (toInt c.info.length 0) = 0 then _ else _) = _
        have e : toInt c.info.length 0 = (digitsVal s : Int) := by
          rw [hl, toInt, atoi_digits hs.1 hs.2.1 hs.2.2, Option.getD_some]
        rw [e, toUInt16_ofNat hs.2.2, if_neg (ofNat_ne_zero hs.2.2 h0)]
      · cases hn
    · intro hl
      show (if toUInt16 (toInt c.info.length 0) = 0 then _ else _) = _
      rw [if_pos]
      rcases hl with hl | hl | hl <;> (rw [hl]; decide +kernel)

theorem columnOf_none {root c : Element} (h : columnOf root c = none) : ∃ r, c.info.referenceTo = some r ∧
    (DistinctIds root → ¬∃ target table, Leads root r target table) := by
  unfold columnOf at h
  dsimp only at h
  split at h
  · rename_i href; exact refOf_none href
  · cases h

theorem columnOf_isSome {root c : Element} {d : Column} (h : columnOf root c = some d) {r : Str}
    (hr : c.info.referenceTo = some r) : ∃ target table, Leads root r target table := by
  obtain ⟨target, table, h1, _⟩ := (columnOf_some h).2.2.2 r hr
  exact ⟨target, table, h1⟩

theorem tableOf_some {root e : Element} {t : Table} (h : tableOf root e = some t) : DescribesEntity root e t := by
  unfold tableOf at h
  split at h
  · cases h
  · rename_i cs hcs
    cases h
    exact ⟨rfl, (Ojson.mapM_forall₂ hcs).imp fun _ _ h => columnOf_some h⟩

theorem firstModel_unique {root m m' : Element} (h : FirstModel root m) (h' : FirstModel root m') : m = m' := by
  obtain ⟨pre, post, h1, h2, h3⟩ := h
  obtain ⟨pre', post', h1', h2', h3'⟩ := h'
  have hf : ∀ {p q : List Element} {x : Element}, x.info.elemType = "ERDDataModel"ₛ →
      (∀ y ∈ p, y.info.elemType ≠ "ERDDataModel"ₛ) →
      (p ++ x :: q).find? (fun e => e.info.elemType = "ERDDataModel"ₛ) = some x := by
    intro p q x hx hp
    rw [List.find?_append, List.find?_eq_none.2 (fun y hy h => hp y hy (of_decide_eq_true h)), Option.none_or,
      List.find?_cons, decide_eq_true hx]
  have e1 := hf (q := post) h2 h3
  have e2 := hf (q := post') h2' h3'
  rw [← h1] at e1
  rw [← h1', e1] at e2
  cases e2; rfl

theorem firstModel_of_findByType {root m : Element} {ms : List Element}
    (h : findByType root.owned "ERDDataModel"ₛ = m :: ms) : FirstModel root m := by
  unfold findByType at h
  rw [List.filter_eq_cons_iff] at h
  obtain ⟨pre, post, h1, h2, h3, _⟩ := h
  exact ⟨pre, post, h1, of_decide_eq_true h3, fun x hx he => h2 x hx (decide_eq_true he)⟩

theorem no_model {root : Element} (h : findByType root.owned "ERDDataModel"ₛ = []) :
    ¬∃ m, FirstModel root m := by
  rintro ⟨m, pre, post, h1, h2, _⟩
  unfold findByType at h
  rw [List.filter_eq_nil_iff] at h
  exact h m (by rw [h1]; simp) (decide_eq_true h2)

end Octo.Staruml
