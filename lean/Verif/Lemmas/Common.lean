import Verif.Model.Common
import Verif.Spec.Common
import Verif.Lemmas.Str

/-! Helper lemmas for package `format/common`. -/

namespace Octo
open Spec

theorem containsSub_singleton (s : Str) (c : Char) : containsSub s [c] = true ↔ c ∈ s := by
  rw [containsSub_iff]
  constructor
  · rintro ⟨a, b, rfl⟩; simp
  · intro h
    obtain ⟨a, b, rfl⟩ := List.append_of_mem h
    exact ⟨a, b, by simp⟩

theorem optionToken_eq {k v : Str} (hk : ':' ∉ k) : optionToken (k ++ [':'] ++ v) = some (k, v) := by
  have : k ++ [':'] ++ v = k ++ ':' :: v := by simp
  rw [optionToken, this, splitN2_append_sep hk]

theorem optionToken_none (t : Str) : optionToken t = none ↔ ':' ∉ t := by
  rw [← splitN2_snd_none]
  unfold optionToken
  split <;> simp_all

theorem optionTokens_none (ts : List Str) : optionTokens ts = none ↔ ∃ t ∈ ts, ':' ∉ t := by
  induction ts with
  | nil => simp [optionTokens]
  | cons t ts ih =>
    simp only [optionTokens]
    cases h : optionToken t with
    | none => simp only [true_iff]; exact ⟨t, by simp, (optionToken_none t).1 h⟩
    | some kv =>
      have : ¬(':' ∉ t) := fun e => by rw [(optionToken_none t).2 e] at h; cases h
      simp only [Option.map_eq_none_iff, ih, List.mem_cons, exists_eq_or_imp, this, false_or]

theorem optionTokens_eq (kvs : List (Str × Str)) (h : ∀ kv ∈ kvs, ':' ∉ kv.1) :
    optionTokens (kvs.map fun kv => kv.1 ++ [':'] ++ kv.2) = some kvs := by
  induction kvs with
  | nil => rfl
  | cons kv kvs ih =>
    rw [List.map_cons, optionTokens, optionToken_eq (h kv (by simp))]
    rw [ih (fun x hx => h x (by simp [hx]))]
    rfl

theorem split_optionText (kvs : List (Str × Str)) (hne : kvs ≠ [])
    (h : ∀ kv ∈ kvs, ',' ∉ kv.1 ∧ ',' ∉ kv.2) :
    split ',' (optionText kvs) = kvs.map fun kv => kv.1 ++ [':'] ++ kv.2 := by
  apply split_join (by simpa using hne)
  intro p hp
  obtain ⟨kv, hkv, rfl⟩ := List.mem_map.1 hp
  have := h kv hkv
  simp [this.1, this.2]

theorem colon_mem_optionText (kvs : List (Str × Str)) (hne : kvs ≠ []) : ':' ∈ optionText kvs := by
  cases kvs with
  | nil => exact absurd rfl hne
  | cons kv kvs =>
    cases kvs with
    | nil => simp [optionText, join]
    | cons kv' kvs => simp [optionText, join]

theorem lastValue_eq {ν : Type} (kvs : List (Str × ν)) (g : Str) :
    lastValue kvs g = (kvs.reverse.find? (fun p => p.1 = g)).map Prod.snd := by
  have aux : ∀ acc : Option ν, kvs.foldl (fun acc kv => if kv.1 = g then some kv.2 else acc) acc
      = ((kvs.reverse.find? (fun p => p.1 = g)).map Prod.snd).or acc := by
    induction kvs with
    | nil => simp
    | cons p l ih =>
      intro acc
      rw [List.foldl_cons, ih, List.reverse_cons, List.find?_append]
      cases h : l.reverse.find? (fun q => q.1 = g) with
      | some q => simp
      | none => by_cases hk : p.1 = g <;> simp [hk]
  rw [lastValue, aux]; simp

theorem fileExt_dot (pre ext : Str) (he : '/' ∉ ext ∧ '.' ∉ ext) :
    fileExt (pre ++ '.' :: ext) = '.' :: ext := by
  have h : ∀ c ∈ ext.reverse, (c ≠ '/' && c ≠ '.') = true := by
    intro c hc
    rw [List.mem_reverse] at hc
    have h1 : c ≠ '/' := fun e => he.1 (e ▸ hc)
    have h2 : c ≠ '.' := fun e => he.2 (e ▸ hc)
    simp [h1, h2]
  have e0 : (pre ++ '.' :: ext).reverse = ext.reverse ++ '.' :: pre.reverse := by simp
  have e1 : (ext.reverse ++ '.' :: pre.reverse).dropWhile (fun c => c ≠ '/' && c ≠ '.') = '.' :: pre.reverse := by
    rw [List.dropWhile_append_of_pos h]; simp
  have e2 : (ext.reverse ++ '.' :: pre.reverse).takeWhile (fun c => c ≠ '/' && c ≠ '.') = ext.reverse := by
    rw [List.takeWhile_append_of_pos h]; simp
  unfold fileExt
  simp only [e0, e1, e2, List.reverse_reverse]

theorem fileExt_none (dir base : Str) (hb : '/' ∉ base ∧ '.' ∉ base) (hd : dir = [] ∨ ∃ d, dir = d ++ ['/']) :
    fileExt (dir ++ base) = [] := by
  have h : ∀ c ∈ base.reverse, (c ≠ '/' && c ≠ '.') = true := by
    intro c hc
    rw [List.mem_reverse] at hc
    have h1 : c ≠ '/' := fun e => hb.1 (e ▸ hc)
    have h2 : c ≠ '.' := fun e => hb.2 (e ▸ hc)
    simp [h1, h2]
  unfold fileExt
  rw [List.reverse_append]
  simp only
  rw [List.dropWhile_append_of_pos h]
  rcases hd with rfl | ⟨d, rfl⟩
  · simp
  · simp

end Octo
