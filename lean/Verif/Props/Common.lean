import Verif.Lemmas.Common
import Verif.Lemmas.Octopus

/-! Property theorems C15-C16: option mappers and file formats. -/

namespace Octo
open Spec

/-! ## C15 – prefix and annotation options -/

/-- C15: an option without ':' gives every group the same prefix, and the same single annotation. -/
theorem C15_uniform (o g : Str) (h : ':' ∉ o) :
    (newPrefixMapper o).map (·.getPrefix g) = some o ∧
    (newAnnotationMapper o).map (·.getAnnotations g) = some [o] := by
  have : ¬containsSub o ":"ₛ = true := by
    rw [show (":"ₛ : Str) = [':'] from rfl, containsSub_singleton]; exact h
  simp only [newPrefixMapper, newAnnotationMapper, if_neg this, PrefixMapper.getPrefix,
    AnnotationMapper.getAnnotations, Option.map_some, Bool.false_eq_true, if_false, and_self]

example : (newPrefixMapper "QX"ₛ).map (·.getPrefix "any"ₛ) = some "QX"ₛ :=
  (C15_uniform _ _ (by decide)).1

/-- C15: an option `g1:v1,g2:v2,...` gives each group its (last) value and other groups nothing. -/
theorem C15_mapped (kvs : List (Str × Str)) (g : Str) (hne : kvs ≠ [])
    (h : ∀ kv ∈ kvs, ':' ∉ kv.1 ∧ ',' ∉ kv.1 ∧ ',' ∉ kv.2) :
    (newPrefixMapper (optionText kvs)).map (·.getPrefix g) = some ((lastValue kvs g).getD []) := by
  have h1 : containsSub (optionText kvs) ":"ₛ = true := by
    rw [show (":"ₛ : Str) = [':'] from rfl, containsSub_singleton]; exact colon_mem_optionText kvs hne
  have h2 := split_optionText kvs hne (fun kv hk => ⟨(h kv hk).2.1, (h kv hk).2.2⟩)
  have h3 := optionTokens_eq kvs (fun kv hk => (h kv hk).1)
  have h4 : (mapOf kvs).length > 0 := List.length_pos_of_ne_nil (mapOf_ne_nil hne)
  simp only [newPrefixMapper, if_pos h1, h2, h3, PrefixMapper.getPrefix, h4, mapGet_mapOf, lastValue_eq,
    Option.map_some, decide_true, if_true]

example : (newPrefixMapper "a:X,b:Y,a:Z"ₛ).map (·.getPrefix "a"ₛ) = some "Z"ₛ :=
  C15_mapped [("a"ₛ, "X"ₛ), ("b"ₛ, "Y"ₛ), ("a"ₛ, "Z"ₛ)] "a"ₛ (by simp) (by decide)

/-- C15: the same for annotations; the annotations of a group are separated by ';'. -/
theorem C15_mapped_annotations (kvs : List (Str × List Str)) (g : Str) (hne : kvs ≠ [])
    (h : ∀ kv ∈ kvs, ':' ∉ kv.1 ∧ ',' ∉ kv.1 ∧ kv.2 ≠ [] ∧ ∀ a ∈ kv.2, ',' ∉ a ∧ ';' ∉ a) :
    (newAnnotationMapper (optionText (kvs.map fun kv => (kv.1, join [';'] kv.2)))).map
        (·.getAnnotations g) = some ((lastValue kvs g).getD []) := by
  set kvs' := kvs.map fun kv => (kv.1, join [';'] kv.2) with hk'
  have hne' : kvs' ≠ [] := by simpa [hk'] using hne
  have hcomma : ∀ l : List Str, (∀ a ∈ l, ',' ∉ a) → ',' ∉ join [';'] l := by
    intro l
    induction l with
    | nil => simp [join]
    | cons a l ih =>
      intro hl
      cases l with
      | nil => simpa [join] using hl a (by simp)
      | cons b l =>
        rw [join_cons_cons]
        have h1 := ih (fun x hx => hl x (by simp [hx]))
        have h2 := hl a (by simp)
        simp [h1, h2]
  have h' : ∀ kv ∈ kvs', ':' ∉ kv.1 ∧ ',' ∉ kv.1 ∧ ',' ∉ kv.2 := by
    intro kv hkv
    obtain ⟨x, hx, rfl⟩ := List.mem_map.1 hkv
    have := h x hx
    exact ⟨this.1, this.2.1, hcomma _ (fun a ha => (this.2.2.2 a ha).1)⟩
  have h1 : containsSub (optionText kvs') ":"ₛ = true := by
    rw [show (":"ₛ : Str) = [':'] from rfl, containsSub_singleton]; exact colon_mem_optionText kvs' hne'
  have h2 := split_optionText kvs' hne' (fun kv hk => ⟨(h' kv hk).2.1, (h' kv hk).2.2⟩)
  have h3 := optionTokens_eq kvs' (fun kv hk => (h' kv hk).1)
  have h5 : kvs'.map (fun kv => (kv.1, split ';' kv.2)) = kvs := by
    rw [hk', List.map_map]
    conv_rhs => rw [← List.map_id kvs]
    apply List.map_congr_left
    intro kv hkv
    have := h kv hkv
    simp only [Function.comp_apply, id_eq]
    rw [split_join this.2.2.1 (fun a ha => (this.2.2.2 a ha).2)]
  have h4 : (mapOf kvs).length > 0 := List.length_pos_of_ne_nil (mapOf_ne_nil hne)
  simp only [newAnnotationMapper, if_pos h1, h2, h3, h5, AnnotationMapper.getAnnotations, h4,
    mapGet_mapOf, lastValue_eq, Option.map_some, decide_true, if_true]

example : (newAnnotationMapper "a:@X;@Y,b:@Z"ₛ).map (·.getAnnotations "a"ₛ) = some ["@X"ₛ, "@Y"ₛ] :=
  C15_mapped_annotations [("a"ₛ, ["@X"ₛ, "@Y"ₛ]), ("b"ₛ, ["@Z"ₛ])] "a"ₛ (by simp) (by decide)

/-- C15, exact condition of the crash: both mappers panic exactly when the option contains a ':' and
some comma-separated entry has none. -/
theorem C15_panic_iff (o : Str) :
    ((newPrefixMapper o).isNone = true ↔ ':' ∈ o ∧ ∃ t ∈ split ',' o, ':' ∉ t) ∧
    ((newAnnotationMapper o).isNone = true ↔ ':' ∈ o ∧ ∃ t ∈ split ',' o, ':' ∉ t) := by
  have e : containsSub o ":"ₛ = true ↔ ':' ∈ o := containsSub_singleton o ':'
  constructor
  · unfold newPrefixMapper
    split
    · rename_i h
      simp only [Option.isNone_map, Option.isNone_iff_eq_none, optionTokens_none, e.1 h, true_and]
    · rename_i h
      simp only [Option.isNone_some, Bool.false_eq_true, false_iff, not_and]
      exact fun h' => absurd (e.2 h') h
  · unfold newAnnotationMapper
    split
    · rename_i h
      simp only [Option.isNone_map, Option.isNone_iff_eq_none, optionTokens_none, e.1 h, true_and]
    · rename_i h
      simp only [Option.isNone_some, Bool.false_eq_true, false_iff, not_and]
      exact fun h' => absurd (e.2 h') h

/-- C15 as stated: no option crashes. -/
def C15_claim : Prop := ∀ o, (newPrefixMapper o).isSome = true ∧ (newAnnotationMapper o).isSome = true

/-- C15 fails for the code: `a:b,c` panics in both mappers. -/
theorem C15_violated : ¬C15_claim := by
  intro h
  have h1 := (C15_panic_iff "a:b,c"ₛ).1.2 ⟨by decide, "c"ₛ, by decide, by decide⟩
  have h2 := (h "a:b,c"ₛ).1
  rw [Option.isNone_iff_eq_none] at h1
  rw [h1] at h2; cases h2

/-- C15 (partial): options in which every entry has a ':' (or none at all) do not crash.  Missing:
malformed entries, which panic instead of being reported. -/
theorem C15_no_panic_partial (o : Str) (h : ':' ∉ o ∨ ∀ t ∈ split ',' o, ':' ∈ t) :
    (newPrefixMapper o).isSome = true ∧ (newAnnotationMapper o).isSome = true := by
  have hn : ¬(':' ∈ o ∧ ∃ t ∈ split ',' o, ':' ∉ t) := by
    rintro ⟨h1, t, h2, h3⟩
    rcases h with h | h
    · exact h h1
    · exact h3 (h t h2)
  constructor
  · have := mt (C15_panic_iff o).1.1 hn
    cases hh : newPrefixMapper o <;> simp_all
  · have := mt (C15_panic_iff o).2.1 hn
    cases hh : newAnnotationMapper o <;> simp_all

example : ∀ t ∈ split ',' "a:b,c:"ₛ, ':' ∈ t := by decide

/-! ## C16 – file formats -/

/-- C16: the format is that of the text after the last dot of the last path element, in any case. -/
theorem C16_by_extension (pre ext : Str) (he : '/' ∉ ext ∧ '.' ∉ ext) :
    getFileFormat (pre ++ '.' :: ext) = formatOfExt ext := by
  unfold getFileFormat formatOfExt fileFormats
  rw [fileExt_dot pre ext he]
  have hl : lower ('.' :: ext) = '.' :: lower ext := rfl
  simp only [hl]
  have key : ∀ x : Str, ('.' :: lower ext = '.' :: x) ↔ lower ext = x := by intro x; simp
  have k1 := key "graphql"ₛ
  have k2 := key "graphqls"ₛ
  have k3 := key "json"ₛ
  have k4 := key "mdj"ₛ
  have k5 := key "ojson"ₛ
  have k6 := key "plantuml"ₛ
  have k7 := key "schema"ₛ
  have k8 := key "xlsx"ₛ
  have s1 : ".graphql"ₛ = '.' :: "graphql"ₛ := rfl
  have s2 : ".graphqls"ₛ = '.' :: "graphqls"ₛ := rfl
  have s3 : ".json"ₛ = '.' :: "json"ₛ := rfl
  have s4 : ".mdj"ₛ = '.' :: "mdj"ₛ := rfl
  have s5 : ".ojson"ₛ = '.' :: "ojson"ₛ := rfl
  have s6 : ".plantuml"ₛ = '.' :: "plantuml"ₛ := rfl
  have s7 : ".schema"ₛ = '.' :: "schema"ₛ := rfl
  have s8 : ".xlsx"ₛ = '.' :: "xlsx"ₛ := rfl
  rw [s1, s2, s3, s4, s5, s6, s7, s8]
  simp only [k1, k2, k3, k4, k5, k6, k7, k8]
  generalize lower ext = e
  simp only [lookup_cons_getD, List.lookup_nil, Option.getD_none]

example : getFileFormat "/tmp/a.b/Schema.JSON"ₛ = "octopus2"ₛ :=
  C16_by_extension "/tmp/a.b/Schema"ₛ "JSON"ₛ (by decide)

/-- C16: a last path element without a dot has no format, whatever the directory is called. -/
theorem C16_no_extension (dir base : Str) (hb : '/' ∉ base ∧ '.' ∉ base)
    (hd : dir = [] ∨ ∃ d, dir = d ++ ['/']) : getFileFormat (dir ++ base) = [] := by
  unfold getFileFormat
  rw [fileExt_none dir base hb hd]
  rfl

example : getFileFormat "a.json/b"ₛ = [] :=
  C16_no_extension "a.json/"ₛ "b"ₛ (by decide) (Or.inr ⟨"a.json"ₛ, rfl⟩)

/-- C16: an explicit format always wins; otherwise the file name decides. -/
theorem C16_explicit (f name : Str) :
    (f ≠ [] → getFileFormatIfNotSet f name = f) ∧ getFileFormatIfNotSet [] name = getFileFormat name := by
  constructor
  · intro h; simp [getFileFormatIfNotSet, h]
  · rfl

example : getFileFormatIfNotSet "mysql"ₛ "a.xlsx"ₛ = "mysql"ₛ := (C16_explicit _ _).1 (by decide)

end Octo
