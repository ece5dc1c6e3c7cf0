import Verif.Lemmas.SaScope
import Verif.Lemmas.Common

/-! Lemmas about what the classes of the SQLAlchemy generator say. -/

namespace Octo.Sqlalchemy
open Spec Protobuf Jpa

theorem typeTerm_type {o : SaOption} {c : Column} (h : saType c ≠ none) : IsSaType o c (typeTerm o.useUTC c) := by
  obtain ⟨n, hn⟩ := Option.ne_none_iff_exists'.1 h
  have hf : fieldType c = n := by rw [fieldType_eq, hn]; rfl
  have hnc : lower c.type ≠ "datetime"ₛ → saTypeName o c = some n := by
    intro hd
    unfold saTypeName
    rw [if_neg (fun e => hd e.2.1), hn]
  have hsize : ∀ x : UInt16, x > 0 ↔ 0 < x := fun x => Iff.rfl
  unfold typeTerm
  dsimp only
  rw [hf]
  by_cases h1 : (lower c.type = "varchar"ₛ ∨ lower c.type = "char"ₛ) ∧ c.size > 0
  · rw [if_pos h1]
    have hd : lower c.type ≠ "datetime"ₛ ∧ lower c.type ∈ ["char"ₛ, "varchar"ₛ] ∧ lower c.type ∉ ["float"ₛ, "double"ₛ, "decimal"ₛ] := by
      rcases h1.1 with e | e <;> rw [e] <;> decide
    refine ⟨hnc hd.1, fun v => ?_, fun v => ?_, fun v => ?_, fun k v hm => ?_⟩
    · constructor
      · intro hm
        rw [show v = itoa c.size.toNat from congrArg Prod.snd (List.mem_singleton.1 hm)]
        exact ⟨rfl, h1.2, hd.2.1⟩
      · rintro ⟨rfl, _⟩
        exact List.mem_singleton.2 rfl
    · exact ⟨fun hm => absurd (congrArg Prod.fst (List.mem_singleton.1 hm)) (by simp), fun hm => absurd hm.2.2 hd.2.2⟩
    · exact ⟨fun hm => absurd (congrArg Prod.fst (List.mem_singleton.1 hm)) (by simp), fun hm => absurd hm.2.2 hd.2.2⟩
    · exact absurd (congrArg Prod.fst (List.mem_singleton.1 hm)) (by simp)
  rw [if_neg h1]
  by_cases h2 : lower c.type = "double"ₛ ∨ lower c.type = "float"ₛ ∨ lower c.type = "decimal"ₛ
  · rw [if_pos h2]
    have hd : lower c.type ≠ "datetime"ₛ ∧ lower c.type ∉ ["char"ₛ, "varchar"ₛ] ∧ lower c.type ∈ ["float"ₛ, "double"ₛ, "decimal"ₛ] := by
      rcases h2 with e | e | e <;> rw [e] <;> decide
    have hnd : (List.map Prod.fst [("precision"ₛ, if c.size > 0 then some (itoa c.size.toNat) else none),
        ("scale"ₛ, if c.scale > 0 then some (itoa c.scale.toNat) else none)]).Nodup := (show ["precision"ₛ, "scale"ₛ].Nodup by decide)
    have hmem : ∀ k v, (some k, v) ∈ ((present [("precision"ₛ, if c.size > 0 then some (itoa c.size.toNat) else none),
        ("scale"ₛ, if c.scale > 0 then some (itoa c.scale.toNat) else none)]).map fun p => (some p.1, p.2)) ↔
        (k, v) ∈ present [("precision"ₛ, if c.size > 0 then some (itoa c.size.toNat) else none),
          ("scale"ₛ, if c.scale > 0 then some (itoa c.scale.toNat) else none)] := by
      intro k v
      constructor
      · intro hm
        obtain ⟨p, hp, e⟩ := List.mem_map.1 hm
        cases e; exact hp
      · intro hm
        exact List.mem_map.2 ⟨(k, v), hm, rfl⟩
    refine ⟨hnc hd.1, fun v => ?_, fun v => ?_, fun v => ?_, fun k v hm => ?_⟩
    · constructor
      · intro hm
        obtain ⟨p, _, e⟩ := List.mem_map.1 hm
        cases congrArg Prod.fst e
      · exact fun hm => absurd hm.2.2 hd.2.1
    · refine (hmem _ _).trans ((mem_present hnd).trans ?_)
      show (if c.size > 0 then some (itoa c.size.toNat) else none) = some v ↔ _
      rw [ite_some_iff]
      exact and_congr Iff.rfl (and_iff_left hd.2.2).symm
    · refine (hmem _ _).trans ((mem_present hnd).trans ?_)
      show (if c.scale > 0 then some (itoa c.scale.toNat) else none) = some v ↔ _
      rw [ite_some_iff]
      exact and_congr Iff.rfl (and_iff_left hd.2.2).symm
    · have he := mem_present_entry ((hmem _ _).1 hm)
      rcases List.mem_cons.1 he with e | e
      · exact Or.inl (congrArg Prod.fst e)
      · exact Or.inr (congrArg Prod.fst (List.mem_singleton.1 e))
  rw [if_neg h2]
  have hno : ∀ v : Str, (v = itoa c.size.toNat ∧ 0 < c.size ∧ lower c.type ∈ ["char"ₛ, "varchar"ₛ]) → False := by
    rintro v ⟨_, h3, h4⟩
    refine h1 ⟨?_, h3⟩
    rcases List.mem_cons.1 h4 with e | e
    · exact Or.inr e
    · exact Or.inl (List.mem_singleton.1 e)
  have hno2 : lower c.type ∉ ["float"ₛ, "double"ₛ, "decimal"ₛ] := by
    intro h4
    apply h2
    rcases List.mem_cons.1 h4 with e | e
    · exact Or.inr (Or.inl e)
    rcases List.mem_cons.1 e with e | e
    · exact Or.inl e
    · exact Or.inr (Or.inr (List.mem_singleton.1 e))
  have key : ∀ m : Str, saTypeName o c = some m → IsSaType o c (.atom m) := fun m hm =>
    ⟨hm, fun v => ⟨fun e => (by cases e), fun e => (hno v e).elim⟩, fun v => ⟨fun e => (by cases e), fun e => absurd e.2.2 hno2⟩,
      fun v => ⟨fun e => (by cases e), fun e => absurd e.2.2 hno2⟩, fun k v e => (by cases e)⟩
  by_cases h3 : lower c.type = "datetime"ₛ ∧ ¬ (c.name = "created_at"ₛ ∨ c.name = "updated_at"ₛ) ∧ o.useUTC = true
  · rw [if_pos h3]
    refine key _ ?_
    unfold saTypeName
    exact if_pos ⟨h3.2.2, h3.1, fun e => h3.2.1 (Or.inl e), fun e => h3.2.1 (Or.inr e)⟩
  · rw [if_neg h3]
    refine key _ ?_
    unfold saTypeName
    rw [if_neg (fun e => h3 ⟨e.2.1, fun x => x.elim e.2.2.1 e.2.2.2, e.1⟩), hn]

theorem columnArg_eq (useUTC : Bool) (sc : Strcase) (c : Column) (k : Str) :
    columnArg (columnArgs useUTC sc c) k = (namedArgs useUTC c).lookup k := by
  unfold columnArg columnArgs
  have h1 : ∀ ps : List PyTerm, (ps.map fun t => ((none, t) : Option Str × PyTerm)).lookup (some k) = none := by
    intro ps
    rw [List.lookup_eq_none_iff]
    intro p hp
    obtain ⟨t, _, rfl⟩ := List.mem_map.1 hp
    rfl
  have h2 : ∀ ns : List (Str × PyTerm), (ns.map fun p => ((some p.1, p.2) : Option Str × PyTerm)).lookup (some k) = ns.lookup k := by
    intro ns
    induction ns with
    | nil => rfl
    | cons a ns ih =>
      rw [List.map_cons, List.lookup_cons, ih]
      show _ = List.lookup k ((a.1, a.2) :: ns)
      rw [List.lookup_cons]
      rfl
  rw [List.lookup_append, h1, h2]
  rfl

theorem named_lookup (useUTC : Bool) (c : Column) (k : Str) : (namedArgs useUTC c).lookup k =
    (List.lookup k (("default"ₛ, if lower c.type = "datetime"ₛ ∧ (c.name = "created_at"ₛ ∨ c.name = "updated_at"ₛ) then
      some (.atom (nowFn useUTC)) else none) ::
    ("onupdate"ₛ, if lower c.type = "datetime"ₛ ∧ c.name = "updated_at"ₛ then some (.atom (nowFn useUTC)) else none) :: flagArgs c)).join := by
  unfold namedArgs
  refine lookup_present ?_ k
  show ["default"ₛ, "onupdate"ₛ, "primary_key"ₛ, "unique"ₛ, "autoincrement"ₛ, "nullable"ₛ].Nodup
  decide

/-- The positional arguments come before the named ones. -/
theorem filterMap_named {β : Type} (g : Option Str × PyTerm → Option β) (hg : ∀ k t, g (some k, t) = none) (useUTC : Bool) (sc : Strcase)
    (c : Column) : (columnArgs useUTC sc c).filterMap g = (positionalArgs useUTC sc c).filterMap fun t => g (none, t) := by
  unfold columnArgs
  rw [List.filterMap_append, List.filterMap_map, List.filterMap_map,
    show (namedArgs useUTC c).filterMap (g ∘ fun p => (some p.1, p.2)) = [] from List.filterMap_eq_nil_iff.2 fun p _ => hg _ _, List.append_nil]
  rfl

theorem types_eq {o : SaOption} {sc : Strcase} {c : Column} (hp : PlainQuoted '\'' c.name) (h : saType c ≠ none) :
    columnTypes (columnArgs o.useUTC sc c) = [typeTerm o.useUTC c] := by
  have hf : fieldType c ≠ [] := fun e => h ((fieldType_nil c).1 e)
  have ht : ∀ n ∈ "TZDateTime"ₛ :: "Boolean"ₛ :: saTypes.map Prod.snd, (unquote '\'' n).isSome = false := by decide +kernel
  have hfn : (typeTerm o.useUTC c).fn ∈ "TZDateTime"ₛ :: "Boolean"ₛ :: saTypes.map Prod.snd := by
    have := (typeTerm_type (o := o) h).name
    unfold saTypeName at this
    split at this
    · rw [← Option.some.inj this]; simp
    · exact List.mem_cons_of_mem _ (saType_mem this)
  unfold columnTypes
  rw [filterMap_named _ (fun k t => rfl)]
  unfold positionalArgs
  rw [if_neg hf, List.filterMap_append]
  have e1 : List.filterMap (fun t : PyTerm => columnType (none, t)) (if (newField sc c).overrideName = true then [.atom (pyQuoted c.name)] else []) = [] := by
    split
    · rw [List.filterMap_cons_none]
      · rfl
      · show (if (unquote '\'' (pyQuoted c.name)).isSome = true then (none : Option PyTerm) else some _) = none
        rw [unquote_pyQuoted hp]; rfl
    · rfl
  rw [e1, List.nil_append]
  generalize typeTerm o.useUTC c = t at hfn
  cases t with
  | call f as => rfl
  | atom n =>
    rw [List.filterMap_cons_some (b := .atom n)]
    · rfl
    · show (if (unquote '\'' n).isSome = true then (none : Option PyTerm) else some _) = _
      rw [if_neg (by rw [ht n hfn]; simp)]

theorem explicit_eq {o : SaOption} {sc : Strcase} {c : Column} (hp : PlainQuoted '\'' c.name) :
    explicitNames (columnArgs o.useUTC sc c) = if (newField sc c).overrideName then [c.name] else [] := by
  have ht : ∀ n ∈ "TZDateTime"ₛ :: "Boolean"ₛ :: saTypes.map Prod.snd, unquote '\'' n = none := by decide +kernel
  unfold explicitNames
  rw [filterMap_named _ (fun k t => rfl)]
  unfold positionalArgs
  rw [List.filterMap_append]
  have e2 : List.filterMap (fun t : PyTerm => explicitName (none, t)) (if fieldType c = [] then [] else [typeTerm o.useUTC c]) = [] := by
    by_cases hf : fieldType c = []
    · rw [if_pos hf]; rfl
    · rw [if_neg hf]
      have h : saType c ≠ none := fun e => hf ((fieldType_nil c).2 e)
      have hfn : (typeTerm o.useUTC c).fn ∈ "TZDateTime"ₛ :: "Boolean"ₛ :: saTypes.map Prod.snd := by
        have := (typeTerm_type (o := o) h).name
        unfold saTypeName at this
        split at this
        · rw [← Option.some.inj this]; simp
        · exact List.mem_cons_of_mem _ (saType_mem this)
      generalize typeTerm o.useUTC c = t at hfn
      cases t with
      | call f as => rfl
      | atom n =>
        rw [List.filterMap_cons_none]
        · rfl
        · exact ht n hfn
  rw [e2, List.append_nil]
  split
  · rw [List.filterMap_cons_some (b := c.name)]
    · rfl
    · exact unquote_pyQuoted hp
  · rfl

theorem name_kept {o : SaOption} {sc : Strcase} {c : Column} (hp : PlainQuoted '\'' c.name) :
    (explicitNames (columnArgs o.useUTC sc c)).headD (saAttribute sc c.name) = c.name := by
  rw [explicit_eq hp]
  by_cases h : (newField sc c).overrideName = true
  · rw [if_pos h]; rfl
  · rw [if_neg h]
    rw [newField_override, not_or, not_not] at h
    show saAttribute sc c.name = c.name
    unfold saAttribute
    rw [if_neg h.1]
    exact h.2.symm

theorem column_described {o : SaOption} {sc : Strcase} {c : Column} (hp : PlainQuoted '\'' c.name) (h : saType c ≠ none) :
    IsSaColumn sc o c (columnMember o.useUTC sc c) (columnArgs o.useUTC sc c) where
  assign := rfl
  type := ⟨_, types_eq hp h, typeTerm_type h⟩
  name := name_kept hp
  primary := by rw [columnArg_eq, named_lookup]; rfl
  unique := by rw [columnArg_eq, named_lookup]; rfl
  auto := by rw [columnArg_eq, named_lookup]; rfl
  nullable := by rw [columnArg_eq, named_lookup]; rfl
  default := by rw [columnArg_eq, named_lookup]; rfl
  onupdate := by rw [columnArg_eq, named_lookup]; rfl
  others k v hm := by
    unfold columnArgs at hm
    rcases List.mem_append.1 hm with hm | hm
    · obtain ⟨_, _, e⟩ := List.mem_map.1 hm
      cases e
    · obtain ⟨p, hp, e⟩ := List.mem_map.1 hm
      cases e
      unfold namedArgs at hp
      exact List.mem_map_of_mem (f := Prod.fst) (mem_present_entry hp)

theorem classColumns_eq (sc : Strcase) (o : SaOption) (t : Table) :
    classColumns (pyClassOf sc o t) = t.columns.map (columnMember o.useUTC sc) := by
  unfold classColumns pyClassOf
  dsimp only
  rw [List.filter_append]
  have e : ∀ cs : List Column, (cs.map (columnMember o.useUTC sc)).filter isColumn = cs.map (columnMember o.useUTC sc) := by
    intro cs
    rw [List.filter_eq_self]
    intro m hm
    obtain ⟨c, _, rfl⟩ := List.mem_map.1 hm
    show decide ("Column"ₛ = "Column"ₛ) = true
    exact decide_eq_true rfl
  rw [e]
  split <;> rfl

theorem table_described {o : SaOption} {sc : Strcase} {s : Schema} (hp : PlainSa sc o s) {t : Table} (ht : t ∈ s.tables)
    (h : ∀ c ∈ t.columns, saType c ≠ none) : SaDescribes sc o t (pyClassOf sc o t) where
  name := rfl
  base := rfl
  table := List.mem_append_left _ List.mem_cons_self
  tableOnce v hv := by
    unfold pyClassOf at hv
    dsimp only at hv
    rcases List.mem_append.1 hv with hv | hv
    · rcases List.mem_cons.1 hv with e | hv
      · exact PyNode.atom.inj (PyMember.assign.inj e).2
      · split at hv
        · exact absurd (List.mem_singleton.1 hv) (by unfold uniqueMember; exact fun e => (by cases e))
        · cases hv
    · obtain ⟨c, _, e⟩ := List.mem_map.1 hv
      have e' := (PyMember.assign.inj e).2
      cases e'
  columns := by
    rw [classColumns_eq, List.forall₂_map_right_iff, List.forall₂_same]
    exact fun c hc => ⟨_, column_described (hp.columns t ht c hc).1 (h c hc)⟩

theorem single_iff (out : Str) : single out = true ↔ SingleFile out := by
  have hlow : ∀ c : Char, (Char.toLower c = 'p' ∨ Char.toLower c = 'y') → c ≠ '/' ∧ c ≠ '.' := by
    rintro c h
    constructor <;> rintro rfl <;> revert h <;> decide
  have hext : ∀ e : Str, lower e = "py"ₛ → '/' ∉ e ∧ '.' ∉ e := by
    intro e he
    have : ∀ c ∈ e, Char.toLower c = 'p' ∨ Char.toLower c = 'y' := by
      intro c hc
      have : Char.toLower c ∈ lower e := List.mem_map.2 ⟨c, hc, rfl⟩
      rw [he] at this
      simpa using this
    exact ⟨fun h => (hlow _ (this _ h)).1 rfl, fun h => (hlow _ (this _ h)).2 rfl⟩
  unfold single SingleFile
  rw [beq_iff_eq]
  constructor
  · intro h
    unfold fileExt at h
    dsimp only at h
    split at h
    · rename_i r hr
      have e := List.takeWhile_append_dropWhile (p := fun c : Char => c ≠ '/' && c ≠ '.') (l := out.reverse)
      rw [hr] at e
      refine ⟨r.reverse, (out.reverse.takeWhile fun c : Char => c ≠ '/' && c ≠ '.').reverse, ?_, ?_⟩
      · have e2 := congrArg List.reverse e
        rw [List.reverse_reverse, List.reverse_append, List.reverse_cons, List.append_assoc] at e2
        exact e2.symm
      · exact (List.cons.inj h).2
    · cases h
  · rintro ⟨a, e, rfl, h⟩
    rw [fileExt_dot a e (hext e h)]
    show Char.toLower '.' :: lower e = _
    rw [h]; rfl

end Octo.Sqlalchemy
