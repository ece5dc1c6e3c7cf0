import Verif.Props.MysqlImport

/-! Exact conditions for the types of C21. -/

namespace Octo
open Spec MysqlImport

/-- The types without arguments come back as they are, or not at all. -/
theorem fixed_back : ∀ e ∈ mysqlTypes, e.2.2 = .fixed →
    imported e.2.1 [] e.1 = none ∨ (e.1 ∈ fixedPortable ∧ imported e.2.1 [] e.1 = some ((e.1, 0, 0), [])) := by
  decide +kernel

theorem oneBit_back : ∀ e ∈ mysqlTypes, e.2.2 = .oneBit → e = ("boolean"ₛ, "bit"ₛ, .oneBit) := by
  decide +kernel

theorem members_names : ∀ e ∈ mysqlTypes, e.2.2 = .members → e.1 ∈ ["enum"ₛ, "set"ₛ] ∧ imported e.2.1 [] e.1 = none := by
  decide +kernel

theorem sized_names : ∀ e ∈ mysqlTypes, e.2.2 = .sized → e ∈ [("bit"ₛ, "bit"ₛ, TypeShape.sized), ("int8"ₛ, "tinyint"ₛ, .sized),
    ("varchar"ₛ, "varchar"ₛ, .sized), ("float"ₛ, "float"ₛ, .sized), ("decimal"ₛ, "decimal"ₛ, .sized), ("double"ₛ, "double"ₛ, .sized),
    ("char"ₛ, "char"ₛ, .sized), ("int16"ₛ, "smallint"ₛ, .sized), ("int24"ₛ, "mediumint"ₛ, .sized), ("int32"ₛ, "int"ₛ, .sized),
    ("int64"ₛ, "bigint"ₛ, .sized)] := by
  decide +kernel

/-- Types that take one argument are rejected with two. -/
theorem two_rejected (x y : Str) : imported "bit"ₛ [x, y] "bit"ₛ = none ∧ imported "tinyint"ₛ [x, y] "int8"ₛ = none ∧
    imported "varchar"ₛ [x, y] "varchar"ₛ = none ∧ imported "char"ₛ [x, y] "char"ₛ = none ∧
    imported "smallint"ₛ [x, y] "int16"ₛ = none ∧ imported "mediumint"ₛ [x, y] "int24"ₛ = none ∧
    imported "int"ₛ [x, y] "int32"ₛ = none ∧ imported "bigint"ₛ [x, y] "int64"ₛ = none :=
  ⟨rfl, rfl, rfl, rfl, rfl, rfl, rfl, rfl⟩

/-- Only enumerations have members. -/
theorem values_back {base : Str} {args : List Str} {type : Str} {r : (Str × UInt16 × UInt16) × List Str}
    (h : imported base args type = some r) (ht : type ∉ ["enum"ₛ, "set"ₛ]) : r.2 = [] := by
  unfold imported at h
  obtain ⟨f, _, rfl⟩ := Option.map_eq_some_iff.1 h
  unfold columnValues
  rw [if_neg fun e => ht (by rw [e]; decide), if_neg fun e => ht (by rw [e]; decide)]

/-- A float with more than 24 digits does not come back as one. -/
theorem float_rejected {s d : UInt16} (h24 : ¬ s ≤ 24) (r : (Str × UInt16 × UInt16) × List Str)
    (h : imported "float"ₛ (if d = 0 then [itoa s.toNat] else [itoa s.toNat, itoa d.toNat]) "float"ₛ = some r) : r.1.1 = "double"ₛ := by
  have hn : (s.toNat : Int) > 24 := by
    have : ¬ s.toNat ≤ 24 := fun h => h24 (UInt16.le_iff_toNat_le.2 h)
    omega
  unfold imported at h
  obtain ⟨f, hf, rfl⟩ := Option.map_eq_some_iff.1 h
  by_cases h0 : d = 0
  · rw [if_pos h0] at hf
    have : ∀ x, fieldOf "float"ₛ [x] = ((readNat x).map fun (n : Nat) => ({ tp := .float, flen := n } : FieldType)).map
        fun f => if f.flen > 24 then { f with tp := .double } else f := fun _ => rfl
    rw [this, readNat_itoa, Option.map_some, Option.map_some, if_pos hn] at hf
    rw [← Option.some.inj hf]
    rfl
  · rw [if_neg h0] at hf
    have : ∀ x y, fieldOf "float"ₛ [x, y] = ((readNat x).bind fun (n : Nat) => (readNat y).map fun (m : Nat) =>
        ({ tp := .float, flen := n, decimal := m } : FieldType)).map
        fun f => if f.flen > 24 then { f with tp := .double } else f := fun _ _ => rfl
    rw [this, readNat_itoa, readNat_itoa, Option.bind_some, Option.map_some, Option.map_some, if_pos hn] at hf
    rw [← Option.some.inj hf]
    rfl

/-- C21, exactly, for the types of columns: type, size, scale and members of a canonical column come back from the script if and only
if they are portable. -/
theorem C21_type_exact (c : Column) (hc : c.type ∈ colTypes) (hv : ∀ v ∈ c.values, Unescaped v) :
    (∃ base args f, readType (Mysql.toMysqlColumnType c) = some (base, args) ∧ fieldOf base args = some f ∧
      columnType f = (c.type, c.size, c.scale) ∧ columnValues c.type f = c.values) ↔ PortableType c := by
  refine ⟨?_, fun h => C21_type_partial c h hv⟩
  rintro ⟨base, args, f, h1, h2, h3, h4⟩
  obtain ⟨e, he, hte⟩ := mysqlTypes_of_mem hc
  rw [readType_eq hv he hte] at h1
  cases Option.some.inj h1
  have hi : imported e.2.1 (typeArgs e.2.2 c) e.1 = some ((e.1, c.size, c.scale), c.values) := by
    unfold imported
    rw [h2, Option.map_some, h3, ← hte, h4]
  clear h1 h2 h3 h4
  cases hs : e.2.2 with
  | fixed =>
    rw [hs] at hi
    rcases fixed_back e he hs with h | ⟨hm, h⟩
    · exact absurd (h.symm.trans hi) (by simp)
    · have := Option.some.inj (h.symm.trans hi)
      simp only [Prod.mk.injEq, true_and] at this
      exact Or.inl ⟨by rw [hte]; exact hm, this.1.1.symm, this.1.2.symm, this.2.symm⟩
  | oneBit =>
    cases oneBit_back e he hs
    have h : imported "bit"ₛ ["1"ₛ] "boolean"ₛ = some (("boolean"ₛ, 0, 0), []) := by decide +kernel
    have := Option.some.inj (h.symm.trans hi)
    simp only [Prod.mk.injEq, true_and] at this
    exact Or.inl ⟨by rw [hte]; decide, this.1.1.symm, this.1.2.symm, this.2.symm⟩
  | members =>
    obtain ⟨hm, hn⟩ := members_names e he hs
    rw [hs] at hi
    have hne : c.values ≠ [] := by
      intro h0
      have : typeArgs .members c = [] := by unfold typeArgs; dsimp only; rw [h0]; rfl
      rw [this, hn] at hi
      cases hi
    refine Or.inr (Or.inl ⟨by rw [hte]; exact hm, ?_, ?_, hne⟩)
    all_goals
      unfold imported at hi
      obtain ⟨f, hf, hff⟩ := Option.map_eq_some_iff.1 hi
      have h1 := congrArg (fun r => r.1.2) hff
      have hbase : e = ("enum"ₛ, "enum"ₛ, .members) ∨ e = ("set"ₛ, "set"ₛ, .members) := by
        have : ∀ e ∈ mysqlTypes, e.2.2 = .members → e = ("enum"ₛ, "enum"ₛ, .members) ∨ e = ("set"ₛ, "set"ₛ, .members) := by
          decide +kernel
        exact this e he hs
      have hargs : typeArgs .members c ≠ [] := by
        unfold typeArgs
        dsimp only
        simpa using hne
      have hmem : ∀ (tp : Tp) es, FieldKind.field e.2.1 (typeArgs .members c) (.members tp) = some es → es.tp = tp := by
        intro tp es h
        unfold FieldKind.field at h
        dsimp only at h
        rw [if_neg hargs] at h
        obtain ⟨x, _, rfl⟩ := Option.map_eq_some_iff.1 h
        rfl
      rcases hbase with rfl | rfl
      · have : f.tp = .enum := hmem .enum f (by rw [← hf]; rfl)
        have h2 : columnType f = ("enum"ₛ, 0, 0) := by unfold columnType; rw [this]
        rw [show (columnType f, columnValues ("enum"ₛ, "enum"ₛ, TypeShape.members).1 f).1.2 = (columnType f).2 from rfl, h2] at h1
        simp only [Prod.mk.injEq] at h1
        first | exact h1.1.symm | exact h1.2.symm
      · have : f.tp = .set := hmem .set f (by rw [← hf]; rfl)
        have h2 : columnType f = ("set"ₛ, 0, 0) := by unfold columnType; rw [this]
        rw [show (columnType f, columnValues ("set"ₛ, "set"ₛ, TypeShape.members).1 f).1.2 = (columnType f).2 from rfl, h2] at h1
        simp only [Prod.mk.injEq] at h1
        first | exact h1.1.symm | exact h1.2.symm
  | sized =>
    have hm := sized_names e he hs
    rw [hs] at hi
    have hnv : e.1 ∉ ["enum"ₛ, "set"ₛ] := by
      have : ∀ e ∈ mysqlTypes, e.2.2 = .sized → e.1 ∉ ["enum"ₛ, "set"ₛ] := by decide +kernel
      exact this e he hs
    have hvals : c.values = [] := values_back hi hnv
    rw [hvals] at hi
    unfold PortableType
    rw [hte, hvals]
    unfold typeArgs at hi
    dsimp only at hi
    have one : c.size ≠ 0 → c.scale ≠ 0 → imported e.2.1 [itoa c.size.toNat, itoa c.scale.toNat] e.1 ≠ none := by
      intro h0 h1 hn
      rw [if_neg h0, if_neg h1, hn] at hi
      cases hi
    have none_scale : c.size = 0 → imported e.2.1 [] e.1 = some ((e.1, 0, 0), []) → c.scale = 0 := by
      intro h0 h
      rw [if_pos h0, h] at hi
      have := congrArg (fun r => r.1.2.2) (Option.some.inj hi)
      exact this.symm
    have small : (∀ x y, imported e.2.1 [x, y] e.1 = none) → imported e.2.1 [] e.1 = some ((e.1, 0, 0), []) → c.scale = 0 := by
      intro h2 h
      by_cases h0 : c.size = 0
      · exact none_scale h0 h
      · by_contra h1
        exact one h0 h1 (h2 _ _)
    simp only [List.mem_cons, List.not_mem_nil, or_false] at hm
    rcases hm with rfl | rfl | rfl | rfl | rfl | rfl | rfl | rfl | rfl | rfl | rfl
    · -- bit
      have h0 : c.size ≠ 0 := by
        intro h0
        rw [if_pos h0] at hi
        have h : imported "bit"ₛ [] "bit"ₛ = some (("boolean"ₛ, 0, 0), []) := by decide +kernel
        have := congrArg (fun r => r.1.1) (Option.some.inj (h.symm.trans hi))
        exact absurd (show "boolean"ₛ = "bit"ₛ from this) (by decide)
      have h1 : c.scale = 0 := by
        by_contra h1
        exact one h0 h1 (two_rejected _ _).1
      have h2 : c.size ≠ 1 := by
        intro h2
        rw [if_neg h0, if_pos h1, h2] at hi
        have h : imported "bit"ₛ [itoa (1 : UInt16).toNat] "bit"ₛ = some (("boolean"ₛ, 0, 0), []) := by decide +kernel
        have := congrArg (fun r => r.1.1) (Option.some.inj (h.symm.trans hi))
        exact absurd (show "boolean"ₛ = "bit"ₛ from this) (by decide)
      exact Or.inr (Or.inr (Or.inr (Or.inr (Or.inl ⟨rfl, h0, h2, h1, rfl⟩))))
    · -- int8
      have h1 : c.scale = 0 := small (fun x y => (two_rejected x y).2.1) (by decide +kernel)
      have h2 : c.size ≠ 1 := by
        intro h2
        have h0 : c.size ≠ 0 := by rw [h2]; decide
        rw [if_neg h0, if_pos h1, h2] at hi
        have h : imported "tinyint"ₛ [itoa (1 : UInt16).toNat] "int8"ₛ = some (("boolean"ₛ, 0, 0), []) := by decide +kernel
        have := congrArg (fun r => r.1.1) (Option.some.inj (h.symm.trans hi))
        exact absurd (show "boolean"ₛ = "int8"ₛ from this) (by decide)
      exact Or.inr (Or.inr (Or.inr (Or.inl ⟨rfl, h2, h1, rfl⟩)))
    · -- varchar
      have h0 : c.size ≠ 0 := by
        intro h0
        rw [if_pos h0] at hi
        have h : imported "varchar"ₛ [] "varchar"ₛ = none := by decide +kernel
        exact absurd (h.symm.trans hi) (by simp)
      have h1 : c.scale = 0 := by
        by_contra h1
        exact one h0 h1 (two_rejected _ _).2.2.1
      exact Or.inr (Or.inr (Or.inr (Or.inr (Or.inr (Or.inl ⟨rfl, h0, h1, rfl⟩)))))
    · -- float
      have h24 : c.size ≤ 24 := by
        by_contra h24
        have h0 : c.size ≠ 0 := by rintro h0; rw [h0] at h24; exact h24 (by decide)
        rw [if_neg h0] at hi
        have := float_rejected h24 _ hi
        exact absurd (show "float"ₛ = "double"ₛ from this) (by decide)
      exact Or.inr (Or.inr (Or.inr (Or.inr (Or.inr (Or.inr (Or.inr ⟨rfl, fun h => none_scale h (by decide +kernel), h24, rfl⟩))))))
    · exact Or.inr (Or.inr (Or.inr (Or.inr (Or.inr (Or.inr (Or.inl ⟨by decide, fun h => none_scale h (by decide +kernel), rfl⟩))))))
    · exact Or.inr (Or.inr (Or.inr (Or.inr (Or.inr (Or.inr (Or.inl ⟨by decide, fun h => none_scale h (by decide +kernel), rfl⟩))))))
    · exact Or.inr (Or.inr (Or.inl ⟨by decide, small (fun x y => (two_rejected x y).2.2.2.1) (by decide +kernel), rfl⟩))
    · exact Or.inr (Or.inr (Or.inl ⟨by decide, small (fun x y => (two_rejected x y).2.2.2.2.1) (by decide +kernel), rfl⟩))
    · exact Or.inr (Or.inr (Or.inl ⟨by decide, small (fun x y => (two_rejected x y).2.2.2.2.2.1) (by decide +kernel), rfl⟩))
    · exact Or.inr (Or.inr (Or.inl ⟨by decide, small (fun x y => (two_rejected x y).2.2.2.2.2.2.1) (by decide +kernel), rfl⟩))
    · exact Or.inr (Or.inr (Or.inl ⟨by decide, small (fun x y => (two_rejected x y).2.2.2.2.2.2.2) (by decide +kernel), rfl⟩))

/-- A column that comes back. -/
example : PortableType { type := "decimal"ₛ, size := 10, scale := 2 } :=
  Or.inr (Or.inr (Or.inr (Or.inr (Or.inr (Or.inr (Or.inl ⟨by decide, by decide, rfl⟩))))))

/-- One that does not. -/
example : ¬PortableType { type := "geometry"ₛ } := by
  rintro (⟨h, _⟩ | ⟨h, _⟩ | ⟨h, _⟩ | ⟨h, _⟩ | ⟨h, _⟩ | ⟨h, _⟩ | ⟨h, _⟩ | ⟨h, _⟩) <;> revert h <;> decide

end Octo
