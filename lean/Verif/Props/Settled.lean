import Verif.Props.ExactMysqlCli
import Verif.Lemmas.ProtobufMessages

/-! Property C153: what has been exported to MySQL and imported once stays as it is. -/

namespace Octo
open Spec MysqlImport

/-- What a type becomes. -/
structure TypeBack (c : Column) (f : FieldType) (d : Column) : Prop where
  portable : PortableType d
  type : columnType f = (d.type, d.size, d.scale)
  values : columnValues d.type f = d.values
  known : d.type ∈ colTypes
  fewer : ∀ v ∈ d.values, v ∈ c.values
  text : c.type = "char"ₛ ∨ c.type = "varchar"ₛ → d.type = c.type
  /-- and is written with the same meaning, unless it was a `tinyint(1)` -/
  again : ∃ b a f', readType (Mysql.toMysqlColumnType d) = some (b, a) ∧ fieldOf b a = some f' ∧
    (f' = f ∨ c.type = "int8"ₛ ∧ c.size = 1)

theorem back_same {c d : Column} {e : Str × Str × TypeShape} (he : e ∈ mysqlTypes) (hte : c.type = e.1) (hv : ∀ v ∈ c.values, Unescaped v)
    {f : FieldType} (hf : fieldOf e.2.1 (typeArgs e.2.2 c) = some f) (hc : c.type ∈ colTypes) (ht : d.type = c.type)
    (ha : typeArgs e.2.2 d = typeArgs e.2.2 c) (hfew : ∀ v ∈ d.values, v ∈ c.values) (hp : PortableType d) : TypeBack c f d := by
  have hdv : ∀ v ∈ d.values, Unescaped v := fun v hm => hv v (hfew v hm)
  obtain ⟨b, as, f', h1, h2, h3, h4⟩ := C21_type_partial d hp hdv
  rw [readType_eq hdv he (ht.trans hte)] at h1
  cases Option.some.inj h1
  rw [ha, hf] at h2
  cases Option.some.inj h2
  exact ⟨hp, h3, h4, by rw [ht]; exact hc, hfew, fun _ => ht, _, _, f, readType_eq hdv he (ht.trans hte), by rw [ha, hf], Or.inl rfl⟩

theorem back_boolean {c : Column} {f : FieldType} (h1 : columnType f = ("boolean"ₛ, 0, 0)) (hc : c.type ≠ "char"ₛ ∧ c.type ≠ "varchar"ₛ)
    (h2 : { tp := .bit, flen := 1 } = f ∨ c.type = "int8"ₛ ∧ c.size = 1) :
    TypeBack c f { type := "boolean"ₛ } where
  portable := Or.inl ⟨by decide, rfl, rfl, rfl⟩
  type := h1
  values := rfl
  known := by decide
  fewer := fun v hv => absurd hv List.not_mem_nil
  text := fun h => (h.elim hc.1 hc.2).elim
  again := ⟨"bit"ₛ, ["1"ₛ], { tp := .bit, flen := 1 }, by decide +kernel, by decide +kernel, h2⟩

/-- A float with more than 24 digits becomes a double. -/
theorem float_double {s d : UInt16} (h24 : ¬ s ≤ 24) {f : FieldType}
    (hf : fieldOf "float"ₛ (if d = 0 then [itoa s.toNat] else [itoa s.toNat, itoa d.toNat]) = some f) :
    columnType f = ("double"ₛ, s, d) := by
  have hs : s ≠ 0 := by rintro rfl; exact h24 (by decide)
  have hn : (s.toNat : Int) > 24 := by
    have : ¬ s.toNat ≤ 24 := fun h => h24 (UInt16.le_iff_toNat_le.2 h)
    omega
  by_cases h0 : d = 0
  · rw [if_pos h0] at hf
    have : ∀ x, fieldOf "float"ₛ [x] = ((readNat x).map fun (n : Nat) => ({ tp := .float, flen := n } : FieldType)).map
        fun f => if f.flen > 24 then { f with tp := .double } else f := fun _ => rfl
    rw [this, readNat_itoa, Option.map_some, Option.map_some, if_pos hn] at hf
    have h2 := imported_sized hs ("double"ₛ, "double"ₛ, Tp.double) (by decide)
      fun h => absurd h (by show ¬("double"ₛ = "int8"ₛ ∨ "double"ₛ = "bit"ₛ); decide)
    unfold imported at h2
    rw [fieldOf_double] at h2
    have : scaledField .double [itoa s.toNat] = some f := by
      rw [← hf]
      show (readNat _).map _ = _
      rw [readNat_itoa]
      rfl
    rw [this] at h2
    rw [h0]
    exact congrArg Prod.fst (Option.some.inj h2)
  · rw [if_neg h0] at hf
    have : ∀ x y, fieldOf "float"ₛ [x, y] = ((readNat x).bind fun (n : Nat) => (readNat y).map fun (m : Nat) =>
        ({ tp := .float, flen := n, decimal := m } : FieldType)).map
        fun f => if f.flen > 24 then { f with tp := .double } else f := fun _ _ => rfl
    rw [this, readNat_itoa, readNat_itoa, Option.bind_some, Option.map_some, Option.map_some, if_pos hn] at hf
    have h2 := imported_scaled hs h0 ("double"ₛ, "double"ₛ, Tp.double) (by decide)
    unfold imported at h2
    rw [fieldOf_double] at h2
    have : scaledField .double [itoa s.toNat, itoa d.toNat] = some f := by
      rw [← hf]
      show (readNat _).bind _ = _
      rw [readNat_itoa, readNat_itoa]
      rfl
    rw [this] at h2
    exact congrArg Prod.fst (Option.some.inj h2)

/-- The tree of that float is the one of the double. -/
theorem double_of_float {s d : UInt16} (h24 : ¬ s ≤ 24) {f : FieldType}
    (hf : fieldOf "float"ₛ (if d = 0 then [itoa s.toNat] else [itoa s.toNat, itoa d.toNat]) = some f) :
    fieldOf "double"ₛ (if d = 0 then [itoa s.toNat] else [itoa s.toNat, itoa d.toNat]) = some f := by
  have hn : (s.toNat : Int) > 24 := by
    have : ¬ s.toNat ≤ 24 := fun h => h24 (UInt16.le_iff_toNat_le.2 h)
    omega
  by_cases h0 : d = 0
  · rw [if_pos h0] at hf ⊢
    have : ∀ x, fieldOf "float"ₛ [x] = ((readNat x).map fun (n : Nat) => ({ tp := .float, flen := n } : FieldType)).map
        fun f => if f.flen > 24 then { f with tp := .double } else f := fun _ => rfl
    rw [this, readNat_itoa, Option.map_some, Option.map_some, if_pos hn] at hf
    rw [fieldOf_double, ← hf]
    show (readNat _).map _ = _
    rw [readNat_itoa]
    rfl
  · rw [if_neg h0] at hf ⊢
    have : ∀ x y, fieldOf "float"ₛ [x, y] = ((readNat x).bind fun (n : Nat) => (readNat y).map fun (m : Nat) =>
        ({ tp := .float, flen := n, decimal := m } : FieldType)).map
        fun f => if f.flen > 24 then { f with tp := .double } else f := fun _ _ => rfl
    rw [this, readNat_itoa, readNat_itoa, Option.bind_some, Option.map_some, Option.map_some, if_pos hn] at hf
    rw [fieldOf_double, ← hf]
    show (readNat _).bind _ = _
    rw [readNat_itoa, readNat_itoa]
    rfl

/-- A type that the parser accepts becomes one that comes back. -/
theorem type_back {c : Column} (hc : c.type ∈ colTypes) (hv : ∀ v ∈ c.values, Unescaped v) {base : Str} {args : List Str} {f : FieldType}
    (h1 : readType (Mysql.toMysqlColumnType c) = some (base, args)) (h2 : fieldOf base args = some f) : ∃ d, TypeBack c f d := by
  obtain ⟨e, he, hte⟩ := mysqlTypes_of_mem hc
  rw [readType_eq hv he hte] at h1
  cases Option.some.inj h1
  clear h1
  have rejected : ∀ {type : Str}, imported e.2.1 (typeArgs e.2.2 c) type ≠ none := by
    intro type h
    unfold imported at h
    rw [h2] at h
    cases h
  cases hs : e.2.2 with
  | fixed =>
    rcases fixed_back e he hs with h | ⟨hm, -⟩
    · exact absurd h (by rw [hs] at rejected; exact rejected)
    · exact ⟨{ c with size := 0, scale := 0, values := [] }, back_same he hte hv h2 hc rfl (by rw [hs]; rfl)
        (fun v hv => absurd hv List.not_mem_nil) (Or.inl ⟨by rw [← hte] at hm; exact hm, rfl, rfl, rfl⟩)⟩
  | oneBit =>
    refine ⟨{ c with size := 0, scale := 0, values := [] }, back_same he hte hv h2 hc rfl (by rw [hs]; rfl)
        (fun v hv => absurd hv List.not_mem_nil) (Or.inl ⟨?_, rfl, rfl, rfl⟩)⟩
    show c.type ∈ _
    rw [hte, oneBit_back e he hs]
    decide
  | members =>
    obtain ⟨hm, hn⟩ := members_names e he hs
    refine ⟨{ c with size := 0, scale := 0 }, back_same he hte hv h2 hc rfl (by rw [hs]; rfl)
        (fun v hv => hv) (Or.inr (Or.inl ⟨by rw [← hte] at hm; exact hm, rfl, rfl, ?_⟩))⟩
    intro h0
    have h0 : c.values = [] := h0
    refine rejected (type := e.1) ?_
    rw [hs]
    unfold typeArgs
    dsimp only
    rw [h0]
    exact hn
  | sized =>
    have hm := sized_names e he hs
    have hargs : typeArgs e.2.2 c = if c.size = 0 then [] else if c.scale = 0 then [itoa c.size.toNat]
        else [itoa c.size.toNat, itoa c.scale.toNat] := by rw [hs]; rfl
    -- without a size, the scale is not written
    have none_case : c.size = 0 → PortableType { c with scale := 0, values := [] } → ∃ d, TypeBack c f d := fun h0 hp =>
      ⟨{ c with scale := 0, values := [] }, back_same he hte hv h2 hc rfl (by rw [hs]; unfold typeArgs; dsimp only; rw [if_pos h0, if_pos h0])
        (fun v hv => absurd hv List.not_mem_nil) hp⟩
    have some_case : PortableType { c with values := [] } → ∃ d, TypeBack c f d := fun hp =>
      ⟨{ c with values := [] }, back_same he hte hv h2 hc rfl (by rw [hs]; rfl) (fun v hv => absurd hv List.not_mem_nil) hp⟩
    have one : c.size ≠ 0 → (∀ x y, imported e.2.1 [x, y] e.1 = none) → c.scale = 0 := by
      intro h0 hn
      by_contra h1
      refine rejected (type := e.1) ?_
      rw [hargs, if_neg h0, if_neg h1]
      exact hn _ _
    simp only [List.mem_cons, List.not_mem_nil, or_false] at hm
    rcases hm with rfl | rfl | rfl | rfl | rfl | rfl | rfl | rfl | rfl | rfl | rfl
    · -- bit
      have hne : c.type ≠ "char"ₛ ∧ c.type ≠ "varchar"ₛ := by rw [hte]; decide
      by_cases h0 : c.size = 0
      · rw [hargs, if_pos h0] at h2
        have hb : fieldOf "bit"ₛ [] = some { tp := .bit, flen := 1 } := by decide +kernel
        refine ⟨_, back_boolean ?_ hne (Or.inl (Option.some.inj (hb.symm.trans h2)))⟩
        have h : (fieldOf "bit"ₛ []).map columnType = some ("boolean"ₛ, 0, 0) := by decide +kernel
        have h2 : fieldOf "bit"ₛ [] = some f := h2
        rw [h2] at h
        exact Option.some.inj h
      · have h1 := one h0 fun x y => (two_rejected x y).1
        by_cases h3 : c.size = 1
        · rw [hargs, if_neg h0, if_pos h1, h3] at h2
          have hb : fieldOf "bit"ₛ [itoa (1 : UInt16).toNat] = some { tp := .bit, flen := 1 } := by decide +kernel
          refine ⟨_, back_boolean ?_ hne (Or.inl (Option.some.inj (hb.symm.trans h2)))⟩
          have h : (fieldOf "bit"ₛ [itoa (1 : UInt16).toNat]).map columnType = some ("boolean"ₛ, 0, 0) := by decide +kernel
          have h2 : fieldOf "bit"ₛ [itoa (1 : UInt16).toNat] = some f := h2
          rw [h2] at h
          exact Option.some.inj h
        · exact some_case (Or.inr (Or.inr (Or.inr (Or.inr (Or.inl ⟨hte, h0, h3, h1, rfl⟩)))))
    · -- int8
      have hne : c.type ≠ "char"ₛ ∧ c.type ≠ "varchar"ₛ := by rw [hte]; decide
      by_cases h0 : c.size = 0
      · exact none_case h0 (Or.inr (Or.inr (Or.inr (Or.inl ⟨hte, by show c.size ≠ 1; rw [h0]; decide, rfl, rfl⟩))))
      · have h1 := one h0 fun x y => (two_rejected x y).2.1
        by_cases h3 : c.size = 1
        · rw [hargs, if_neg h0, if_pos h1, h3] at h2
          refine ⟨_, back_boolean ?_ hne (Or.inr ⟨hte, h3⟩)⟩
          have h : (fieldOf "tinyint"ₛ [itoa (1 : UInt16).toNat]).map columnType = some ("boolean"ₛ, 0, 0) := by decide +kernel
          have h2 : fieldOf "tinyint"ₛ [itoa (1 : UInt16).toNat] = some f := h2
          rw [h2] at h
          exact Option.some.inj h
        · exact some_case (Or.inr (Or.inr (Or.inr (Or.inl ⟨hte, h3, h1, rfl⟩))))
    · -- varchar
      have h0 : c.size ≠ 0 := by
        intro h0
        refine rejected (type := "varchar"ₛ) ?_
        rw [hargs, if_pos h0]
        decide +kernel
      have h1 := one h0 fun x y => (two_rejected x y).2.2.1
      exact some_case (Or.inr (Or.inr (Or.inr (Or.inr (Or.inr (Or.inl ⟨hte, h0, h1, rfl⟩))))))
    · -- float
      by_cases h0 : c.size = 0
      · exact none_case h0 (Or.inr (Or.inr (Or.inr (Or.inr (Or.inr (Or.inr (Or.inr
          ⟨hte, fun _ => rfl, by show c.size ≤ 24; rw [h0]; decide, rfl⟩)))))))
      · by_cases h24 : c.size ≤ 24
        · exact some_case (Or.inr (Or.inr (Or.inr (Or.inr (Or.inr (Or.inr (Or.inr ⟨hte, fun h => absurd h h0, h24, rfl⟩)))))))
        · rw [hargs, if_neg h0] at h2
          refine ⟨{ type := "double"ₛ, size := c.size, scale := c.scale },
            Or.inr (Or.inr (Or.inr (Or.inr (Or.inr (Or.inr (Or.inl ⟨by show "double"ₛ ∈ _; decide, fun h => absurd h h0, rfl⟩)))))),
            float_double h24 h2, rfl, by show "double"ₛ ∈ _; decide, fun v hv => absurd hv List.not_mem_nil,
            fun h => absurd h (by rw [hte]; decide), _, _, f,
            readType_eq (fun v hv => absurd hv List.not_mem_nil) (e := ("double"ₛ, "double"ₛ, .sized)) (by decide) rfl, ?_, Or.inl rfl⟩
          show fieldOf "double"ₛ (if c.size = 0 then [] else if c.scale = 0 then [itoa c.size.toNat]
            else [itoa c.size.toNat, itoa c.scale.toNat]) = some f
          rw [if_neg h0]
          exact double_of_float h24 h2
    all_goals
      by_cases h0 : c.size = 0
      · first
          | exact none_case h0 (Or.inr (Or.inr (Or.inr (Or.inr (Or.inr (Or.inr (Or.inl ⟨by show c.type ∈ _; rw [hte]; decide, fun _ => rfl, rfl⟩)))))))
          | exact none_case h0 (Or.inr (Or.inr (Or.inl ⟨by show c.type ∈ _; rw [hte]; decide, rfl, rfl⟩)))
      · first
          | exact some_case (Or.inr (Or.inr (Or.inr (Or.inr (Or.inr (Or.inr (Or.inl
              ⟨by show c.type ∈ _; rw [hte]; decide, fun h => absurd h h0, rfl⟩)))))))
          | exact some_case (Or.inr (Or.inr (Or.inl ⟨by show c.type ∈ _; rw [hte]; decide, one h0 fun x y => rfl, rfl⟩)))

theorem itoa_word (n : Nat) : Word (itoa n) ∧ ¬hasPrefix (itoa n) "fn::"ₛ = true := by
  obtain ⟨d, ds, h, hd⟩ := Json.itoa_cons n
  refine ⟨⟨itoa_ne_nil n, fun c hc => ?_⟩, ?_⟩
  · have hdig := itoa_digits n c hc
    have key : ∀ x : Char, isDigit x = false → c ≠ x := fun x hx e => by rw [e, hx] at hdig; cases hdig
    refine ⟨?_, ?_, key _ (by decide), key _ (by decide), key _ (by decide), key _ (by decide)⟩
    · by_contra hb
      rw [Bool.not_eq_false] at hb
      revert hb
      unfold isBlank
      simp [key ' ' (by decide), key '\t' (by decide), key '\n' (by decide), key '\r' (by decide)]
    · unfold isQuote
      simp [key '\'' (by decide), key '"' (by decide), key '`' (by decide)]
  · intro hpre
    obtain ⟨r, hr⟩ := (hasPrefix_iff _ _).1 hpre
    rw [h] at hr
    have : d = 'f' := (List.cons.inj hr).1
    rw [this] at hd
    exact absurd hd (by decide)

/-- What a default value becomes. -/
theorem default_settles {c : Column} (hp : PlainValue c.type c.defaultValue) (hk : KnownDefault c) {e : Expr}
    (he : exprOf (valueMeaning c.type c.defaultValue) = some e) {type : Str} (ht : c.type = "char"ₛ ∨ c.type = "varchar"ₛ → type = c.type) :
    PortableDefault type ((exprText e).getD []) ∧ PlainValue type ((exprText e).getD []) := by
  have now : PortableDefault type "fn::CURRENT_TIMESTAMP"ₛ ∧ PlainValue type "fn::CURRENT_TIMESTAMP"ₛ :=
    ⟨Or.inr (Or.inl rfl), Or.inr (Or.inl ⟨by decide, by unfold Word; decide⟩)⟩
  have nothing : PortableDefault type [] ∧ PlainValue type [] := ⟨Or.inl rfl, Or.inl rfl⟩
  have number : ∀ n, PortableDefault type (itoa n) ∧ PlainValue type (itoa n) := fun n => by
    obtain ⟨h1, h2⟩ := itoa_word n
    refine ⟨Or.inr (Or.inr (Or.inr ⟨n, rfl⟩)), Or.inr (Or.inr ⟨h2, ?_⟩)⟩
    split
    · exact ⟨not_mem_itoa (by decide) n, not_mem_itoa (by decide) n⟩
    · exact h1
  unfold valueMeaning at he
  by_cases hf : hasPrefix c.defaultValue "fn::"ₛ = true
  · rw [if_pos hf] at he
    dsimp only [exprOf] at he
    split at he
    · cases he
      exact now
    · cases he
  · rw [if_neg hf] at he
    by_cases hch : c.type = "char"ₛ ∨ c.type = "varchar"ₛ
    · rw [if_pos hch] at he
      cases he
      show PortableDefault type c.defaultValue ∧ PlainValue type c.defaultValue
      rw [ht hch]
      exact ⟨Or.inr (Or.inr (Or.inl ⟨hch, hf⟩)), hp⟩
    · rw [if_neg hch] at he
      dsimp only [exprOf] at he
      split at he
      · cases he; exact nothing
      · split at he
        · cases he; exact number 1
        · split at he
          · cases he; exact number 0
          · split at he
            · cases he; exact nothing
            · rename_i n1 n2 n3 n4
              cases he
              show PortableDefault type c.defaultValue ∧ PlainValue type c.defaultValue
              rcases hk with h | h | h | h | h | ⟨n, h⟩ | h | h
              · rw [h]; exact nothing
              · exact absurd h hf
              · exact absurd (Or.inl h) hch
              · exact absurd (Or.inr h) hch
              · simp only [List.mem_cons, List.not_mem_nil, or_false] at h
                rcases h with h | h | h
                · exact absurd h n1
                · exact absurd h n2
                · exact absurd h n3
              · rw [h]; exact number n
              · exact absurd (Or.inl h) n4
              · exact absurd (Or.inr h) n4

theorem said_default_none (n a : Bool) (ul : List Expr) (cm : Option Str) : lastSaid [] ((columnOptions n a [] ul cm).map defaultSaid) = [] := by
  refine lastSaid_nothing _ _ (map_none _ _ fun x hx => ?_)
  unfold columnOptions at hx
  simp only [List.mem_append, List.mem_map, List.not_mem_nil, false_and, exists_false, or_false] at hx
  rcases hx with ((hx | hx) | ⟨_, _, rfl⟩) | ⟨_, _, rfl⟩
  · split at hx
    · rw [List.mem_singleton] at hx; rw [hx]; rfl
    · cases hx
  · split at hx
    · rw [List.mem_singleton] at hx; rw [hx]; rfl
    · cases hx
  · rfl
  · rfl

theorem said_onUpdate_none (n a : Bool) (dl : List Expr) (cm : Option Str) : lastSaid [] ((columnOptions n a dl [] cm).map onUpdateSaid) = [] := by
  refine lastSaid_nothing _ _ (map_none _ _ fun x hx => ?_)
  unfold columnOptions at hx
  simp only [List.mem_append, List.mem_map, List.not_mem_nil, false_and, exists_false, or_false] at hx
  rcases hx with ((hx | hx) | ⟨_, _, rfl⟩) | ⟨_, _, rfl⟩
  · split at hx
    · rw [List.mem_singleton] at hx; rw [hx]; rfl
    · cases hx
  · split at hx
    · rw [List.mem_singleton] at hx; rw [hx]; rfl
    · cases hx
  · rfl
  · rfl

theorem said_comment (n a : Bool) (dl ul : List Expr) (cm : Option Str) :
    lastSaid [] ((columnOptions n a dl ul cm).map commentSaid) = cm.getD [] := by
  have h1 : ∀ y ∈ List.map commentSaid (dl.map ColOption.defaultValue), y = none :=
    map_none _ _ fun x hx => by obtain ⟨_, _, rfl⟩ := List.mem_map.1 hx; rfl
  have h2 : ∀ y ∈ List.map commentSaid (ul.map ColOption.onUpdate), y = none :=
    map_none _ _ fun x hx => by obtain ⟨_, _, rfl⟩ := List.mem_map.1 hx; rfl
  unfold columnOptions
  rw [List.map_append, List.map_append, List.map_append, List.map_append, List.append_assoc, List.append_assoc, List.append_assoc]
  rw [lastSaid_silent _ _ _ (by cases n <;> simp [commentSaid]), lastSaid_silent _ _ _ (by cases a <;> simp [commentSaid]),
    lastSaid_silent _ _ _ h1, lastSaid_silent _ _ _ h2]
  cases cm <;> rfl

/-- A column that was exported and imported is expressible, and its texts need no escaping. -/
theorem column_settles {c : Column} (hp : PlainColumn c) (hkd : KnownDefault c) (k : Keys) (d : ColumnDef)
    (hd : columnDefOf (ddlColumn Mysql.toMysqlColumnType c) = some d) :
    PlainColumn (column k d) ∧ KnownDefault (column k d) ∧ Expressible (column k d) ∧ (column k d).name = c.name ∧
      (column k d).primaryKey = k.pk.contains c.name ∧ (column k d).uniqueKey = k.uniq.contains c.name := by
  unfold columnDefOf ddlColumn at hd
  simp only [Option.bind_eq_some_iff] at hd
  obtain ⟨⟨base, args⟩, hr, f, hf, dl, hdl, ul, hul, hd⟩ := hd
  cases Option.some.inj hd
  obtain ⟨x, hx⟩ := type_back hp.type hp.values hr hf
  have hpt : ∀ y : Column, y.type = x.type → y.size = x.size → y.scale = x.scale → y.values = x.values → PortableType y := by
    intro y h1 h2 h3 h4
    have := hx.portable
    unfold PortableType at this ⊢
    rwa [h1, h2, h3, h4]
  have hdef : (dl = [] ∨ ∃ e, exprOf (valueMeaning c.type c.defaultValue) = some e ∧ dl = [e]) := by
    by_cases h0 : c.defaultValue = []
    · rw [if_pos h0] at hdl
      exact Or.inl (Option.some.inj hdl).symm
    · rw [if_neg h0] at hdl
      simp only [optionOf, Option.map_eq_some_iff] at hdl
      obtain ⟨e, he, rfl⟩ := hdl
      exact Or.inr ⟨e, he, rfl⟩
  have hupd : (ul = [] ∨ ul = [.func "CURRENT_TIMESTAMP"ₛ]) := by
    by_cases h0 : c.onUpdate = []
    · rw [if_pos h0] at hul
      exact Or.inl (Option.some.inj hul).symm
    · rw [if_neg h0] at hul
      simp only [optionOf, Option.map_eq_some_iff] at hul
      obtain ⟨e, he, rfl⟩ := hul
      unfold updateExprOf at he
      split at he
      · split at he
        · cases he; exact Or.inr rfl
        · cases he
      · cases he
  unfold column
  rw [← columnOptions]
  simp only [foldl_optionStep, hx.type, hx.values]
  have d1 : ∀ n a (cm : Option Str), PortableDefault x.type (lastSaid [] ((columnOptions n a dl ul cm).map defaultSaid)) ∧
      PlainValue x.type (lastSaid [] ((columnOptions n a dl ul cm).map defaultSaid)) := by
    intro n a cm
    rcases hdef with rfl | ⟨e, he, rfl⟩
    · rw [said_default_none]
      exact ⟨Or.inl rfl, Or.inl rfl⟩
    · rw [said_default]
      exact default_settles hp.default hkd he hx.text
  have u1 : ∀ n a (cm : Option Str), lastSaid [] ((columnOptions n a dl ul cm).map onUpdateSaid) = [] ∨
      lastSaid [] ((columnOptions n a dl ul cm).map onUpdateSaid) = "fn::CURRENT_TIMESTAMP"ₛ := by
    intro n a cm
    rcases hupd with rfl | rfl
    · rw [said_onUpdate_none]; exact Or.inl rfl
    · rw [said_onUpdate]; exact Or.inr rfl
  have known : ∀ v, PortableDefault x.type v → v = [] ∨ hasPrefix v "fn::"ₛ = true ∨ x.type = "char"ₛ ∨ x.type = "varchar"ₛ ∨ KnownLiteral v := by
    rintro v (h | h | h | h)
    · exact Or.inl h
    · rw [h]; exact Or.inr (Or.inl (by decide))
    · rcases h.1 with h | h
      · exact Or.inr (Or.inr (Or.inl h))
      · exact Or.inr (Or.inr (Or.inr (Or.inl h)))
    · exact Or.inr (Or.inr (Or.inr (Or.inr (Or.inr (Or.inl h)))))
  refine ⟨⟨hp.name, hx.known, fun v hv => hp.values v (hx.fewer v hv), ?_, (d1 _ _ _).2, ?_⟩, known _ (d1 _ _ _).1,
    ⟨hpt _ rfl rfl rfl rfl, (d1 _ _ _).1, u1 _ _ _, ?_, rfl⟩, trivial, ?_, trivial⟩
  · dsimp only
    rw [said_comment]
    by_cases h0 : c.description = []
    · rw [if_pos h0]
      exact ⟨List.not_mem_nil, List.not_mem_nil⟩
    · rw [if_neg h0]
      exact hp.description
  · dsimp only
    rcases u1 c.notNull c.autoIncremental (if c.description = [] then none else some c.description) with h | h
    · rw [h]; exact Or.inl rfl
    · rw [h]; exact Or.inr (Or.inl ⟨by decide, by unfold Word; decide⟩)
  · dsimp only
    rw [Bool.false_or, decide_eq_true_eq]
    intro ha
    have : c.autoIncremental = true := by
      unfold columnOptions at ha
      cases hau : c.autoIncremental with
      | true => rfl
      | false =>
        rw [hau] at ha
        cases hn : c.notNull <;> rw [hn] at ha <;> simp at ha
    rw [this, said_notNull]
  · rw [decide_eq_false (no_primaryKey _ _ _ _ _), Bool.or_false]

/-- A table that was exported and imported is expressible, and its texts need no escaping. -/
theorem table_settles {suffix : Str} {t u : Table} (hp : PlainTable t) (hkd : ∀ c ∈ t.columns, KnownDefault c)
    (h : thereAndBack suffix t = some u) : PlainTable u ∧ (∀ c ∈ u.columns, KnownDefault c) ∧ ExpressibleTable u := by
  obtain ⟨k, hk, kpk, kuq, kix⟩ := ddl_keys (suffix := suffix) (t := t)
  rw [thereAndBack_eq, Option.bind_eq_some_iff] at h
  obtain ⟨cols, hcols, h⟩ := h
  split at h
  · cases h
  rename_i hno
  rw [not_or, keyless_iff] at hno
  unfold importTable at h
  rw [hk, Option.map_some] at h
  cases Option.some.inj h
  have hf := List.forall₂_map_left_iff.1 (mapM_forall₂ hcols)
  have hall : ∀ x ∈ cols.map (column k), PlainColumn x ∧ KnownDefault x ∧ Expressible x ∧
      x.primaryKey = k.pk.contains x.name ∧ x.uniqueKey = k.uniq.contains x.name := by
    intro x hx
    obtain ⟨d, hd, rfl⟩ := List.mem_map.1 hx
    obtain ⟨c, hc, hcd⟩ := forall₂_mem_right hf d hd
    obtain ⟨h1, h2, h3, h4, h5, h6⟩ := column_settles (hp.columns c hc) (hkd c hc) k d hcd
    exact ⟨h1, h2, h3, by rw [h4, h5], by rw [h4, h6]⟩
  refine ⟨⟨hp.name, fun c hc => (hall c hc).1, ?_⟩, fun c hc => (hall c hc).2.1, fun c hc => (hall c hc).2.2.1, ?_, ?_, ?_, rfl, rfl, rfl⟩
  · dsimp only
    rw [kix]
    exact hp.indices
  · exact fun h => hno.1 (List.map_eq_nil_iff.1 h)
  · dsimp only
    rw [kix]
    exact fun i hi h0 => hno.2 ⟨i, hi, h0⟩
  · intro c hc d hd e
    rw [(hall c hc).2.2.2.1, (hall c hc).2.2.2.2, (hall d hd).2.2.2.1, (hall d hd).2.2.2.2, e]
    exact ⟨rfl, rfl⟩

theorem import_eq (filter : Option (Table → Bool)) (suffix : Str) (hsuf : UnescapedName suffix) (s : Schema)
    (hp : ∀ t ∈ s.tables, passes filter t = true → PlainTable t) (author version : Str) :
    (parseSql (Mysql.exportSchema filter suffix s)).bind (importSql [] author version) =
      ((s.tables.filter (passes filter)).mapM (thereAndBack suffix)).map fun ts =>
        { author := author, tables := ts, version := version } := by
  unfold parseSql
  rw [C17_read_back filter suffix hsuf s hp, Option.bind_some, ← stated_mapM]
  cases ((s.tables.filter (passes filter)).map (ddlTable Mysql.toMysqlColumnType suffix)).mapM stmtOf with
  | none => rfl
  | some sts =>
    simp only [Option.bind_some]
    exact importSql_eq ..

/-- C153: whatever exporting to MySQL and importing again makes of a schema, doing the same again changes nothing, with any suffix of
unique keys: what is lost is lost the first time. -/
theorem C153_settled (filter : Option (Table → Bool)) (suffix suffix' : Str) (hsuf : UnescapedName suffix) (hsuf' : UnescapedName suffix')
    (s : Schema) (hp : ∀ t ∈ s.tables, passes filter t = true → PlainTable t)
    (hk : ∀ t ∈ s.tables, passes filter t = true → ∀ c ∈ t.columns, KnownDefault c) (author version : Str) {s' : Schema}
    (h : (parseSql (Mysql.exportSchema filter suffix s)).bind (importSql [] author version) = some s') :
    (parseSql (Mysql.exportSchema none suffix' s')).bind (importSql [] author version) = some s' := by
  rw [import_eq filter suffix hsuf s hp, Option.map_eq_some_iff] at h
  obtain ⟨ts, hts, rfl⟩ := h
  have hall : ∀ u ∈ ts, PlainTable u ∧ (∀ c ∈ u.columns, KnownDefault c) ∧ ExpressibleTable u := by
    intro u hu
    obtain ⟨t, ht, htu⟩ := forall₂_mem_right (mapM_forall₂ hts) u hu
    obtain ⟨h1, h2⟩ := List.mem_filter.1 ht
    exact table_settles (hp t h1 h2) (hk t h1 h2) htu
  have := (C21_exact none suffix' hsuf' { author := author, tables := ts, version := version } (fun t ht _ => (hall t ht).1)
    (fun t ht _ => (hall t ht).2.1) author version).2 fun t ht _ => (hall t ht).2.2
  rw [this]
  congr 2
  exact List.filter_eq_self.2 fun _ _ => rfl

/-- The tables of `exPortable` in a group, with a description and a class name, which MySQL does not keep. -/
def settledDemo : Schema := { exPortable with
  tables := exPortable.tables.map fun t => { t with group := "g"ₛ, description := "d"ₛ, className := "C"ₛ } }

theorem settledDemo_tables : ∀ t ∈ settledDemo.tables, PlainTable t ∧ ∀ c ∈ t.columns, KnownDefault c := by
  intro t ht
  obtain ⟨u, hu, rfl⟩ := List.mem_map.1 ht
  have := (exPortable_tables u hu).toPlainTable
  exact ⟨⟨this.name, this.columns, this.indices⟩, exPortable_known u hu⟩

/-- C153: the first round trip changes a schema, the second does not. -/
example : ∃ s', (parseSql (Mysql.exportSchema none "_u"ₛ settledDemo)).bind (importSql [] [] []) = some s' ∧ s' ≠ settledDemo ∧
    s'.tables ≠ [] ∧ (parseSql (Mysql.exportSchema none "_w"ₛ s')).bind (importSql [] [] []) = some s' := by
  have h1 : UnescapedName "_u"ₛ := by unfold UnescapedName; decide +kernel
  have h2 : UnescapedName "_w"ₛ := by unfold UnescapedName; decide +kernel
  have hb : ((settledDemo.tables.filter (passes none)).mapM (thereAndBack "_u"ₛ)) = some exPortable.tables := by
    decide +kernel
  have h : (parseSql (Mysql.exportSchema none "_u"ₛ settledDemo)).bind (importSql [] [] []) = some { tables := exPortable.tables } := by
    rw [import_eq none _ h1 settledDemo fun t ht _ => (settledDemo_tables t ht).1, hb]
    rfl
  exact ⟨_, h, by decide +kernel, by decide +kernel, C153_settled none _ _ h1 h2 settledDemo (fun t ht _ => (settledDemo_tables t ht).1)
    (fun t ht _ => (settledDemo_tables t ht).2) [] [] h⟩

/-- Normalisation keeps what MySQL can express. -/
theorem norm_settled {u : Table} (h : PlainTable u ∧ (∀ c ∈ u.columns, KnownDefault c) ∧ ExpressibleTable u) :
    PlainTable (normTable u) ∧ (∀ c ∈ (normTable u).columns, KnownDefault c) ∧ ExpressibleTable (normTable u) := by
  obtain ⟨hp, hk, he⟩ := h
  have hc : ∀ c ∈ u.columns, normColumn c = { c with autoIncremental := c.autoIncremental && decide (canon c.type ∈ integerTypes) } := by
    intro c hc
    unfold normColumn
    rw [colTypes_canon _ (hp.columns c hc).type]
  have hx : ∀ x ∈ (normTable u).columns, ∃ c ∈ u.columns, x = { c with
      autoIncremental := c.autoIncremental && decide (canon c.type ∈ integerTypes) } := by
    intro x hx
    obtain ⟨c, h, rfl⟩ := List.mem_map.1 hx
    exact ⟨c, h, hc c h⟩
  refine ⟨⟨hp.name, fun x hx' => ?_, hp.indices⟩, fun x hx' => ?_, fun x hx' => ?_, ?_, he.indexed, ?_, he.noDescription, he.noGroup,
    he.noClassName⟩
  · obtain ⟨c, h, rfl⟩ := hx x hx'
    have := hp.columns c h
    exact ⟨this.name, this.type, this.values, this.description, this.default, this.onUpdate⟩
  · obtain ⟨c, h, rfl⟩ := hx x hx'
    exact hk c h
  · obtain ⟨c, h, rfl⟩ := hx x hx'
    have := he.columns c h
    exact ⟨this.type, this.default, this.onUpdate, fun ha => this.autoNotNull (Bool.and_eq_true_iff.1 ha).1, this.noRef⟩
  · exact fun h => he.hasColumns (List.map_eq_nil_iff.1 h)
  · intro x hx' y hy' e
    obtain ⟨c, h, rfl⟩ := hx x hx'
    obtain ⟨d, h', rfl⟩ := hx y hy'
    exact he.sameKeys c h d h' e

end Octo

namespace Octo.Cli
open Spec MysqlImport

/-- C153 on the command line: after `export mysql` and `import mysql` have succeeded, the same two commands on the imported file succeed
and leave the same tables. -/
theorem C153_commands (w : World) (hw : Faithful w) (hsql : w.sql = parseSql) (v v' u u' : Values) (fs : Files) (s : Schema)
    (hst : Stored w fs (v "input"ₛ) s) (hsuf : UnescapedName (v "uniqueNameSuffix"ₛ)) (hsuf' : UnescapedName (u "uniqueNameSuffix"ₛ))
    (hp : ∀ t ∈ s.tables, passes (getTableFilterFn (v "groups"ₛ)) t = true → PlainTable t)
    (hk : ∀ t ∈ s.tables, passes (getTableFilterFn (v "groups"ₛ)) t = true → ∀ c ∈ t.columns, KnownDefault c)
    (hin : v' "input"ₛ = v "output"ₛ) (ho : IsOctopus (v' "output"ₛ))
    (hwr : w.writable (pathOf (v "output"ₛ)) = true)
    (hn : ((s.tables.filter fun t => passes (getTableFilterFn (v "groups"ₛ)) t && decide (t.name ∉ split ',' (v' "excludes"ₛ))).map
      (·.name)).Nodup)
    (hok : (action w .importMysql v' (action w .exportMysql v fs).files).status = .ok)
    (hu : u "input"ₛ = v' "output"ₛ) (hg : u "groups"ₛ = []) (hu' : u' "input"ₛ = u "output"ₛ) (ho' : IsOctopus (u' "output"ₛ))
    (hx : ∀ t ∈ s.tables, t.name ∉ split ',' (u' "excludes"ₛ))
    (hwu : w.writable (pathOf (u "output"ₛ)) = true) (hwu' : w.writable (pathOf (u' "output"ₛ)) = true) {fs₁ : Files}
    (hfs₁ : (action w .importMysql v' (action w .exportMysql v fs).files).files = fs₁) :
    ∃ s₁, load w fs₁ (v' "output"ₛ) = some s₁ ∧
      (action w .exportMysql u fs₁).status = .ok ∧
      (action w .importMysql u' (action w .exportMysql u fs₁).files).status = .ok ∧
      load w (action w .importMysql u' (action w .exportMysql u fs₁).files).files (u' "output"ₛ) =
        some { author := u' "author"ₛ, version := u' "version"ₛ, tables := s₁.tables } := by
  set flt := getTableFilterFn (v "groups"ₛ) with hflt
  set suffix := v "uniqueNameSuffix"ₛ with hsx
  set ex := split ',' (v' "excludes"ₛ) with hex
  set sel := s.tables.filter (passes flt) with hsel
  have hfil : (s.tables.filter fun t => passes flt t && decide (t.name ∉ ex)) = sel.filter fun t => decide (t.name ∉ ex) := by
    rw [hsel, List.filter_filter]
    exact List.filter_congr fun t _ => Bool.and_comm _ _
  rw [hfil] at hn
  set kept := sel.filter fun t => decide (t.name ∉ ex) with hkept
  have hps : ∀ t ∈ sel, PlainTable t := fun t h => hp t (List.mem_filter.1 h).1 (List.mem_filter.1 h).2
  have hks : ∀ t ∈ sel, ∀ c ∈ t.columns, KnownDefault c := fun t h => hk t (List.mem_filter.1 h).1 (List.mem_filter.1 h).2
  set text := Mysql.exportSchema flt suffix s with htext
  set fs' := fs.set (pathOf (v "output"ₛ)) (.text text) with hfs'
  have e : action w .exportMysql v fs = ⟨fs', .ok⟩ := by
    show exportMysqlAction w v fs = _
    unfold exportMysqlAction
    rw [withSchema_some (load_stored hw hst)]
    unfold write
    rw [if_pos hwr]
  have hparse : parseSql text = (sel.map (ddlTable Mysql.toMysqlColumnType suffix)).mapM stmtOf := by
    unfold parseSql
    rw [htext, C17_read_back flt suffix hsuf s hp, Option.bind_some]
  have ha : action w .importMysql v' fs' = importMysqlAction w v' fs' := rfl
  have hread : (fs'.text (v' "input"ₛ)).bind w.sql = parseSql text := by
    unfold Files.text
    rw [hin, hfs', files_set_at, hsql]
    rfl
  rw [e, ha] at hok hfs₁
  unfold importMysqlAction at hok hfs₁
  rw [hread, hparse] at hok hfs₁
  cases hm : (sel.map (ddlTable Mysql.toMysqlColumnType suffix)).mapM stmtOf with
  | none => rw [hm] at hok; cases hok
  | some sts =>
    rw [hm] at hok hfs₁
    dsimp only at hok hfs₁
    rw [importSql_eq, stated_excludes suffix _ sel sts hm] at hok hfs₁
    cases hb : kept.mapM (thereAndBack suffix) with
    | none => rw [hb] at hok; cases hok
    | some us =>
      rw [hb] at hok hfs₁
      dsimp only [Option.map_some] at hok hfs₁
      set s₀ : Schema := { author := v' "author"ₛ, tables := us, version := v' "version"ₛ } with hs₀
      have hf := mapM_forall₂ hb
      have hnames : us.map (·.name) = kept.map (·.name) := by
        clear hn hb hok hfs₁ hs₀
        clear s₀
        revert hf
        generalize kept = l
        intro hf
        induction hf with
        | nil => rfl
        | cons h _ ih => rw [List.map_cons, List.map_cons, ih, (thereAndBack_name h).1]
      have hd : DistinctTables s₀ := by
        have hn' : (us.map (·.name)).Nodup := by rw [hnames]; exact hn
        rw [List.Nodup, List.pairwise_map] at hn'
        exact hn'.imp fun h h' => h h'.2
      have hst₁ : Stored w fs₁ (v' "output"ₛ) (s₀.normalize w.sorter).1 := by
        rw [← hfs₁]
        exact save_stored ho hd hok
      have hperm : (s₀.normalize w.sorter).1.tables.Perm (us.map normTable) := by
        obtain ⟨-, s₁, tx, -, ht, -, -⟩ := save_stored ho hd hok
        have : (s₀.normalize w.sorter).2 = none := by
          unfold save at hok
          split at hok
          · cases hok
          · rename_i tx e; exact toJson_ok e
        exact (C02_normalize_frame w.sorter hw.sorter s₀ this).1
      have hall : ∀ t ∈ (s₀.normalize w.sorter).1.tables, (PlainTable t ∧ (∀ c ∈ t.columns, KnownDefault c) ∧ ExpressibleTable t) ∧
          t.name ∉ split ',' (u' "excludes"ₛ) := by
        intro t ht
        obtain ⟨y, hy, rfl⟩ := List.mem_map.1 (hperm.mem_iff.1 ht)
        obtain ⟨x, hx', hxy⟩ := forall₂_mem_right hf y hy
        have hs := (List.mem_filter.1 hx').1
        refine ⟨norm_settled (table_settles (hps x hs) (hks x hs) hxy), ?_⟩
        have : (normTable y).name = x.name := (thereAndBack_name hxy).1
        rw [this]
        exact hx x (List.mem_filter.1 hs).1
      refine ⟨_, load_stored hw hst₁, ?_⟩
      have := (C120_exact w hw hsql u u' fs₁ (s₀.normalize w.sorter).1 (by rw [hu]; exact hst₁) hsuf'
        (fun t ht _ => (hall t ht).1.1) (fun t ht _ => (hall t ht).1.2.1) hu' ho' hwu hwu').2 (fun t ht _ => by
          rw [if_neg (hall t ht).2]
          exact (hall t ht).1.2.2)
      refine ⟨this.1, this.2.1, ?_⟩
      rw [this.2.2]
      congr 2
      refine List.filter_eq_self.2 fun t ht => ?_
      rw [hg, C10_empty, decide_eq_true (hall t ht).2]
      rfl

/-- What `import mysql` does after `export mysql`. -/
theorem import_after_export {w : World} (hw : Faithful w) (hsql : w.sql = parseSql) {v v' : Values} {fs : Files} {s : Schema}
    (hst : Stored w fs (v "input"ₛ) s) (hsuf : UnescapedName (v "uniqueNameSuffix"ₛ))
    (hp : ∀ t ∈ s.tables, passes (getTableFilterFn (v "groups"ₛ)) t = true → PlainTable t)
    (hin : v' "input"ₛ = v "output"ₛ) (hwr : w.writable (pathOf (v "output"ₛ)) = true) {sts : List Stmt} {us : List Table}
    (hm : ((s.tables.filter (passes (getTableFilterFn (v "groups"ₛ)))).map
      (ddlTable Mysql.toMysqlColumnType (v "uniqueNameSuffix"ₛ))).mapM stmtOf = some sts)
    (hb : ((s.tables.filter (passes (getTableFilterFn (v "groups"ₛ)))).filter
      fun t => decide (t.name ∉ split ',' (v' "excludes"ₛ))).mapM (thereAndBack (v "uniqueNameSuffix"ₛ)) = some us) :
    action w .importMysql v' (action w .exportMysql v fs).files =
      save w (fs.set (pathOf (v "output"ₛ)) (.text (Mysql.exportSchema (getTableFilterFn (v "groups"ₛ)) (v "uniqueNameSuffix"ₛ) s)))
        { author := v' "author"ₛ, tables := us, version := v' "version"ₛ } (v' "output"ₛ) := by
  set text := Mysql.exportSchema (getTableFilterFn (v "groups"ₛ)) (v "uniqueNameSuffix"ₛ) s with htext
  have e : action w .exportMysql v fs = ⟨fs.set (pathOf (v "output"ₛ)) (.text text), .ok⟩ := by
    show exportMysqlAction w v fs = _
    unfold exportMysqlAction
    rw [withSchema_some (load_stored hw hst)]
    unfold write
    rw [if_pos hwr]
  have hread : ((fs.set (pathOf (v "output"ₛ)) (.text text)).text (v' "input"ₛ)).bind w.sql = some sts := by
    unfold Files.text
    rw [hin, files_set_at, hsql]
    show parseSql text = _
    unfold parseSql
    rw [htext, C17_read_back _ _ hsuf s hp, Option.bind_some]
    exact hm
  rw [e]
  show importMysqlAction w v' _ = _
  unfold importMysqlAction
  dsimp only
  rw [hread]
  dsimp only
  rw [importSql_eq, stated_excludes _ _ _ sts hm, hb]
  rfl

/-- C153: a schema whose group, description and class name are lost the first time. -/
example : ∃ (w : World) (v v' u u' : Values) (fs : Files) (s : Schema), Stored w fs (v "input"ₛ) s ∧ s.tables.length = 1 ∧
    (∀ t ∈ s.tables, ¬ExpressibleTable t) ∧
    ∃ s₁, load w (action w .importMysql v' (action w .exportMysql v fs).files).files (v' "output"ₛ) = some s₁ ∧
      load w (action w .importMysql u' (action w .exportMysql u
        (action w .importMysql v' (action w .exportMysql v fs).files).files).files).files (u' "output"ₛ) = some { tables := s₁.tables } := by
  have hw : Faithful { demoWorld with sql := parseSql } := by
    obtain ⟨a, b, c, d, e, f⟩ := demo_faithful
    exact ⟨a, b, c, d, e, f⟩
  obtain ⟨fs, s, h1, h2⟩ := stored_demo hw (s := settledDemo) (by unfold DistinctTables; decide +kernel) (fun t ht =>
    ⟨(C04_accepts_iff tableSort tableSort_spec settledDemo).mp (by decide +kernel) t ht, by revert t; decide +kernel⟩)
  have hs : ∀ t ∈ s.tables, t ∈ settledDemo.tables := fun t h => h2.mem_iff.mp h
  have hone : s.tables = settledDemo.tables := List.perm_singleton.1 h2
  have hp : ∀ t ∈ s.tables, PlainTable t := fun t h => (settledDemo_tables t (hs t h)).1
  have hsts : ∃ sts, ((s.tables.filter (passes (getTableFilterFn []))).map (ddlTable Mysql.toMysqlColumnType "_u"ₛ)).mapM stmtOf =
      some sts := by
    rw [hone]
    refine Option.isSome_iff_exists.1 ?_
    decide +kernel
  obtain ⟨sts, hm⟩ := hsts
  refine ⟨_, given [("input"ₛ, "a.json"ₛ), ("output"ₛ, "a.sql"ₛ), ("uniqueNameSuffix"ₛ, "_u"ₛ)],
    given [("input"ₛ, "a.sql"ₛ), ("output"ₛ, "b.json"ₛ)], given [("input"ₛ, "b.json"ₛ), ("output"ₛ, "b.sql"ₛ), ("uniqueNameSuffix"ₛ, "_w"ₛ)],
    given [("input"ₛ, "b.sql"ₛ), ("output"ₛ, "c.json"ₛ)], fs, s, h1, h2.length_eq, ?_, ?_⟩
  · intro t ht he
    have : ∀ t ∈ settledDemo.tables, t.group ≠ [] := by decide +kernel
    exact this t (hs t ht) he.noGroup
  have hone' := import_after_export (w := { demoWorld with sql := parseSql }) hw rfl
    (v := given [("input"ₛ, "a.json"ₛ), ("output"ₛ, "a.sql"ₛ), ("uniqueNameSuffix"ₛ, "_u"ₛ)])
    (v' := given [("input"ₛ, "a.sql"ₛ), ("output"ₛ, "b.json"ₛ)]) (us := exPortable.tables) h1 (by unfold UnescapedName; decide +kernel)
    (fun t h _ => hp t h) rfl (by decide +kernel) hm (by rw [hone]; decide +kernel)
  have hok := (save_status (w := { demoWorld with sql := parseSql }) hw.sorter
    (fs := fs.set (pathOf "a.sql"ₛ) (.text (Mysql.exportSchema (getTableFilterFn []) "_u"ₛ s)))
    (s := { tables := exPortable.tables }) (out := "b.json"ₛ) (by decide +kernel)).2
    ((C04_accepts_iff tableSort tableSort_spec { tables := exPortable.tables }).mp (by decide +kernel))
  obtain ⟨s₁, a, -, -, b⟩ := C153_commands { demoWorld with sql := parseSql } hw rfl
    (given [("input"ₛ, "a.json"ₛ), ("output"ₛ, "a.sql"ₛ), ("uniqueNameSuffix"ₛ, "_u"ₛ)])
    (given [("input"ₛ, "a.sql"ₛ), ("output"ₛ, "b.json"ₛ)])
    (given [("input"ₛ, "b.json"ₛ), ("output"ₛ, "b.sql"ₛ), ("uniqueNameSuffix"ₛ, "_w"ₛ)])
    (given [("input"ₛ, "b.sql"ₛ), ("output"ₛ, "c.json"ₛ)]) fs s h1
    (by unfold UnescapedName; decide +kernel) (by unfold UnescapedName; decide +kernel)
    (fun t h _ => (settledDemo_tables t (hs t h)).1) (fun t h _ => (settledDemo_tables t (hs t h)).2) rfl (by decide +kernel)
    (by decide +kernel) (by rw [hone]; decide +kernel) (by rw [hone']; exact hok) rfl rfl rfl (by decide +kernel) (fun t h => by
      have : ∀ t ∈ settledDemo.tables, t.name ∉ split ',' (given [("input"ₛ, "b.sql"ₛ), ("output"ₛ, "c.json"ₛ)] "excludes"ₛ) := by
        decide +kernel
      exact this t (hs t h)) (by decide +kernel) (by decide +kernel) rfl
  exact ⟨s₁, a, b⟩

end Octo.Cli
