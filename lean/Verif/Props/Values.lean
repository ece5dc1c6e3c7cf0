import Verif.Spec.Values
import Verif.Props.Gorm
import Verif.Props.Jpa
import Verif.Props.Protobuf

/-! Property C133: the fields of generated classes can have the values of their columns. -/

namespace Octo
open Spec

theorem mem_of_lookup {β : Type} {l : List (Str × β)} {x : Str} {b : β} (h : l.lookup x = some b) : (x, b) ∈ l := by
  rw [List.lookup_eq_some_iff] at h
  obtain ⟨l1, l2, e, _⟩ := h
  rw [e]
  exact List.mem_append_right _ (.head _)

theorem InBits.mono {b b' : Nat} {n : Int} (h : InBits b n) (hb : b ≤ b') : InBits b' n := by
  have hle : (2 : Int) ^ (b - 1) ≤ 2 ^ (b' - 1) := by
    exact_mod_cast Nat.pow_le_pow_right (by decide : 0 < 2) (by omega : b - 1 ≤ b' - 1)
  exact ⟨by have := h.1; omega, by have := h.2; omega⟩

/-! ### Go -/

theorem goTypeOf_cases (c : Column) : goTypeOf c = "interface{}"ₛ ∨
    ∃ p, (lower c.type, p) ∈ goTypes ∧ goTypeOf c = if c.notNull then p.1 else p.2 := by
  unfold goTypeOf
  cases h : goTypes.lookup (lower c.type) with
  | none => exact .inl rfl
  | some p => exact .inr ⟨p, mem_of_lookup h, rfl⟩

theorem go_either {c : Column} {p : Str × Str} {P : Str → Prop} (h : P p.1 ∧ P p.2) : P (if c.notNull then p.1 else p.2) := by
  split
  · exact h.1
  · exact h.2

theorem go_fits {c : Column} : (∀ v, Stores c v → GoHolds (goTypeOf c) v) ↔ GoFits c := by
  constructor
  · intro h
    constructor
    · rintro ⟨hb, hs⟩
      have ht : goTypeOf c = if c.notNull then "byte"ₛ else "*byte"ₛ := by
        unfold goTypeOf; rw [hb]; rfl
      have h256 : Stores c (.bits 256) := by
        refine ⟨hb, ?_⟩
        have : 2 ^ 9 ≤ 2 ^ bitSize c := Nat.pow_le_pow_right (by decide) (by unfold bitSize; omega)
        omega
      rcases h _ h256 with e | ⟨-, e⟩
      · rw [ht] at e
        split at e <;> exact absurd e (by decide)
      · exact absurd e (by decide)
    · rintro ⟨he, hn⟩
      have ht : goTypeOf c = "string"ₛ := by
        unfold goTypeOf; rw [he, hn.1]; rfl
      have : goTypeOf c ∈ goNullable := h .null hn
      rw [ht] at this
      exact absurd this (by decide)
  · rintro ⟨h1, h2⟩ v hv
    rcases goTypeOf_cases c with e | ⟨p, hp, e⟩
    · rw [e]
      cases v with
      | null => show _ ∈ goNullable; decide
      | int n => exact .inl rfl
      | bits n => exact .inl rfl
      | decimal m e => show _ ∈ _; decide
      | truth b => show _ ∈ _; decide
      | text s => show _ ∈ _; decide
      | other t => exact .inl rfl
    · rw [e]
      cases v with
      | null =>
        have hv : Nullable c := hv
        have : ∀ q ∈ goTypes, q.1 ≠ "enum"ₛ → q.2.2 ∈ goNullable := by decide
        rw [hv.1]
        exact this _ hp fun e => h2 ⟨e, hv⟩
      | int n =>
        obtain ⟨b, hb, hn⟩ := hv
        have key : ∀ q ∈ goTypes, ∀ r ∈ intBits, q.1 = r.1 → (∃ b ∈ goBits, goBits.lookup q.2.1 = some b.2 ∧ r.2 ≤ b.2) ∧
          ∃ b ∈ goBits, goBits.lookup q.2.2 = some b.2 ∧ r.2 ≤ b.2 := by decide
        obtain ⟨⟨b1, -, k1, k2⟩, ⟨b2, -, k3, k4⟩⟩ := key _ hp _ (mem_of_lookup hb) rfl
        exact .inr (go_either (P := fun ty => ∃ b, goBits.lookup ty = some b ∧ InBits b n) ⟨⟨_, k1, InBits.mono hn k2⟩, ⟨_, k3, InBits.mono hn k4⟩⟩)
      | bits n =>
        obtain ⟨hb, hn⟩ := hv
        have key : ∀ q ∈ goTypes, q.1 = "bit"ₛ → q.2.1 ∈ ["byte"ₛ, "*byte"ₛ] ∧ q.2.2 ∈ ["byte"ₛ, "*byte"ₛ] := by decide
        refine .inr ⟨go_either (P := fun ty => ty ∈ ["byte"ₛ, "*byte"ₛ]) (key _ hp hb), lt_of_lt_of_le hn (Nat.pow_le_pow_right (by decide) ?_)⟩
        unfold bitSize
        have : ¬8 < c.size.toNat := fun h => h1 ⟨hb, h⟩
        omega
      | decimal m e =>
        have key : ∀ q ∈ goTypes, q.1 = "decimal"ₛ → q.2.1 ∈ ["decimal.Decimal"ₛ, "decimal.NullDecimal"ₛ, "interface{}"ₛ] ∧
          q.2.2 ∈ ["decimal.Decimal"ₛ, "decimal.NullDecimal"ₛ, "interface{}"ₛ] := by decide
        exact go_either (P := fun ty => ty ∈ ["decimal.Decimal"ₛ, "decimal.NullDecimal"ₛ, "interface{}"ₛ]) (key _ hp hv.1)
      | truth b =>
        have key : ∀ q ∈ goTypes, q.1 = "boolean"ₛ → q.2.1 ∈ ["bool"ₛ, "null.Bool"ₛ, "interface{}"ₛ] ∧
          q.2.2 ∈ ["bool"ₛ, "null.Bool"ₛ, "interface{}"ₛ] := by decide
        exact go_either (P := fun ty => ty ∈ ["bool"ₛ, "null.Bool"ₛ, "interface{}"ₛ]) (key _ hp hv)
      | text s =>
        have key : ∀ q ∈ goTypes, q.1 ∈ textTypes ∨ q.1 = "enum"ₛ → q.2.1 ∈ ["string"ₛ, "null.String"ₛ, "interface{}"ₛ] ∧
          q.2.2 ∈ ["string"ₛ, "null.String"ₛ, "interface{}"ₛ] := by decide
        exact go_either (P := fun ty => ty ∈ ["string"ₛ, "null.String"ₛ, "interface{}"ₛ]) (key _ hp (hv.imp (·.1) (·.1)))
      | other t =>
        obtain ⟨rfl, ht⟩ := hv
        have key : ∀ q ∈ goTypes, q.1 ∈ otherTypes → (∃ l ∈ goOthers, goOthers.lookup q.2.1 = some l.2 ∧ q.1 ∈ l.2) ∧
          ∃ l ∈ goOthers, goOthers.lookup q.2.2 = some l.2 ∧ q.1 ∈ l.2 := by decide
        obtain ⟨⟨b1, -, k1, k2⟩, ⟨b2, -, k3, k4⟩⟩ := key _ hp ht
        exact .inr (go_either (P := fun ty => ∃ l, goOthers.lookup ty = some l ∧ lower c.type ∈ l) ⟨⟨_, k1, k2⟩, ⟨_, k3, k4⟩⟩)

/-! ### Kotlin -/

theorem kt_plain {c : Column} {v : Value} (hv : Stores c v) (hn : v ≠ .null) :
    KtHoldsPlain (((ktTypes.lookup (lower c.type)).map (·.1)).getD "Any"ₛ) v := by
  cases h : ktTypes.lookup (lower c.type) with
  | none =>
    cases v with
    | null => exact absurd rfl hn
    | int n => exact .inl rfl
    | bits n => rfl
    | decimal m e => show _ ∈ _; decide
    | truth b => show _ ∈ _; decide
    | text s => show _ ∈ _; decide
    | other t => exact .inl rfl
  | some p =>
    have hp := mem_of_lookup h
    show KtHoldsPlain p.1 v
    cases v with
    | null => exact absurd rfl hn
    | int n =>
      obtain ⟨b, hb, hn⟩ := hv
      have key : ∀ q ∈ ktTypes, ∀ r ∈ intBits, q.1 = r.1 → ∃ b ∈ [("Int"ₛ, 32), ("Long"ₛ, 64)],
        [("Int"ₛ, 32), ("Long"ₛ, 64)].lookup q.2.1 = some b.2 ∧ r.2 ≤ b.2 := by decide
      obtain ⟨b1, -, k1, k2⟩ := key _ hp _ (mem_of_lookup hb) rfl
      exact .inr ⟨_, k1, InBits.mono hn k2⟩
    | bits n =>
      have key : ∀ q ∈ ktTypes, q.1 ≠ "bit"ₛ := by decide
      exact absurd hv.1 (key _ hp)
    | decimal m e =>
      have key : ∀ q ∈ ktTypes, q.1 = "decimal"ₛ → q.2.1 ∈ ["BigDecimal"ₛ, "Any"ₛ] := by decide
      exact key _ hp hv.1
    | truth b =>
      have key : ∀ q ∈ ktTypes, q.1 = "boolean"ₛ → q.2.1 ∈ ["Boolean"ₛ, "Any"ₛ] := by decide
      exact key _ hp hv
    | text s =>
      have key : ∀ q ∈ ktTypes, q.1 ∈ textTypes ∨ q.1 = "enum"ₛ → q.2.1 ∈ ["String"ₛ, "Any"ₛ] := by decide
      exact key _ hp (hv.imp (·.1) (·.1))
    | other t =>
      obtain ⟨rfl, ht⟩ := hv
      have key : ∀ q ∈ ktTypes, q.1 ∈ otherTypes → ∃ l ∈ [("Float"ₛ, ["float"ₛ]), ("Double"ₛ, ["float"ₛ, "double"ₛ]), ("Timestamp"ₛ, ["datetime"ₛ]), ("LocalDate"ₛ, ["date"ₛ]),
          ("LocalTime"ₛ, ["time"ₛ]), ("Blob"ₛ, ["blob8"ₛ, "blob16"ₛ, "blob24"ₛ, "blob32"ₛ])],
        [("Float"ₛ, ["float"ₛ]), ("Double"ₛ, ["float"ₛ, "double"ₛ]), ("Timestamp"ₛ, ["datetime"ₛ]), ("LocalDate"ₛ, ["date"ₛ]),
          ("LocalTime"ₛ, ["time"ₛ]), ("Blob"ₛ, ["blob8"ₛ, "blob16"ₛ, "blob24"ₛ, "blob32"ₛ])].lookup q.2.1 = some l.2 ∧ q.1 ∈ l.2 := by decide
      obtain ⟨l, -, k1, k2⟩ := key _ hp ht
      exact .inr ⟨_, k1, k2⟩

theorem kt_fits {c : Column} {v : Value} (hv : Stores c v) : KtHolds (ktTypeOf c) v := by
  unfold ktTypeOf
  by_cases hn : v = .null
  · subst hn
    rw [(show Nullable c from hv).1]
    exact .inr ⟨_, rfl, .inl rfl⟩
  · cases c.notNull with
    | true => rw [if_pos rfl, List.append_nil]; exact .inl (kt_plain hv hn)
    | false => exact .inr ⟨_, rfl, .inr (kt_plain hv hn)⟩

/-! ### Protocol buffers -/

theorem double_of_small {m : Int} (h : m.natAbs < 10 ^ 15) : Double m 0 := by
  refine ⟨m, 0, 0, ?_, by simp⟩
  have : (10 : Nat) ^ 15 ≤ 2 ^ 53 := by decide
  omega

/-- A fraction of ten is no double. -/
theorem not_double_tenth {e : Nat} (he : e ≠ 0) : ¬Double 1 e := by
  rintro ⟨k, a, b, -, h⟩
  have h5 : (5 : Int) ∣ 2 ^ a := by
    rw [one_mul] at h
    rw [h]
    exact Dvd.dvd.mul_left ((show (5 : Int) ∣ 10 by decide).trans (dvd_pow_self _ he)) _
  have h5' : 5 ∣ 2 ^ a := by exact_mod_cast h5
  clear h h5
  induction a with
  | zero => omega
  | succ a ih => rw [pow_succ] at h5'; exact ih (by omega)

/-- The largest integer of more than 15 digits is no double. -/
theorem not_double_nines {p : Nat} (hp : 15 < p) : ¬Double (10 ^ p - 1) 0 := by
  rintro ⟨k, a, b, hk, h⟩
  rw [pow_zero, mul_one] at h
  have hbig : (2 : Nat) ^ 53 < 10 ^ p - 1 := by
    have : 10 ^ 16 ≤ 10 ^ p := Nat.pow_le_pow_right (by decide) hp
    have : (2 : Nat) ^ 53 < 10 ^ 16 - 1 := by decide
    omega
  have h1 : (10 ^ p - 1) * 2 ^ a = k.natAbs * 2 ^ b := by
    have := congrArg Int.natAbs h
    rw [Int.natAbs_mul, Int.natAbs_mul, Int.natAbs_pow, Int.natAbs_pow] at this
    have e : ((10 : Int) ^ p - 1).natAbs = 10 ^ p - 1 := by
      have : ((10 : Int) ^ p - 1) = ((10 ^ p - 1 : Nat) : Int) := by
        rw [Nat.cast_sub (Nat.one_le_pow _ _ (by decide))]; push_cast; rfl
      rw [this, Int.natAbs_natCast]
    rw [e] at this
    exact this
  rcases Nat.le_total b a with hab | hab
  · obtain ⟨d, rfl⟩ := Nat.exists_eq_add_of_le hab
    rw [pow_add, mul_comm (2 ^ b), ← mul_assoc] at h1
    have h2 := Nat.eq_of_mul_eq_mul_right (by positivity) h1
    have : 1 ≤ 2 ^ d := Nat.one_le_two_pow
    have h3 : (10 ^ p - 1) * 1 ≤ (10 ^ p - 1) * 2 ^ d := Nat.mul_le_mul_left _ this
    omega
  · obtain ⟨d, rfl⟩ := Nat.exists_eq_add_of_le hab
    rw [pow_add, mul_comm (2 ^ a) (2 ^ d), ← mul_assoc] at h1
    have h2 := Nat.eq_of_mul_eq_mul_right (by positivity) h1
    have : 1 ≤ 2 ^ d := Nat.one_le_two_pow
    have h3 : k.natAbs * 2 ^ d ≥ k.natAbs * 1 := Nat.mul_le_mul_left _ this
    have hd : 2 ^ d ∣ 10 ^ p - 1 := h2 ▸ Nat.dvd_mul_left _ _
    have : 2 ^ d = 1 := by
      cases d with
      | zero => rfl
      | succ d =>
        obtain ⟨x, hx⟩ := hd
        obtain ⟨p, rfl⟩ : ∃ q, p = q + 1 := ⟨p - 1, by omega⟩
        rw [pow_succ, pow_succ, mul_assoc, mul_comm (2 ^ d), mul_assoc] at hx
        omega
    rw [this] at h2
    omega

theorem protoTypeOf_cases (c : Column) : (lower c.type ∉ protoTypes.map Prod.fst ∧ protoTypeOf c.type = c.type) ∨
    (lower c.type, protoTypeOf c.type) ∈ protoTypes := by
  unfold protoTypeOf
  cases h : protoTypes.lookup (lower c.type) with
  | none =>
    refine .inl ⟨fun hm => ?_, rfl⟩
    rw [List.lookup_eq_none_iff] at h
    obtain ⟨q, hq, e⟩ := List.mem_map.1 hm
    have := h q hq
    rw [e] at this
    simp at this
  | some p => exact .inr (mem_of_lookup h)

theorem lower_known {x : Str} (h : lower x ∉ protoTypes.map Prod.fst) (hx : lower x ∈ colTypes) :
    lower x ∉ ["google.protobuf.Timestamp"ₛ, "int32"ₛ, "int64"ₛ, "double"ₛ, "float"ₛ] ∧ x ≠ "google.protobuf.Timestamp"ₛ ∧ x ≠ "int32"ₛ ∧ x ≠ "int64"ₛ ∧
      x ≠ "double"ₛ ∧ x ≠ "float"ₛ ∧ x ≠ "bool"ₛ ∧ x ≠ "string"ₛ := by
  have key : ∀ y ∈ colTypes, y ∉ protoTypes.map Prod.fst →
      y ∉ ["google.protobuf.Timestamp"ₛ, "int32"ₛ, "int64"ₛ, "double"ₛ, "float"ₛ] ∧ y ≠ lower "google.protobuf.Timestamp"ₛ ∧ y ≠ lower "int32"ₛ ∧ y ≠ lower "int64"ₛ ∧
      y ≠ lower "double"ₛ ∧ y ≠ lower "float"ₛ ∧ y ≠ lower "bool"ₛ ∧ y ≠ lower "string"ₛ := by decide
  obtain ⟨h0, h1, h2, h3, h4, h5, h6, h7⟩ := key _ hx h
  exact ⟨h0, fun e => h1 (congrArg lower e), fun e => h2 (congrArg lower e), fun e => h3 (congrArg lower e), fun e => h4 (congrArg lower e),
    fun e => h5 (congrArg lower e), fun e => h6 (congrArg lower e), fun e => h7 (congrArg lower e)⟩

theorem proto_fits {c : Column} (hc : lower c.type ∈ colTypes) : (∀ v, Stores c v → ProtoHolds (protoTypeOf c.type) v) ↔ ProtoFits c := by
  constructor
  · intro h
    refine ⟨fun hn => ?_, fun hd => ⟨?_, ?_⟩, fun ho => ?_, fun hb => ?_, fun he => ?_⟩
    · have e : protoTypeOf c.type = "google.protobuf.Timestamp"ₛ := h .null hn
      rcases protoTypeOf_cases c with ⟨h1, h2⟩ | h1
      · exact absurd (h2.symm.trans e) (lower_known h1 hc).2.1
      · have key : ∀ q ∈ protoTypes, q.2 = "google.protobuf.Timestamp"ₛ → q.1 = "datetime"ₛ := by decide
        exact key _ h1 e
    · by_contra hs
      have h1 : Stores c (.decimal 1 c.scale.toNat) := by
        refine ⟨hd, rfl, ?_⟩
        have : 1 ≤ precision c := by
          unfold precision
          split
          · decide
          · rename_i hz
            have : c.size.toNat ≠ 0 := fun e => hz (UInt16.toNat_inj.1 e)
            omega
        have : 10 ^ 1 ≤ 10 ^ precision c := Nat.pow_le_pow_right (by decide) this
        show 1 < _
        omega
      exact not_double_tenth (fun e => hs (UInt16.toNat_inj.1 e)) (h _ h1).2
    · by_contra hs
      have hscale : c.scale = 0 := by
        by_contra hs
        have h1 : Stores c (.decimal 1 c.scale.toNat) := by
          refine ⟨hd, rfl, ?_⟩
          have : 10 ^ 1 ≤ 10 ^ precision c := Nat.pow_le_pow_right (by decide) (by omega)
          show 1 < _
          omega
        exact not_double_tenth (fun e => hs (UInt16.toNat_inj.1 e)) (h _ h1).2
      have h1 : Stores c (.decimal (10 ^ precision c - 1) 0) := by
        refine ⟨hd, by rw [hscale]; rfl, ?_⟩
        have : 1 ≤ 10 ^ precision c := Nat.one_le_pow _ _ (by decide)
        have e : ((10 : Int) ^ precision c - 1) = ((10 ^ precision c - 1 : Nat) : Int) := by
          rw [Nat.cast_sub this]; push_cast; rfl
        rw [e, Int.natAbs_natCast]
        omega
      exact not_double_nines (by omega) (h _ h1).2
    · obtain ⟨l, h1, h2⟩ := h (.other (lower c.type)) ⟨rfl, ho⟩
      have h1 := mem_of_lookup h1
      have key : ∀ q ∈ [("float"ₛ, ["float"ₛ]), ("double"ₛ, ["float"ₛ, "double"ₛ]), ("google.protobuf.Timestamp"ₛ, ["datetime"ₛ])],
        ∀ x ∈ q.2, x ∈ ["float"ₛ, "double"ₛ, "datetime"ₛ] := by decide
      exact key _ h1 _ h2
    · exact h (.bits 0) ⟨hb, by positivity⟩
    · by_contra hv
      obtain ⟨x, hx⟩ := List.exists_mem_of_ne_nil _ hv
      have e : protoTypeOf c.type = "string"ₛ := h (.text x) (.inr ⟨he, hx⟩)
      rcases protoTypeOf_cases c with ⟨h1, h2⟩ | h1
      · exact (lower_known h1 hc).2.2.2.2.2.2.2 (h2.symm.trans e)
      · have key : ∀ q ∈ protoTypes, q.1 ≠ "enum"ₛ := by decide
        exact key _ h1 he
  · rintro ⟨h1, h2, h3, h4, h5⟩ v hv
    cases v with
    | null =>
      have hd := h1 hv
      show protoTypeOf c.type = _
      unfold protoTypeOf
      rw [hd]; rfl
    | int n =>
      obtain ⟨b, hb, hn⟩ := hv
      have key : ∀ r ∈ intBits, ∃ b ∈ [("int32"ₛ, 32), ("int64"ₛ, 64)],
        [("int32"ₛ, 32), ("int64"ₛ, 64)].lookup ((protoTypes.lookup r.1).getD []) = some b.2 ∧ r.2 ≤ b.2 ∧ (protoTypes.lookup r.1).isSome = true := by decide
      obtain ⟨b1, -, k1, k2, k3⟩ := key _ (mem_of_lookup hb)
      obtain ⟨ty, hty⟩ := Option.isSome_iff_exists.1 k3
      refine ⟨b1.2, ?_, InBits.mono hn k2⟩
      unfold protoTypeOf
      rw [hty] at k1 ⊢
      exact k1
    | bits n => exact h4 hv.1
    | decimal m e =>
      obtain ⟨hd, rfl, hm⟩ := hv
      obtain ⟨hs, hp⟩ := h2 hd
      refine ⟨?_, ?_⟩
      · unfold protoTypeOf; rw [hd]; rfl
      · rw [hs]
        exact double_of_small (lt_of_lt_of_le hm (Nat.pow_le_pow_right (by decide) hp))
    | truth b =>
      show protoTypeOf c.type = _
      unfold protoTypeOf; rw [show lower c.type = _ from hv]; rfl
    | text x =>
      rcases hv with ⟨hv, -⟩ | ⟨he, hx⟩
      · show protoTypeOf c.type = _
        have key : ∀ y ∈ textTypes, protoTypes.lookup y = some "string"ₛ := by decide
        unfold protoTypeOf
        rw [key _ hv]; rfl
      · rw [h5 he] at hx; cases hx
    | other t =>
      obtain ⟨rfl, ht⟩ := hv
      have key : ∀ y ∈ ["float"ₛ, "double"ₛ, "datetime"ₛ], ∃ l ∈ [("float"ₛ, ["float"ₛ]), ("double"ₛ, ["float"ₛ, "double"ₛ]), ("google.protobuf.Timestamp"ₛ, ["datetime"ₛ])],
        [("float"ₛ, ["float"ₛ]), ("double"ₛ, ["float"ₛ, "double"ₛ]), ("google.protobuf.Timestamp"ₛ, ["datetime"ₛ])].lookup ((protoTypes.lookup y).getD []) = some l.2 ∧
          y ∈ l.2 ∧ (protoTypes.lookup y).isSome = true := by decide
      obtain ⟨l, -, k1, k2, k3⟩ := key _ (h3 ht)
      obtain ⟨ty, hty⟩ := Option.isSome_iff_exists.1 k3
      refine ⟨l.2, ?_, k2⟩
      unfold protoTypeOf
      rw [hty] at k1 ⊢
      exact k1

/-! ### The generated files -/

theorem forall₂_imp_left {α β : Type} {R S : α → β → Prop} {l : List α} {m : List β} (h : List.Forall₂ R l m)
    (hi : ∀ a ∈ l, ∀ b, R a b → S a b) : List.Forall₂ S l m := by
  induction h with
  | nil => exact .nil
  | cons h _ ih => exact .cons (hi _ (.head _) _ h) (ih fun a ha => hi a (.tail _ ha))

/-- C133 (GORM, exact): the field of a column can have every value that the column can have, exactly when the column is neither a bit
field of more than eight bits nor a nullable enumeration. -/
theorem C133_gorm_partial {sc : Strcase} {o : Gorm.GormOption} {s : Schema} {ords : Nat → (Gorm.Models → Gorm.Models) × (Gorm.Models → Gorm.Models)} {models : Gorm.Models}
    (hc : CleanCase sc) (hp : PlainGorm o s) (ho : Schedules ords) (hm : Registered models) :
    ∃ f, readGo (Gorm.generate sc ords models o s).1 = some f ∧
      List.Forall₂ (fun (t : Table) (d : GoStructDecl) => ∃ chosen, Embeds (Gorm.register models o.embed) (t.columns.map (·.name)) chosen ∧
        List.Forall₂ (fun (c : Column) (f : GoFieldDecl) => f.name = goFieldName sc c.name ∧ ((∀ v, Stores c v → GoHolds f.type v) ↔ GoFits c))
          (ownColumns chosen t) (d.fields.take (ownColumns chosen t).length)) (GormSelected o s) f.structs := by
  obtain ⟨f, h1, h2, -⟩ := C59_columns hc hp ho hm
  refine ⟨f, h1, h2.imp fun t d ⟨_, chosen, h3, _, h4, _⟩ => ⟨chosen, h3, h4.imp fun c f ⟨h5, h6, _⟩ => ⟨h5, ?_⟩⟩⟩
  rw [h6]
  exact go_fits

/-- A schema with bit fields and an enumeration. -/
def bitsSchema : Schema :=
  { tables := [{ name := "t_user"ₛ, columns := [
      { name := "id"ₛ, type := "int64"ₛ, primaryKey := true, notNull := true }, { name := "on"ₛ, type := "bit"ₛ, size := 8 },
      { name := "flags"ₛ, type := "bit"ₛ, size := 16, notNull := true }, { name := "kind"ₛ, type := "enum"ₛ, values := ["a"ₛ, "b"ₛ] }] }] }

/-- C133 (GORM) fails as stated: for wide bit fields and nullable enumerations.  The first two columns fit. -/
theorem C133_gorm_violated : PlainGorm gormOption bitsSchema ∧ ∃ t ∈ GormSelected gormOption bitsSchema, ∃ a b c d, t.columns = [a, b, c, d] ∧
    GoFits a ∧ GoFits b ∧ ¬GoFits c ∧ ¬GoFits d := by
  refine ⟨gormOption_plain rfl rfl rfl rfl (by decide +kernel) (by decide +kernel) (by decide +kernel), _, .head _, _, _, _, _, rfl, ?_, ?_, ?_, ?_⟩
  · exact ⟨fun h => absurd h.1 (by decide), fun h => absurd h.1 (by decide)⟩
  · exact ⟨fun h => absurd h.2 (by decide), fun h => absurd h.1 (by decide)⟩
  · exact fun h => h.1 (by decide)
  · exact fun h => h.2 ⟨by decide, rfl, rfl⟩

/-- C133 (Kotlin): the property of a column can have every value that the column can have. -/
theorem C133_kotlin {sc : Strcase} {o : Jpa.KtOption} {s : Schema} {t : Table} {f : KtFile} (h : JpaDescribes sc o s t f) :
    ∃ e rest, f.classes = e :: rest ∧
      List.Forall₂ (fun (c : Column) p => p.name = sc.toLowerCamel c.name ∧ ∀ v, Stores c v → KtHolds p.type v) t.columns e.properties := by
  obtain ⟨e, rest, h1, h2⟩ := C61_once h
  refine ⟨e, rest, h1, ?_⟩
  generalize e.properties = ps at h2
  generalize t.columns = cs at h2
  induction cs generalizing ps with
  | nil => cases ps with
    | nil => exact .nil
    | cons p ps => cases h2
  | cons c cs ih => cases ps with
    | nil => cases h2
    | cons p ps =>
      rw [List.map_cons, List.map_cons] at h2
      obtain ⟨h3, h4⟩ := List.cons.inj h2
      refine .cons ⟨congrArg Prod.fst h3, fun v hv => ?_⟩ (ih ps h4)
      rw [show p.type = ktTypeOf c from congrArg Prod.snd h3]
      exact kt_fits hv

/-- C133 (protocol buffers, exact): the field of a column can have every value that the column can have, exactly when the column is not
nullable (or a time), has a supported type, and is no decimal with fractions or more than 15 digits. -/
theorem C133_protobuf_partial {sc : Strcase} {o : Protobuf.PbOption} {s : Schema} {text : Str} (hc : CleanCase sc) (hp : PlainProto o s)
    (hty : ∀ t ∈ s.tables, ∀ c ∈ t.columns, lower c.type ∈ colTypes) (h : Protobuf.generate sc o s = some text) :
    ∃ f, readProto text = some f ∧
      List.Forall₂ (fun (t : Table) (m : ProtoMessage) => List.Forall₂ (fun (c : Column) (f : ProtoField) => f.name = protoFieldName sc c ∧
        ((∀ v, Stores c v → ProtoHolds f.type v) ↔ ProtoFits c)) t.columns (m.fields.take t.columns.length)) (Selected o s) f.messages := by
  obtain ⟨f, h1, h2, -⟩ := C57_types hc hp h
  refine ⟨f, h1, forall₂_imp_left h2 fun t ht m hd => forall₂_imp_left hd.columns fun c hc f hf => ⟨hf.1, ?_⟩⟩
  rw [hf.2]
  exact proto_fits (hty t (List.mem_filter.1 ht).1 c hc)

/-- C133 (protocol buffers) fails as stated: for every nullable column of the example, and for decimals and bits. -/
theorem C133_protobuf_violated : (PlainProto protoOption protoSchema ∧ (Protobuf.generate strcase protoOption protoSchema).isSome = true ∧
      ∃ t ∈ Selected protoOption protoSchema, ∃ a b, t.columns = [a, b] ∧ ¬ProtoFits a ∧ ¬ProtoFits b) ∧
    ¬ProtoFits { name := "price"ₛ, type := "decimal"ₛ, size := 10, scale := 2, notNull := true } ∧
    ¬ProtoFits { name := "n"ₛ, type := "decimal"ₛ, size := 20, notNull := true } ∧
    ¬ProtoFits { name := "b"ₛ, type := "bit"ₛ, notNull := true } :=
  ⟨⟨protoSchema_plain _ rfl rfl rfl rfl, by decide +kernel, _, .head _, _, _, rfl, fun h => absurd (h.1 ⟨rfl, rfl⟩) (by decide),
      fun h => absurd (h.1 ⟨rfl, rfl⟩) (by decide)⟩,
    fun h => absurd (h.2.1 (by decide)).1 (by decide), fun h => absurd (h.2.1 (by decide)).2 (by decide), fun h => h.2.2.2.1 (by decide)⟩

/-- C133: columns that fit. -/
example : ProtoFits { name := "n"ₛ, type := "decimal"ₛ, size := 15, notNull := true } ∧
    ProtoFits { name := "at"ₛ, type := "datetime"ₛ } ∧ ProtoFits { name := "id"ₛ, type := "int64"ₛ, primaryKey := true } :=
  ⟨⟨fun h => absurd h.1 (by decide), fun _ => ⟨rfl, by decide⟩, fun h => absurd h (by decide), by decide, fun h => absurd h (by decide)⟩,
    ⟨fun _ => by decide, fun h => absurd h (by decide), fun _ => by decide, by decide, fun h => absurd h (by decide)⟩,
    ⟨fun h => absurd h.2 (by decide), fun h => absurd h (by decide), fun h => absurd h (by decide), by decide, fun h => absurd h (by decide)⟩⟩

end Octo
