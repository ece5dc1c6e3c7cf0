import Verif.Props.Settled
import Verif.Lemmas.ProtobufMessages

/-! MySQL scripts from elsewhere: imported, exported and imported again. -/

namespace Octo.Spec
open MysqlImport

/-- A length as the tool stores it: none, or sixteen bits of it. -/
def storedLength (n : Int) : Nat := if n > 0 then n.toNat % 65536 else 0

/-- The declarations of MySQL types that come back after they have been imported, exported and imported again.  Declarations that the
importer copies as text (`TypeNull` and types that it does not know) are left out. -/
def SurvivingType (f : FieldType) : Prop :=
  match f.tp with
  | .tiny => f.flen = 1 ∨ storedLength f.flen ≠ 1
  | .bit => f.flen = 1 ∨ 2 ≤ storedLength f.flen
  | .varchar => storedLength f.flen ≠ 0
  | .string => f.binaryFlag = true → storedLength f.flen = 0
  | .decimal | .newDecimal | .double => storedLength f.flen = 0 → storedLength f.decimal = 0
  | .float => (storedLength f.flen = 0 → storedLength f.decimal = 0) ∧ storedLength f.flen ≤ 24
  | .enum | .set => f.elems ≠ []
  | .geometry | .null | .other => False
  | _ => True

end Octo.Spec

namespace Octo
open Spec MysqlImport

theorem stored_zero (n : Int) : (if n > 0 then UInt16.ofNat n.toNat else 0 : UInt16) = 0 ↔ storedLength n = 0 := by
  unfold storedLength
  split
  · rw [← UInt16.toNat_inj, UInt16.toNat_ofNat']
    rfl
  · simp

theorem stored_toNat (n : Int) : (if n > 0 then UInt16.ofNat n.toNat else 0 : UInt16).toNat = storedLength n := by
  unfold storedLength
  split
  · rw [UInt16.toNat_ofNat']
  · rfl

/-- Membership of a literal in the lists of `PortableType`, once and for all. -/
theorem portable_plain {c : Column} (h : c.type ∈ ["blob8"ₛ, "blob16"ₛ, "blob24"ₛ, "blob32"ₛ, "text8"ₛ, "text16"ₛ, "text24"ₛ, "text32"ₛ,
    "date"ₛ, "datetime"ₛ, "time"ₛ, "year"ₛ, "json"ₛ, "boolean"ₛ]) (h1 : c.size = 0) (h2 : c.scale = 0) (h3 : c.values = []) : PortableType c := by
  refine Or.inl ⟨?_, h1, h2, h3⟩
  revert h
  generalize c.type = t
  revert t
  decide +kernel

/-- The alternatives of `PortableType` that a type can meet. -/
theorem portable_cases {c : Column} (h : PortableType c) :
    (c.type = "binary"ₛ → c.size = 0) ∧ (c.type ∈ ["enum"ₛ, "set"ₛ] → c.values ≠ []) ∧ (c.type = "int8"ₛ → c.size ≠ 1) ∧
    (c.type = "bit"ₛ → c.size ≠ 0 ∧ c.size ≠ 1) ∧ (c.type = "varchar"ₛ → c.size ≠ 0) ∧
    (c.type ∈ ["decimal"ₛ, "double"ₛ, "float"ₛ] → c.size = 0 → c.scale = 0) ∧ (c.type = "float"ₛ → c.size ≤ 24) ∧ c.type ≠ "geometry"ₛ := by
  unfold PortableType at h
  have d1 : ∀ t ∈ ["blob8"ₛ, "blob16"ₛ, "blob24"ₛ, "blob32"ₛ, "text8"ₛ, "text16"ₛ, "text24"ₛ, "text32"ₛ, "date"ₛ,
      "datetime"ₛ, "time"ₛ, "year"ₛ, "json"ₛ, "boolean"ₛ, "binary"ₛ], t ∉ ["enum"ₛ, "set"ₛ] ∧ t ≠ "int8"ₛ ∧ t ≠ "bit"ₛ ∧ t ≠ "varchar"ₛ ∧
      t ∉ ["decimal"ₛ, "double"ₛ, "float"ₛ] ∧ t ≠ "float"ₛ ∧ t ≠ "geometry"ₛ := by decide +kernel
  have d2 : ∀ t ∈ ["enum"ₛ, "set"ₛ], t ≠ "binary"ₛ ∧ t ≠ "int8"ₛ ∧ t ≠ "bit"ₛ ∧ t ≠ "varchar"ₛ ∧
      t ∉ ["decimal"ₛ, "double"ₛ, "float"ₛ] ∧ t ≠ "float"ₛ ∧ t ≠ "geometry"ₛ := by decide +kernel
  have d3 : ∀ t ∈ ["char"ₛ, "int16"ₛ, "int24"ₛ, "int32"ₛ, "int64"ₛ], t ≠ "binary"ₛ ∧ t ∉ ["enum"ₛ, "set"ₛ] ∧ t ≠ "int8"ₛ ∧ t ≠ "bit"ₛ ∧
      t ≠ "varchar"ₛ ∧ t ∉ ["decimal"ₛ, "double"ₛ, "float"ₛ] ∧ t ≠ "float"ₛ ∧ t ≠ "geometry"ₛ := by decide +kernel
  have d4 : ∀ t ∈ ["int8"ₛ], t ≠ "binary"ₛ ∧ t ∉ ["enum"ₛ, "set"ₛ] ∧ t ≠ "bit"ₛ ∧
      t ≠ "varchar"ₛ ∧ t ∉ ["decimal"ₛ, "double"ₛ, "float"ₛ] ∧ t ≠ "float"ₛ ∧ t ≠ "geometry"ₛ := by decide +kernel
  have d5 : ∀ t ∈ ["bit"ₛ], t ≠ "binary"ₛ ∧ t ∉ ["enum"ₛ, "set"ₛ] ∧ t ≠ "int8"ₛ ∧
      t ≠ "varchar"ₛ ∧ t ∉ ["decimal"ₛ, "double"ₛ, "float"ₛ] ∧ t ≠ "float"ₛ ∧ t ≠ "geometry"ₛ := by decide +kernel
  have d6 : ∀ t ∈ ["varchar"ₛ], t ≠ "binary"ₛ ∧ t ∉ ["enum"ₛ, "set"ₛ] ∧ t ≠ "int8"ₛ ∧ t ≠ "bit"ₛ ∧
      t ∉ ["decimal"ₛ, "double"ₛ, "float"ₛ] ∧ t ≠ "float"ₛ ∧ t ≠ "geometry"ₛ := by decide +kernel
  have d7 : ∀ t ∈ ["decimal"ₛ, "double"ₛ], t ≠ "binary"ₛ ∧ t ∉ ["enum"ₛ, "set"ₛ] ∧ t ≠ "int8"ₛ ∧ t ≠ "bit"ₛ ∧ t ≠ "varchar"ₛ ∧
      t ≠ "float"ₛ ∧ t ≠ "geometry"ₛ := by decide +kernel
  have d8 : ∀ t ∈ ["float"ₛ], t ≠ "binary"ₛ ∧ t ∉ ["enum"ₛ, "set"ₛ] ∧ t ≠ "int8"ₛ ∧ t ≠ "bit"ₛ ∧ t ≠ "varchar"ₛ ∧
      t ≠ "geometry"ₛ := by decide +kernel
  rcases h with ⟨ht, h1, h2, h3⟩ | ⟨ht, h1, h2, h3⟩ | ⟨ht, h1, h2⟩ | ⟨ht, h1, h2, h3⟩ | ⟨ht, h0, h1, h2, h3⟩ | ⟨ht, h1, h2, h3⟩ |
    ⟨ht, h1, h2⟩ | ⟨ht, h1, h2, h3⟩
  · obtain ⟨x2, x3, x4, x5, x6, x7, x8⟩ := d1 _ ht
    exact ⟨fun _ => h1, fun e => absurd e x2, fun e => absurd e x3, fun e => absurd e x4, fun e => absurd e x5, fun e => absurd e x6,
      fun e => absurd e x7, x8⟩
  · obtain ⟨x1, x3, x4, x5, x6, x7, x8⟩ := d2 _ ht
    exact ⟨fun e => absurd e x1, fun _ => h3, fun e => absurd e x3, fun e => absurd e x4, fun e => absurd e x5, fun e => absurd e x6,
      fun e => absurd e x7, x8⟩
  · obtain ⟨x1, x2, x3, x4, x5, x6, x7, x8⟩ := d3 _ ht
    exact ⟨fun e => absurd e x1, fun e => absurd e x2, fun e => absurd e x3, fun e => absurd e x4, fun e => absurd e x5, fun e => absurd e x6,
      fun e => absurd e x7, x8⟩
  · obtain ⟨x1, x2, x4, x5, x6, x7, x8⟩ := d4 _ (List.mem_singleton.2 ht)
    exact ⟨fun e => absurd e x1, fun e => absurd e x2, fun _ => h1, fun e => absurd e x4, fun e => absurd e x5, fun e => absurd e x6,
      fun e => absurd e x7, x8⟩
  · obtain ⟨x1, x2, x3, x5, x6, x7, x8⟩ := d5 _ (List.mem_singleton.2 ht)
    exact ⟨fun e => absurd e x1, fun e => absurd e x2, fun e => absurd e x3, fun _ => ⟨h0, h1⟩, fun e => absurd e x5, fun e => absurd e x6,
      fun e => absurd e x7, x8⟩
  · obtain ⟨x1, x2, x3, x4, x6, x7, x8⟩ := d6 _ (List.mem_singleton.2 ht)
    exact ⟨fun e => absurd e x1, fun e => absurd e x2, fun e => absurd e x3, fun e => absurd e x4, fun _ => h1, fun e => absurd e x6,
      fun e => absurd e x7, x8⟩
  · obtain ⟨x1, x2, x3, x4, x5, x7, x8⟩ := d7 _ ht
    exact ⟨fun e => absurd e x1, fun e => absurd e x2, fun e => absurd e x3, fun e => absurd e x4, fun e => absurd e x5, fun _ => h1,
      fun e => absurd e x7, x8⟩
  · obtain ⟨x1, x2, x3, x4, x5, x8⟩ := d8 _ (List.mem_singleton.2 ht)
    exact ⟨fun e => absurd e x1, fun e => absurd e x2, fun e => absurd e x3, fun e => absurd e x4, fun e => absurd e x5, fun _ => h1,
      fun _ => h2, x8⟩

theorem stored_le (n : Int) (k : Nat) (hk : k < 65536) :
    (if n > 0 then UInt16.ofNat n.toNat else 0 : UInt16) ≤ UInt16.ofNat k ↔ storedLength n ≤ k := by
  rw [UInt16.le_iff_toNat_le, stored_toNat, UInt16.toNat_ofNat', Nat.mod_eq_of_lt hk]

theorem stored_is_one (n : Int) : (if n > 0 then UInt16.ofNat n.toNat else 0 : UInt16) = 1 ↔ storedLength n = 1 := by
  rw [← UInt16.toNat_inj, stored_toNat]
  rfl

/-- C155 for types: a declared type is one that MySQL gives back if and only if it is in this list. -/
theorem C155_type_exact (f : FieldType) (hn : f.tp ≠ .null) (ho : f.tp ≠ .other) (c : Column) (h1 : (c.type, c.size, c.scale) = columnType f)
    (h2 : c.values = columnValues (columnType f).1 f) : PortableType c ↔ SurvivingType f := by
  have hz := stored_zero f.flen
  have hd := stored_zero f.decimal
  have ho1 := stored_is_one f.flen
  have h1' : ∀ (t : Str) (x y : UInt16), (c.type, c.size, c.scale) = (t, x, y) → c.type = t ∧ c.size = x ∧ c.scale = y :=
    fun t x y e => ⟨congrArg (·.1) e, congrArg (·.2.1) e, congrArg (·.2.2) e⟩
  have hle := stored_le f.flen 24 (by decide)
  unfold columnType at h1 h2
  unfold SurvivingType
  dsimp only at h1 h2
  have hv : ∀ {t : Str} {f : FieldType}, t ≠ "enum"ₛ → t ≠ "set"ₛ → columnValues t f = [] := by
    intro t f a b
    unfold columnValues
    rw [if_neg a, if_neg b]
  cases htp : f.tp <;> rw [htp] at h1 h2 <;> dsimp only at h1 h2 ⊢
  case null => exact absurd htp hn
  case other => exact absurd htp ho
  case timestamp | date | duration | datetime | year | newDate | json =>
    obtain ⟨a1, a2, a3⟩ := h1' _ _ _ h1
    refine iff_of_true (portable_plain (by rw [a1]; decide +kernel) a2 a3 (by rw [h2]; exact hv (by decide +kernel) (by decide +kernel))) trivial
  case tinyBlob | mediumBlob | longBlob | blob =>
    split at h1 <;> rename_i hh <;> (first | rw [if_pos hh] at h2 | rw [if_neg hh] at h2) <;> obtain ⟨a1, a2, a3⟩ := h1' _ _ _ h1 <;>
    exact iff_of_true (portable_plain (by rw [a1]; decide +kernel) a2 a3 (by rw [h2]; exact hv (by decide +kernel) (by decide +kernel))) trivial
  case short | long | longlong | int24 =>
    obtain ⟨a1, a2, a3⟩ := h1' _ _ _ h1
    exact iff_of_true (Or.inr (Or.inr (Or.inl ⟨by rw [a1]; decide +kernel, a3, by rw [h2]; exact hv (by decide +kernel) (by decide +kernel)⟩))) trivial
  case geometry =>
    obtain ⟨a1, a2, a3⟩ := h1' _ _ _ h1
    exact iff_of_false (fun h => (portable_cases h).2.2.2.2.2.2.2 a1) id
  case enum | set =>
    obtain ⟨a1, a2, a3⟩ := h1' _ _ _ h1
    have hc : c.values = f.elems := h2
    rw [← hc]
    exact ⟨fun h => (portable_cases h).2.1 (by rw [a1]; decide +kernel), fun h => Or.inr (Or.inl ⟨by rw [a1]; decide +kernel, a2, a3, h⟩)⟩
  case varchar =>
    obtain ⟨a1, a2, a3⟩ := h1' _ _ _ h1
    rw [← a2] at hz
    have v : c.values = [] := by rw [h2]; exact hv (by decide +kernel) (by decide +kernel)
    exact ⟨fun h e => (portable_cases h).2.2.2.2.1 a1 (hz.2 e),
      fun h => Or.inr (Or.inr (Or.inr (Or.inr (Or.inr (Or.inl ⟨a1, fun e => h (hz.1 e), a3, v⟩)))))⟩
  case decimal | newDecimal | double =>
    obtain ⟨a1, a2, a3⟩ := h1' _ _ _ h1
    rw [← a2] at hz
    rw [← a3] at hd
    have v : c.values = [] := by rw [h2]; exact hv (by decide +kernel) (by decide +kernel)
    exact ⟨fun h e => hd.1 ((portable_cases h).2.2.2.2.2.1 (by rw [a1]; decide +kernel) (hz.2 e)),
      fun h => Or.inr (Or.inr (Or.inr (Or.inr (Or.inr (Or.inr (Or.inl ⟨by rw [a1]; decide +kernel, fun e => hd.2 (h (hz.1 e)), v⟩))))))⟩
  case float =>
    obtain ⟨a1, a2, a3⟩ := h1' _ _ _ h1
    rw [← a2] at hz hle
    rw [← a3] at hd
    have v : c.values = [] := by rw [h2]; exact hv (by decide +kernel) (by decide +kernel)
    exact ⟨fun h => ⟨fun e => hd.1 ((portable_cases h).2.2.2.2.2.1 (by rw [a1]; decide +kernel) (hz.2 e)), hle.1 ((portable_cases h).2.2.2.2.2.2.1 a1)⟩,
      fun h => Or.inr (Or.inr (Or.inr (Or.inr (Or.inr (Or.inr (Or.inr ⟨a1, fun e => hd.2 (h.1 (hz.1 e)), hle.2 h.2, v⟩))))))⟩
  case string =>
    cases hb : f.binaryFlag <;> rw [hb] at h1 h2
    · rw [if_neg Bool.false_ne_true] at h1 h2
      obtain ⟨a1, a2, a3⟩ := h1' _ _ _ h1
      exact iff_of_true (Or.inr (Or.inr (Or.inl ⟨by rw [a1]; decide +kernel, a3, by rw [h2]; exact hv (t := _) (by dsimp only; decide +kernel) (by dsimp only; decide +kernel)⟩)))
        (fun e => absurd e Bool.false_ne_true)
    · rw [if_pos rfl] at h1 h2
      obtain ⟨a1, a2, a3⟩ := h1' _ _ _ h1
      rw [← a2] at hz
      have v : c.values = [] := by rw [h2]; exact hv (t := _) (by dsimp only; decide +kernel) (by dsimp only; decide +kernel)
      exact ⟨fun h _ => hz.1 ((portable_cases h).1 a1), fun h => Or.inl ⟨by rw [a1]; decide +kernel, hz.2 (h rfl), a3, v⟩⟩
  case tiny =>
    by_cases hf : f.flen = 1
    · rw [if_pos hf] at h1 h2
      obtain ⟨a1, a2, a3⟩ := h1' _ _ _ h1
      exact iff_of_true (portable_plain (by rw [a1]; decide +kernel) a2 a3 (by rw [h2]; exact hv (t := _) (by dsimp only; decide +kernel) (by dsimp only; decide +kernel))) (Or.inl hf)
    · rw [if_neg hf] at h1 h2
      obtain ⟨a1, a2, a3⟩ := h1' _ _ _ h1
      rw [← a2] at ho1
      have v : c.values = [] := by rw [h2]; exact hv (t := _) (by dsimp only; decide +kernel) (by dsimp only; decide +kernel)
      exact ⟨fun h => Or.inr fun e => (portable_cases h).2.2.1 a1 (ho1.2 e),
        fun h => Or.inr (Or.inr (Or.inr (Or.inl ⟨a1, fun e => (h.resolve_left hf) (ho1.1 e), a3, v⟩)))⟩
  case bit =>
    by_cases hf : f.flen = 1
    · rw [if_pos hf] at h1 h2
      obtain ⟨a1, a2, a3⟩ := h1' _ _ _ h1
      exact iff_of_true (portable_plain (by rw [a1]; decide +kernel) a2 a3 (by rw [h2]; exact hv (t := _) (by dsimp only; decide +kernel) (by dsimp only; decide +kernel))) (Or.inl hf)
    · rw [if_neg hf] at h1 h2
      obtain ⟨a1, a2, a3⟩ := h1' _ _ _ h1
      rw [← a2] at ho1 hz
      have v : c.values = [] := by rw [h2]; exact hv (t := _) (by dsimp only; decide +kernel) (by dsimp only; decide +kernel)
      refine ⟨fun h => Or.inr ?_, fun h => ?_⟩
      · obtain ⟨b0, b1⟩ := (portable_cases h).2.2.2.1 a1
        have : storedLength f.flen ≠ 0 := fun e => b0 (hz.2 e)
        have : storedLength f.flen ≠ 1 := fun e => b1 (ho1.2 e)
        omega
      · have := h.resolve_left hf
        exact Or.inr (Or.inr (Or.inr (Or.inr (Or.inl ⟨a1, fun e => by have := hz.1 e; omega, fun e => by have := ho1.1 e; omega, a3, v⟩))))

end Octo

namespace Octo.Spec
open MysqlImport

/-- A default that comes back. -/
def SurvivingDefault (f : FieldType) (v : Str) : Prop :=
  v = [] ∨ v = "fn::CURRENT_TIMESTAMP"ₛ ∨ ((f.tp = .varchar ∨ f.tp = .string ∧ f.binaryFlag = false) ∧ ¬hasPrefix v "fn::"ₛ) ∨ ∃ n, v = itoa n

/-- The column is in the key: by an option of its own or by the constraints of the table. -/
def InPrimaryKey (csts : List Constraint) (d : ColumnDef) : Prop := .primaryKey ∈ d.options ∨ KeyedBy .primaryKey csts d.name

/-- The table definitions that come back after they have been imported, exported and imported again. -/
structure SurvivingTable (x : Created) : Prop where
  hasColumns : x.2.1 ≠ []
  types : ∀ d ∈ x.2.1, SurvivingType d.tp
  defaults : ∀ d ∈ x.2.1, SurvivingDefault d.tp (lastSaid [] (d.options.map defaultSaid))
  updates : ∀ d ∈ x.2.1, lastSaid [] (d.options.map onUpdateSaid) = [] ∨
    lastSaid [] (d.options.map onUpdateSaid) = "fn::CURRENT_TIMESTAMP"ₛ
  counters : ∀ d ∈ x.2.1, .autoIncrement ∈ d.options → lastSaid false (d.options.map nullability) = true
  indexed : ∀ c ∈ x.2.2, c.tp = .index → c.keys ≠ []
  sameKey : ∀ d ∈ x.2.1, ∀ e ∈ x.2.1, d.name = e.name → (InPrimaryKey x.2.2 d ↔ InPrimaryKey x.2.2 e)

end Octo.Spec

namespace Octo
open Spec MysqlImport

theorem default_exact (f : FieldType) (hn : f.tp ≠ .null) (ho : f.tp ≠ .other) (v : Str) :
    PortableDefault (columnType f).1 v ↔ SurvivingDefault f v := by
  have key : ((columnType f).1 = "char"ₛ ∨ (columnType f).1 = "varchar"ₛ) ↔ (f.tp = .varchar ∨ f.tp = .string ∧ f.binaryFlag = false) := by
    unfold columnType
    cases htp : f.tp <;> dsimp only
    case null => exact absurd htp hn
    case other => exact absurd htp ho
    case varchar => exact iff_of_true (Or.inr rfl) (Or.inl rfl)
    case string =>
      cases hb : f.binaryFlag
      · exact iff_of_true (Or.inl rfl) (Or.inr ⟨rfl, rfl⟩)
      · refine iff_of_false (fun h => ?_) (fun h => ?_)
        · rw [if_pos rfl] at h
          revert h
          dsimp only
          decide +kernel
        · rcases h with h | ⟨-, h⟩
          · cases h
          · cases h
    all_goals
      refine iff_of_false (fun h => ?_) (fun h => by rcases h with h | ⟨h, -⟩ <;> cases h)
      try (split at h)
      all_goals
        revert h
        try dsimp only
        decide +kernel
  unfold PortableDefault SurvivingDefault
  rw [key]

theorem column_said (k : Keys) (d : ColumnDef) :
    column k d =
      { name := d.name, type := (columnType d.tp).1, size := (columnType d.tp).2.1, scale := (columnType d.tp).2.2
        values := columnValues (columnType d.tp).1 d.tp
        primaryKey := k.pk.contains d.name || decide (.primaryKey ∈ d.options), uniqueKey := k.uniq.contains d.name
        autoIncremental := false || decide (.autoIncrement ∈ d.options)
        notNull := lastSaid false (d.options.map nullability)
        defaultValue := lastSaid [] (d.options.map defaultSaid)
        onUpdate := lastSaid [] (d.options.map onUpdateSaid)
        description := lastSaid [] (d.options.map commentSaid) } := by
  unfold column
  exact foldl_optionStep ..

theorem imported_exact {x : Created} {t : Table} (h : importTable x = some t) (hn : ∀ d ∈ x.2.1, d.tp.tp ≠ .null)
    (ho : ∀ d ∈ x.2.1, d.tp.tp ≠ .other) : ExpressibleTable t ↔ SurvivingTable x := by
  obtain ⟨k, hk, rfl⟩ := Option.map_eq_some_iff.1 h
  obtain ⟨hpk, huk, hix⟩ := constraints_spec _ _ _ hk
  have hcol := column_said k
  have hty : ∀ d : ColumnDef, ((column k d).type, (column k d).size, (column k d).scale) = columnType d.tp := fun d => by rw [hcol]
  have hvals : ∀ d : ColumnDef, (column k d).values = columnValues (columnType d.tp).1 d.tp := fun d => by rw [hcol]
  have hname : ∀ d : ColumnDef, (column k d).name = d.name := fun d => by rw [hcol]
  have hpkey : ∀ d : ColumnDef, (column k d).primaryKey = true ↔ InPrimaryKey x.2.2 d := fun d => by
    rw [hcol]
    unfold InPrimaryKey
    have := hpk d.name
    simp only [Bool.or_eq_true, decide_eq_true_eq]
    have he : d.name ∉ ({ } : Keys).pk.keys := fun h => by cases h
    have hc : k.pk.contains d.name = true ↔ d.name ∈ k.pk.keys := by
      unfold StringSet.contains
      simp
    rw [hc, this]
    tauto
  have hukey : ∀ d : ColumnDef, (column k d).uniqueKey = k.uniq.contains d.name := fun d => by rw [hcol]
  have hdef : ∀ d : ColumnDef, (column k d).defaultValue = lastSaid [] (d.options.map defaultSaid) := fun d => by rw [hcol]
  have hupd : ∀ d : ColumnDef, (column k d).onUpdate = lastSaid [] (d.options.map onUpdateSaid) := fun d => by rw [hcol]
  have hnn : ∀ d : ColumnDef, (column k d).notNull = lastSaid false (d.options.map nullability) := fun d => by rw [hcol]
  have hai : ∀ d : ColumnDef, (column k d).autoIncremental = true ↔ .autoIncrement ∈ d.options := fun d => by
    rw [hcol]
    simp
  have href : ∀ d : ColumnDef, (column k d).ref = none := fun d => by rw [hcol]
  have hindex : (∀ i ∈ k.indices, i.columns ≠ []) ↔ ∀ c ∈ x.2.2, c.tp = .index → c.keys ≠ [] := by
    have l : (∀ i ∈ k.indices, i.columns ≠ []) ↔ ∀ p ∈ k.indices.map (fun i => (i.name, i.columns.map some)), p.2 ≠ [] := by
      constructor
      · intro h0 p hp
        obtain ⟨i, hi, rfl⟩ := List.mem_map.1 hp
        exact fun e => h0 i hi (List.map_eq_nil_iff.1 e)
      · intro h0 i hi e
        exact h0 _ (List.mem_map.2 ⟨i, hi, rfl⟩) (List.map_eq_nil_iff.2 e)
    rw [l, hix]
    constructor
    · intro h0 c hc ht
      exact h0 (c.name, c.keys) (List.mem_append.2 (Or.inr (List.mem_map.2 ⟨c, List.mem_filter.2 ⟨hc, decide_eq_true ht⟩, rfl⟩)))
    · intro h0 p hp
      rcases List.mem_append.1 hp with h' | h'
      · cases h'
      · obtain ⟨c, hc, rfl⟩ := List.mem_map.1 h'
        obtain ⟨c1, c2⟩ := List.mem_filter.1 hc
        exact h0 c c1 (of_decide_eq_true c2)
  constructor
  · intro e
    have mc : ∀ d ∈ x.2.1, Expressible (column k d) := fun d hd => e.columns _ (List.mem_map.2 ⟨d, hd, rfl⟩)
    refine ⟨fun h0 => e.hasColumns (List.map_eq_nil_iff.2 h0), fun d hd => ?_, fun d hd => ?_, fun d hd => ?_, fun d hd ha => ?_, hindex.1 e.indexed,
      fun d hd d' hd' en => ?_⟩
    · exact (C155_type_exact _ (hn d hd) (ho d hd) _ (hty d) (hvals d)).1 (mc d hd).type
    · have := (mc d hd).default
      rw [show (column k d).type = (columnType d.tp).1 from congrArg (·.1) (hty d), hdef] at this
      exact (default_exact _ (hn d hd) (ho d hd) _).1 this
    · rw [← hupd]
      exact (mc d hd).onUpdate
    · rw [← hnn]
      exact (mc d hd).autoNotNull ((hai d).2 ha)
    · rw [← hpkey, ← hpkey, (e.sameKeys _ (List.mem_map.2 ⟨d, hd, rfl⟩) _ (List.mem_map.2 ⟨d', hd', rfl⟩) (by rw [hname, hname, en])).1]
  · intro e
    refine ⟨fun c hc => ?_, fun h0 => e.hasColumns (List.map_eq_nil_iff.1 h0), hindex.2 e.indexed, fun c hc c' hc' en => ?_, rfl, rfl, rfl⟩
    · obtain ⟨d, hd, rfl⟩ := List.mem_map.1 hc
      refine ⟨(C155_type_exact _ (hn d hd) (ho d hd) _ (hty d) (hvals d)).2 (e.types d hd), ?_, ?_, fun ha => ?_, href d⟩
      · rw [show (column k d).type = (columnType d.tp).1 from congrArg (·.1) (hty d), hdef]
        exact (default_exact _ (hn d hd) (ho d hd) _).2 (e.defaults d hd)
      · rw [hupd]
        exact e.updates d hd
      · rw [hnn]
        exact e.counters d hd ((hai d).1 ha)
    · obtain ⟨d, hd, rfl⟩ := List.mem_map.1 hc
      obtain ⟨d', hd', rfl⟩ := List.mem_map.1 hc'
      rw [hname, hname] at en
      refine ⟨Bool.eq_iff_iff.2 ?_, by rw [hukey, hukey, en]⟩
      rw [hpkey, hpkey]
      exact e.sameKey d hd d' hd' en

/-- C155: a script that has been imported, exported and imported again gives the same schema if and only if all its table definitions
are among those that survive. -/
theorem C155_exact (ex : List Str) (author version suffix : Str) (hsuf : UnescapedName suffix) (stmts : List Stmt) (s : Schema)
    (h : importSql ex author version stmts = some s) (hn : ∀ x ∈ statedTables ex stmts, ∀ d ∈ x.2.1, d.tp.tp ≠ .null ∧ d.tp.tp ≠ .other)
    (hp : ∀ t ∈ s.tables, PlainTable t) (hk : ∀ t ∈ s.tables, ∀ c ∈ t.columns, KnownDefault c) :
    (parseSql (Mysql.exportSchema none suffix s)).bind (importSql [] author version) = some s ↔
      ∀ x ∈ statedTables ex stmts, SurvivingTable x := by
  rw [importSql_eq] at h
  obtain ⟨ts, hts, rfl⟩ := Option.map_eq_some_iff.1 h
  have hf := mapM_forall₂ hts
  have := C21_exact none suffix hsuf { author := author, tables := ts, version := version } (fun t ht _ => hp t ht) (fun t ht _ => hk t ht)
    author version
  rw [show ts.filter (passes none) = ts from List.filter_eq_self.2 fun _ _ => rfl] at this
  rw [this]
  constructor
  · intro e x hx
    obtain ⟨t, ht, hxt⟩ := forall₂_mem_left hf _ hx
    exact (imported_exact hxt (fun d hd => (hn x hx d hd).1) (fun d hd => (hn x hx d hd).2)).1 (e t ht rfl)
  · intro e t ht _
    obtain ⟨x, hx, hxt⟩ := forall₂_mem_right hf _ ht
    exact (imported_exact hxt (fun d hd => (hn x hx d hd).1) (fun d hd => (hn x hx d hd).2)).2 (e x hx)

/-- C155: a script with more than the exporter would write: a table to be left out, a constraint that the importer does not know, `CHARACTER
SET`s and other options. -/
def elsewhere : List Stmt :=
  [.other,
   .createTable "user"ₛ
    [{ name := "id"ₛ, tp := { tp := .longlong }, options := [.notNull, .autoIncrement, .other] },
     { name := "name"ₛ, tp := { tp := .varchar, flen := 20 }
       options := [.null, .defaultValue (.value (some "a, b"ₛ)), .comment "the (full) name; unique"ₛ] },
     { name := "at"ₛ, tp := { tp := .timestamp }
       options := [.defaultValue (.func "CURRENT_TIMESTAMP"ₛ), .onUpdate (.func "CURRENT_TIMESTAMP"ₛ)] },
     { name := "price"ₛ, tp := { tp := .newDecimal, flen := 10, decimal := 2 }, options := [.defaultValue (.value (some "0"ₛ))] },
     { name := "kind"ₛ, tp := { tp := .enum, elems := ["x, y"ₛ, "z"ₛ] } }]
    [{ tp := .primaryKey, keys := [some "id"ₛ] }, { tp := .uniq, name := "u"ₛ, keys := [some "name"ₛ] },
     { tp := .index, name := "idx kind"ₛ, keys := [some "kind"ₛ, some "at"ₛ] }, { tp := .foreignKey, name := "fk"ₛ, keys := [some "kind"ₛ] }],
   .createTable "log"ₛ [] []]

theorem elsewhere_import : importSql ["log"ₛ] [] [] elsewhere = some exPortable := by decide +kernel

/-- C155 applies to a script that comes back. -/
example : (∀ x ∈ statedTables ["log"ₛ] elsewhere, SurvivingTable x) ∧
    (parseSql (Mysql.exportSchema none "_u"ₛ exPortable)).bind (importSql [] [] []) = importSql ["log"ₛ] [] [] elsewhere := by
  have h := C155_exact ["log"ₛ] [] [] "_u"ₛ (by unfold UnescapedName; decide +kernel) elsewhere exPortable elsewhere_import (by decide +kernel)
    (fun t ht => (exPortable_tables t ht).toPlainTable) exPortable_known
  have hs : ∀ x ∈ statedTables ["log"ₛ] elsewhere, SurvivingTable x := by
    refine h.1 ((C21_exact none _ (by unfold UnescapedName; decide +kernel) exPortable (fun t ht _ => (exPortable_tables t ht).toPlainTable)
      (fun t ht _ => exPortable_known t ht) [] []).2 fun t ht _ => exPortable_expressible t ht)
  exact ⟨hs, (h.2 hs).trans elsewhere_import.symm⟩

/-- C155: a key of sixteen bytes. -/
def digest : List Stmt :=
  [.createTable "file"ₛ [{ name := "hash"ₛ, tp := { tp := .string, flen := 16, binaryFlag := true }, options := [.notNull] }] []]

def digestSchema : Schema :=
  { tables := [{ name := "file"ₛ, columns := [{ name := "hash"ₛ, type := "binary"ₛ, size := 16, notNull := true }] }] }

/-- C155 does not hold for every script: `BINARY(16)` comes back as `BINARY`, because the exporter does not write the size of a binary
column. -/
theorem C155_violated : ∃ (stmts : List Stmt) (s : Schema), importSql [] [] [] stmts = some s ∧ (∀ t ∈ s.tables, PlainTable t) ∧
    ∀ suffix, UnescapedName suffix → (parseSql (Mysql.exportSchema none suffix s)).bind (importSql [] [] []) ≠ some s := by
  have hp : ∀ t ∈ digestSchema.tables, PlainTable t := by
    intro t ht
    obtain rfl := List.mem_singleton.1 ht
    have hw : ∀ s ∈ ["file"ₛ, "hash"ₛ], Word s := by unfold Word; decide +kernel
    refine ⟨hw _ (by decide +kernel), fun c hc => ?_, fun i hi => by cases hi⟩
    obtain rfl := List.mem_singleton.1 hc
    exact ⟨hw _ (by decide +kernel), by decide +kernel, fun v hv => (by cases hv), by unfold Unescaped; decide, Or.inl rfl, Or.inl rfl⟩
  have hi : importSql [] [] [] digest = some digestSchema := by decide +kernel
  refine ⟨digest, digestSchema, hi, hp, fun suffix hsuf he => ?_⟩
  have := (C155_exact [] [] [] suffix hsuf digest digestSchema hi (by decide +kernel) hp (fun t ht c hc => Or.inl (by
    obtain rfl := List.mem_singleton.1 ht
    obtain rfl := List.mem_singleton.1 hc
    rfl))).1 he _ (List.mem_singleton.2 rfl)
  have h16 := this.types _ (List.mem_singleton.2 rfl)
  exact absurd (h16 rfl) (by decide +kernel)

end Octo
