import Verif.Spec.JsonEdit
import Verif.Props.CliOrder
import Verif.Model.Ojson

/-! Hand-edited documents: property C140. -/

namespace Octo
open Spec Json

/-! ### Members -/

/-- A single member, when the key names it. -/
def memberAt (p : Str × Json) (key : String) : Option Json := if lower p.1 = lower key.toList then some p.2 else none

theorem field_nil (key : String) : field [] key = none := rfl

theorem field_append (a b : List (Str × Json)) (key : String) : field (a ++ b) key = (field b key).or (field a key) := by
  unfold field
  rw [List.reverse_append, List.find?_append]
  cases List.find? (fun p => lower p.1 == lower key.toList) b.reverse <;> rfl

theorem field_single (x : Str × Json) (key : String) : field [x] key = memberAt x key := by
  unfold field memberAt
  rw [List.reverse_singleton, List.find?_singleton]
  by_cases h : lower x.1 = lower key.toList
  · rw [if_pos h, if_pos (beq_iff_eq.2 h)]; rfl
  · rw [if_neg h, if_neg (fun e => h (beq_iff_eq.1 e))]; rfl

theorem field_mid (a b : List (Str × Json)) (x : Str × Json) (key : String) :
    field (a ++ x :: b) key = ((field b key).or (memberAt x key)).or (field a key) := by
  rw [field_append, show x :: b = [x] ++ b from rfl, field_append, field_single]

theorem field_absent {l : List (Str × Json)} {key : String} (h : ∀ p ∈ l, lower p.1 ≠ lower key.toList) : field l key = none := by
  unfold field
  rw [List.find?_eq_none.2]
  · rfl
  · intro p hp e
    exact h p (List.mem_reverse.1 hp) (beq_iff_eq.1 e)

/-- How the member of a key changes in an edit. -/
def FieldEdit (K : DocKind) (key : String) (x y : Option Json) : Prop :=
  x = y ∨ (x = some .null ∧ y = none) ∨ ∃ K' v v', docChild K key = some K' ∧ Edit K' v v' ∧ x = some v ∧ y = some v'

/-- Two keys that name the same member of an object are the same key. -/
theorem docKeys_inj {K : DocKind} {key key' : String} (hk : key ∈ docKeys K) (hk' : key' ∈ docKeys K)
    (e : lower key.toList = lower key'.toList) : key = key' := by
  have h : ∀ a ∈ docKeys K, ∀ b ∈ docKeys K, lower a.toList = lower b.toList → a = b := by cases K <;> decide
  exact h key hk key' hk' e

theorem edit_field {K : DocKind} {l l' : List (Str × Json)} (h : Edit K (.obj l) (.obj l')) {key : String} (hk : key ∈ docKeys K) :
    FieldEdit K key (field l key) (field l' key) := by
  cases h with
  | @swap _ a b x y hne =>
    left
    rw [field_mid, show y :: b = [y] ++ b from rfl, field_append, field_single, field_mid, show x :: b = [x] ++ b from rfl, field_append, field_single]
    by_cases hx : lower x.1 = lower key.toList
    · have hy : lower y.1 ≠ lower key.toList := fun e => hne (hx.trans e.symm)
      unfold memberAt
      rw [if_pos hx, if_neg hy]
      cases field b key <;> rfl
    · unfold memberAt
      rw [if_neg hx]
      cases field b key with
      | some v => rfl
      | none => cases (if lower y.1 = lower key.toList then some y.2 else none) <;> rfl
  | @unknown _ a b k v hu =>
    left
    rw [field_mid, field_append]
    unfold memberAt
    rw [if_neg (show ¬ lower k = lower key.toList from hu key hk)]
    cases field b key <;> rfl
  | @null _ a b k hn =>
    by_cases hx : lower k = lower key.toList
    · right; left
      have hab : field (a ++ b) key = none := field_absent fun p hp => by rw [← hx]; exact hn p hp
      refine ⟨?_, hab⟩
      rw [field_append] at hab
      rw [field_mid]
      unfold memberAt
      rw [if_pos hx]
      cases hb : field b key with
      | none => rfl
      | some v => rw [hb] at hab; cases hab
    · left
      rw [field_mid, field_append]
      unfold memberAt
      rw [if_neg hx]
      cases field b key <;> rfl
  | @case _ a b k k' v hc =>
    left
    rw [field_mid, field_mid]
    unfold memberAt
    rw [hc]
  | @again _ a b c k k' v v' hc ht =>
    left
    rw [field_mid, field_append a, field_mid b]
    by_cases hx : lower k = lower key.toList
    · have hx' : lower k' = lower key.toList := hc.symm.trans hx
      unfold memberAt
      rw [if_pos hx']
      cases field c key <;> rfl
    · unfold memberAt
      rw [if_neg hx, Option.or_none]
  | @member _ K' a b k key' v v' hk' hn hc he =>
    rw [field_mid, field_mid]
    by_cases hx : lower k = lower key.toList
    · have hkk : key' = key := docKeys_inj hk' hk (hn.symm.trans hx)
      subst hkk
      unfold memberAt
      rw [if_pos hx, if_pos hx]
      cases field b key' with
      | none => exact .inr (.inr ⟨K', v, v', hc, he, rfl, rfl⟩)
      | some u => exact .inl rfl
    · left
      unfold memberAt
      rw [if_neg hx, if_neg hx]

/-! ### Readers -/

theorem fieldEdit_str {K : DocKind} {key : String} {x y : Option Json} (h : FieldEdit K key x y) (hc : docChild K key = none) :
    toStr x = toStr y := by
  rcases h with h | ⟨h, h'⟩ | ⟨K', v, v', hc', _⟩
  · rw [h]
  · rw [h, h']; rfl
  · rw [hc] at hc'; cases hc'

theorem fieldEdit_num {K : DocKind} {key : String} {x y : Option Json} (h : FieldEdit K key x y) (hc : docChild K key = none) :
    toNum x = toNum y := by
  rcases h with h | ⟨h, h'⟩ | ⟨K', v, v', hc', _⟩
  · rw [h]
  · rw [h, h']; rfl
  · rw [hc] at hc'; cases hc'

theorem fieldEdit_bool {K : DocKind} {key : String} {x y : Option Json} (h : FieldEdit K key x y) (hc : docChild K key = none) :
    Json.toBool x = Json.toBool y := by
  rcases h with h | ⟨h, h'⟩ | ⟨K', v, v', hc', _⟩
  · rw [h]
  · rw [h, h']; rfl
  · rw [hc] at hc'; cases hc'

theorem fieldEdit_strs {K : DocKind} {key : String} {x y : Option Json} (h : FieldEdit K key x y) (hc : docChild K key = none) :
    toList (fun j => toStr (some j)) x = toList (fun j => toStr (some j)) y := by
  rcases h with h | ⟨h, h'⟩ | ⟨K', v, v', hc', _⟩
  · rw [h]
  · rw [h, h']; rfl
  · rw [hc] at hc'; cases hc'

theorem fieldEdit_list {α : Type} {f : Json → Option α} {K K' : DocKind} {key : String} {x y : Option Json} (h : FieldEdit K key x y)
    (hc : docChild K key = some K') (hf : ∀ v v', Edit K' v v' → toList f (some v) = toList f (some v')) : toList f x = toList f y := by
  rcases h with h | ⟨h, h'⟩ | ⟨K'', v, v', hc', he, hx, hy⟩
  · rw [h]
  · rw [h, h']; rfl
  · rw [hc] at hc'; cases hc'
    rw [hx, hy]; exact hf v v' he

/-- Readers of objects that give the same result before and after an edit do so for arrays. -/
theorem edit_list {α : Type} {f : Json → Option α} {K : DocKind} (hobj : ∀ v v', Edit K v v' → f v = f v') :
    ∀ v v', Edit K v v' → toList f (some v) = toList f (some v') := by
  intro v v' h
  cases h with
  | @element _ a b v v' h =>
    show (a ++ v :: b).mapM f = (a ++ v' :: b).mapM f
    rw [List.mapM_append, List.mapM_append, List.mapM_cons, List.mapM_cons, hobj v v' h]
  | _ => rfl

theorem edit_shape {K : DocKind} {v v' : Json} (h : Edit K v v') :
    (∃ l l', v = .obj l ∧ v' = .obj l') ∨ ∃ l l', v = .arr l ∧ v' = .arr l' := by
  cases h with
  | element _ => exact .inr ⟨_, _, rfl, rfl⟩
  | _ => exact .inl ⟨_, _, rfl, rfl⟩

theorem edit_reference (v v' : Json) (h : Edit .reference v v') : toReference v = toReference v' := by
  rcases edit_shape h with ⟨l, l', rfl, rfl⟩ | ⟨l, l', rfl, rfl⟩
  · have hf : ∀ key ∈ docKeys .reference, FieldEdit .reference key (field l key) (field l' key) := fun key hk => edit_field h hk
    unfold toReference
    dsimp only
    rw [fieldEdit_str (hf "table" (by decide)) rfl, fieldEdit_str (hf "column" (by decide)) rfl,
      fieldEdit_str (hf "relationship" (by decide)) rfl]
  · rfl

theorem edit_index (v v' : Json) (h : Edit .index v v') : toIndex v = toIndex v' := by
  rcases edit_shape h with ⟨l, l', rfl, rfl⟩ | ⟨l, l', rfl, rfl⟩
  · have hf : ∀ key ∈ docKeys .index, FieldEdit .index key (field l key) (field l' key) := fun key hk => edit_field h hk
    unfold toIndex
    dsimp only
    rw [fieldEdit_str (hf "name" (by decide)) rfl, fieldEdit_strs (hf "columns" (by decide)) rfl]
  · rfl

theorem edit_ptr {α : Type} {f : Json → Option α} {K K' : DocKind} {key : String} {x y : Option Json} (h : FieldEdit K key x y)
    (hc : docChild K key = some K') (hf : ∀ v v', Edit K' v v' → f v = f v') : toPtr f x = toPtr f y := by
  rcases h with h | ⟨h, h'⟩ | ⟨K'', v, v', hc', he, hx, hy⟩
  · rw [h]
  · rw [h, h']; rfl
  · rw [hc] at hc'; cases hc'
    rw [hx, hy]
    have hr := hf v v' he
    rcases edit_shape he with ⟨l, l', rfl, rfl⟩ | ⟨l, l', rfl, rfl⟩ <;> exact congrArg (Option.map some) hr

theorem edit_column (v v' : Json) (h : Edit .column v v') : toColumn v = toColumn v' := by
  rcases edit_shape h with ⟨l, l', rfl, rfl⟩ | ⟨l, l', rfl, rfl⟩
  · have hf : ∀ key ∈ docKeys .column, FieldEdit .column key (field l key) (field l' key) := fun key hk => edit_field h hk
    unfold toColumn
    dsimp only
    rw [fieldEdit_str (hf "name" (by decide)) rfl, fieldEdit_str (hf "type" (by decide)) rfl, fieldEdit_str (hf "desc" (by decide)) rfl,
      fieldEdit_num (hf "size" (by decide)) rfl, fieldEdit_num (hf "scale" (by decide)) rfl, fieldEdit_bool (hf "notnull" (by decide)) rfl,
      fieldEdit_bool (hf "pk" (by decide)) rfl, fieldEdit_bool (hf "unique" (by decide)) rfl, fieldEdit_bool (hf "autoinc" (by decide)) rfl,
      fieldEdit_str (hf "default" (by decide)) rfl, fieldEdit_str (hf "onupdate" (by decide)) rfl,
      fieldEdit_strs (hf "values" (by decide)) rfl, edit_ptr (hf "ref" (by decide)) rfl edit_reference]
  · rfl

theorem edit_table (v v' : Json) (h : Edit .table v v') : toTable v = toTable v' := by
  rcases edit_shape h with ⟨l, l', rfl, rfl⟩ | ⟨l, l', rfl, rfl⟩
  · have hf : ∀ key ∈ docKeys .table, FieldEdit .table key (field l key) (field l' key) := fun key hk => edit_field h hk
    unfold toTable
    dsimp only
    rw [fieldEdit_str (hf "name" (by decide)) rfl, fieldEdit_list (hf "columns" (by decide)) rfl (edit_list edit_column),
      fieldEdit_str (hf "desc" (by decide)) rfl, fieldEdit_str (hf "group" (by decide)) rfl, fieldEdit_str (hf "className" (by decide)) rfl,
      fieldEdit_list (hf "indices" (by decide)) rfl (edit_list edit_index)]
  · rfl

theorem edit_schema (v v' : Json) (h : Edit .schema v v') : toSchema v = toSchema v' := by
  rcases edit_shape h with ⟨l, l', rfl, rfl⟩ | ⟨l, l', rfl, rfl⟩
  · have hf : ∀ key ∈ docKeys .schema, FieldEdit .schema key (field l key) (field l' key) := fun key hk => edit_field h hk
    unfold toSchema
    dsimp only
    rw [fieldEdit_str (hf "author" (by decide)) rfl, fieldEdit_str (hf "name" (by decide)) rfl,
      fieldEdit_str (hf "version" (by decide)) rfl, fieldEdit_list (hf "tables" (by decide)) rfl (edit_list edit_table)]
  · rfl

theorem edit_reference1 (v v' : Json) (h : Edit .reference1 v v') : Ojson.toReference v = Ojson.toReference v' := by
  rcases edit_shape h with ⟨l, l', rfl, rfl⟩ | ⟨l, l', rfl, rfl⟩
  · have hf : ∀ key ∈ docKeys .reference1, FieldEdit .reference1 key (field l key) (field l' key) := fun key hk => edit_field h hk
    unfold Ojson.toReference
    dsimp only
    rw [fieldEdit_str (hf "table" (by decide)) rfl, fieldEdit_str (hf "column" (by decide)) rfl]
  · rfl

theorem edit_column1 (v v' : Json) (h : Edit .column1 v v') : Ojson.toColumn v = Ojson.toColumn v' := by
  rcases edit_shape h with ⟨l, l', rfl, rfl⟩ | ⟨l, l', rfl, rfl⟩
  · have hf : ∀ key ∈ docKeys .column1, FieldEdit .column1 key (field l key) (field l' key) := fun key hk => edit_field h hk
    unfold Ojson.toColumn
    dsimp only
    rw [fieldEdit_str (hf "name" (by decide)) rfl, fieldEdit_str (hf "type" (by decide)) rfl,
      fieldEdit_str (hf "description" (by decide)) rfl,
      fieldEdit_num (hf "size" (by decide)) rfl, fieldEdit_num (hf "scale" (by decide)) rfl, fieldEdit_bool (hf "notnull" (by decide)) rfl,
      fieldEdit_bool (hf "pk" (by decide)) rfl, fieldEdit_bool (hf "unique" (by decide)) rfl, fieldEdit_bool (hf "autoinc" (by decide)) rfl,
      fieldEdit_str (hf "default" (by decide)) rfl, edit_ptr (hf "ref" (by decide)) rfl edit_reference1]
  · rfl

theorem edit_table1 (v v' : Json) (h : Edit .table1 v v') : Ojson.toTable v = Ojson.toTable v' := by
  rcases edit_shape h with ⟨l, l', rfl, rfl⟩ | ⟨l, l', rfl, rfl⟩
  · have hf : ∀ key ∈ docKeys .table1, FieldEdit .table1 key (field l key) (field l' key) := fun key hk => edit_field h hk
    unfold Ojson.toTable
    dsimp only
    rw [fieldEdit_str (hf "name" (by decide)) rfl, fieldEdit_list (hf "columns" (by decide)) rfl (edit_list edit_column1),
      fieldEdit_str (hf "desc" (by decide)) rfl, fieldEdit_str (hf "group" (by decide)) rfl, fieldEdit_str (hf "className" (by decide)) rfl]
  · rfl

theorem edit_schema1 (v v' : Json) (h : Edit .schema1 v v') : Ojson.toSchema v = Ojson.toSchema v' := by
  rcases edit_shape h with ⟨l, l', rfl, rfl⟩ | ⟨l, l', rfl, rfl⟩
  · have hf : ∀ key ∈ docKeys .schema1, FieldEdit .schema1 key (field l key) (field l' key) := fun key hk => edit_field h hk
    unfold Ojson.toSchema
    dsimp only
    rw [fieldEdit_str (hf "author" (by decide)) rfl, fieldEdit_str (hf "name" (by decide)) rfl,
      fieldEdit_str (hf "version" (by decide)) rfl, fieldEdit_list (hf "tables" (by decide)) rfl (edit_list edit_table1)]
  · rfl

/-- C140: the order of members, members that the format does not know, members that are null, simple members that are
given again and the case of keys do not matter: such documents are read as the same schema, or both rejected. -/
theorem C140_document {j j' : Json} (h : SameDoc j j') : toSchema j = toSchema j' := by
  induction h with
  | rel v v' h => exact edit_schema v v' h
  | refl => rfl
  | symm _ _ _ ih => exact ih.symm
  | trans _ _ _ _ _ ih ih' => exact ih.trans ih'

/-- C140: the same for documents of version 1. -/
theorem C140_version1 {j j' : Json} (h : SameDoc1 j j') : Ojson.toSchema j = Ojson.toSchema j' := by
  induction h with
  | rel v v' h => exact edit_schema1 v v' h
  | refl => rfl
  | symm _ _ _ ih => exact ih.symm
  | trans _ _ _ _ _ ih ih' => exact ih.trans ih'

/-- C140: a column, and the same column with other members. -/
example (s : Str) : SameDoc1 (.obj [("tables"ₛ, .arr [.obj [("columns"ₛ, .arr [.obj [("name"ₛ, .str s)]])]])])
    (.obj [("tables"ₛ, .arr [.obj [("columns"ₛ, .arr [.obj [("NAME"ₛ, .str s)]])]])]) :=
  .rel _ _ (.member (a := []) (b := []) (key := "tables") (by decide) rfl rfl (.element (a := []) (b := [])
    (.member (a := []) (b := []) (key := "columns") (by decide) rfl rfl (.element (a := []) (b := []) (.case (a := []) (b := []) (by decide))))))

/-- C140: the list of members is the list of the format: each of them can make a difference. -/
theorem C140_members :
    (∀ key ∈ docKeys .schema, ∃ v, toSchema (.obj [(key.toList, v)]) ≠ toSchema (.obj [])) ∧
    (∀ key ∈ docKeys .table, ∃ v, toTable (.obj [(key.toList, v)]) ≠ toTable (.obj [])) ∧
    (∀ key ∈ docKeys .column, ∃ v, toColumn (.obj [(key.toList, v)]) ≠ toColumn (.obj [])) ∧
    (∀ key ∈ docKeys .index, ∃ v, toIndex (.obj [(key.toList, v)]) ≠ toIndex (.obj [])) ∧
    ∀ key ∈ docKeys .reference, ∃ v, toReference (.obj [(key.toList, v)]) ≠ toReference (.obj []) := by
  refine ⟨?_, ?_, ?_, ?_, ?_⟩ <;> intro key hk <;> simp only [docKeys, List.mem_cons, List.not_mem_nil, or_false] at hk
  · rcases hk with rfl | rfl | rfl | rfl
    · exact ⟨.str "x"ₛ, by decide⟩
    · exact ⟨.str "x"ₛ, by decide⟩
    · exact ⟨.str "x"ₛ, by decide⟩
    · exact ⟨.arr [.obj []], by decide⟩
  · rcases hk with rfl | rfl | rfl | rfl | rfl | rfl
    · exact ⟨.str "x"ₛ, by decide⟩
    · exact ⟨.arr [.obj []], by decide⟩
    · exact ⟨.str "x"ₛ, by decide⟩
    · exact ⟨.str "x"ₛ, by decide⟩
    · exact ⟨.str "x"ₛ, by decide⟩
    · exact ⟨.arr [.obj []], by decide⟩
  · rcases hk with rfl | rfl | rfl | rfl | rfl | rfl | rfl | rfl | rfl | rfl | rfl | rfl | rfl
    · exact ⟨.str "x"ₛ, by decide⟩
    · exact ⟨.str "x"ₛ, by decide⟩
    · exact ⟨.str "x"ₛ, by decide⟩
    · exact ⟨.num 1, by decide⟩
    · exact ⟨.num 1, by decide⟩
    · exact ⟨.bool true, by decide⟩
    · exact ⟨.bool true, by decide⟩
    · exact ⟨.bool true, by decide⟩
    · exact ⟨.bool true, by decide⟩
    · exact ⟨.str "x"ₛ, by decide⟩
    · exact ⟨.str "x"ₛ, by decide⟩
    · exact ⟨.arr [.str "x"ₛ], by decide⟩
    · exact ⟨.obj [], by decide⟩
  · rcases hk with rfl | rfl
    · exact ⟨.str "x"ₛ, by decide⟩
    · exact ⟨.arr [.str "x"ₛ], by decide⟩
  · rcases hk with rfl | rfl | rfl
    · exact ⟨.str "x"ₛ, by decide⟩
    · exact ⟨.str "x"ₛ, by decide⟩
    · exact ⟨.str "x"ₛ, by decide⟩

/-- C140: a column whose type is given twice. -/
example (s t : Str) : Edit .column (.obj [("type"ₛ, .str s), ("name"ₛ, .str t), ("type"ₛ, .str t)]) (.obj [("name"ₛ, .str t), ("type"ₛ, .str t)]) :=
  .again (a := []) (b := [("name"ₛ, .str t)]) (c := []) rfl .str

/-- C140: two documents. The second one has other cases, an additional member of a column and a null member. -/
example (n : Nat) : SameDoc
    (.obj [("name"ₛ, .str "shop"ₛ), ("tables"ₛ, .arr [.obj [("name"ₛ, .str "user"ₛ), ("columns"ₛ, .arr [.obj [("name"ₛ, .str "id"ₛ), ("type"ₛ, .str "int"ₛ)]])]])])
    (.obj [("tables"ₛ, .arr [.obj [("name"ₛ, .str "user"ₛ), ("columns"ₛ, .arr [.obj [("Name"ₛ, .str "id"ₛ), ("type"ₛ, .str "int"ₛ), ("width"ₛ, .num n)]])]]),
      ("name"ₛ, .str "shop"ₛ), ("author"ₛ, .null)]) := by
  have h1 : Edit .column (.obj [("name"ₛ, .str "id"ₛ), ("type"ₛ, .str "int"ₛ)]) (.obj [("Name"ₛ, .str "id"ₛ), ("type"ₛ, .str "int"ₛ)]) :=
    .case (a := []) (by decide)
  have h2 : Edit .column (.obj [("Name"ₛ, .str "id"ₛ), ("type"ₛ, .str "int"ₛ), ("width"ₛ, .num n)])
      (.obj [("Name"ₛ, .str "id"ₛ), ("type"ₛ, .str "int"ₛ)]) :=
    .unknown (a := [("Name"ₛ, .str "id"ₛ), ("type"ₛ, .str "int"ₛ)]) (b := []) (by unfold Names; decide)
  have up : ∀ {v v' : Json}, Edit .column v v' → ∀ x : List (Str × Json),
      Edit .schema (.obj (("tables"ₛ, .arr [.obj [("name"ₛ, .str "user"ₛ), ("columns"ₛ, .arr [v])]]) :: x))
        (.obj (("tables"ₛ, .arr [.obj [("name"ₛ, .str "user"ₛ), ("columns"ₛ, .arr [v'])]]) :: x)) := fun h x =>
    .member (a := []) (key := "tables") (by decide) rfl rfl (.element (a := []) (b := [])
      (.member (a := [("name"ₛ, .str "user"ₛ)]) (b := []) (key := "columns") (by decide) rfl rfl (.element (a := []) (b := []) h)))
  refine .trans _ _ _ (.rel _ _ (.swap (a := []) (b := []) (by decide))) (.trans _ _ _ (.rel _ _ (up h1 _))
    (.trans _ _ _ (.symm _ _ (.rel _ _ (up h2 _))) (.symm _ _ (.rel _ _ (.null (a := [_, _]) (b := []) ?_)))))
  intro p hp
  have hp : p.1 = "tables"ₛ ∨ p.1 = "name"ₛ := by
    rcases List.mem_cons.1 (by simpa only [List.append_nil] using hp) with rfl | hp
    · exact .inl rfl
    · rw [List.mem_singleton.1 hp]; exact .inr rfl
  rcases hp with e | e <;> rw [e] <;> decide

end Octo

namespace Octo.Cli
open Spec

theorem load_sameDoc {w : World} (hw : Faithful w) {fs fs' : Files} {f t t' : Str} {j j' : Json} (h1 : fs.at f = some (.text t))
    (h2 : fs'.at f = some (.text t')) (h3 : readJson t = some j) (h4 : readJson t' = some j') (h : SameDoc j j') :
    load w fs' f = load w fs f := by
  unfold load Files.text
  simp only [h1, h2, Option.bind_some, hw.json _ _ h3, hw.json _ _ h4, C140_document h]

/-- C140: every command that reads schemas ends in the same way and writes the same files with the same contents. -/
theorem C140_commands (w : World) (hw : Faithful w) (c : Cmd) (hc : ReadsSchema c) (v : Values) (fs fs' : Files)
    (h : ∀ i ∈ inputs c, ∃ t t' j j', fs.at (v i) = some (.text t) ∧ fs'.at (v i) = some (.text t') ∧ readJson t = some j ∧
      readJson t' = some j' ∧ SameDoc j j') :
    (action w c v fs).status = (action w c v fs').status ∧
    ∀ p, (action w c v fs).files p = (action w c v fs').files p ∨
      ((action w c v fs).files p = fs p ∧ (action w c v fs').files p = fs' p) := by
  obtain ⟨ws, st, h1, -, -⟩ := action_loaded w c hc v fs
  rw [h1 fs fun _ _ => rfl, h1 fs' fun i hi => by
    obtain ⟨t, t', j, j', a, b, c, d, e⟩ := h i hi
    exact load_sameDoc hw a b c d e]
  refine ⟨rfl, fun p => ?_⟩
  by_cases hp : ∃ q ∈ ws, q.1 = p
  · exact .inl (applyWrites_of_mem hp _ _)
  · have hp' : ∀ q ∈ ws, q.1 ≠ p := fun q hq e => hp ⟨q, hq, e⟩
    exact .inr ⟨applyWrites_of_not_mem hp' _, applyWrites_of_not_mem hp' _⟩

/-- C140: a file, and the file with the members of the schema in the other order. -/
example (v : Values) (hv : v "input"ₛ = "a.json"ₛ) (s : Schema) : ∀ i ∈ inputs .kt, ∃ t t' j j',
    Files.at (fun p => if p = pathOf "a.json"ₛ then some (.text (Json.print 0 (.obj [("name"ₛ, .str s.name), ("version"ₛ, .str s.version)]))) else none) (v i)
      = some (.text t) ∧
    Files.at (fun p => if p = pathOf "a.json"ₛ then some (.text (Json.print 0 (.obj [("version"ₛ, .str s.version), ("name"ₛ, .str s.name)]))) else none) (v i)
      = some (.text t') ∧ readJson t = some j ∧ readJson t' = some j' ∧ SameDoc j j' := by
  intro i hi
  rw [List.mem_singleton.mp hi, hv]
  unfold Files.at
  refine ⟨_, _, _, _, if_pos rfl, if_pos rfl, Json.readJson_print _, Json.readJson_print _, .rel _ _ (.swap (a := []) (b := []) ?_)⟩
  show lower "name"ₛ ≠ lower "version"ₛ
  decide

/-- C140: the same for importing a document of version 1. -/
theorem C140_import (w : World) (hw : Faithful w) (v : Values) (fs fs' : Files) {t t' : Str} {j j' : Json}
    (h1 : fs.at (v "input"ₛ) = some (.text t)) (h2 : fs'.at (v "input"ₛ) = some (.text t')) (h3 : readJson t = some j)
    (h4 : readJson t' = some j') (h : SameDoc1 j j') :
    (action w .importOjson v fs).status = (action w .importOjson v fs').status ∧
    ∀ p, (action w .importOjson v fs).files p = (action w .importOjson v fs').files p ∨
      ((action w .importOjson v fs).files p = fs p ∧ (action w .importOjson v fs').files p = fs' p) := by
  show (importOjsonAction w v fs).status = (importOjsonAction w v fs').status ∧ ∀ p, (importOjsonAction w v fs).files p = (importOjsonAction w v fs').files p ∨
      ((importOjsonAction w v fs).files p = fs p ∧ (importOjsonAction w v fs').files p = fs' p)
  unfold importOjsonAction Files.text Ojson.importJSON
  simp only [h1, h2, Option.bind_some, hw.json _ _ h3, hw.json _ _ h4, C140_version1 h]
  split
  · exact ⟨rfl, fun p => .inr ⟨rfl, rfl⟩⟩
  · exact ⟨rfl, fun p => .inr ⟨rfl, rfl⟩⟩
  · unfold save
    split
    · exact ⟨rfl, fun p => .inr ⟨rfl, rfl⟩⟩
    · unfold write
      split
      · refine ⟨rfl, fun p => ?_⟩
        unfold Files.set
        dsimp only
        split
        · exact .inl rfl
        · exact .inr ⟨rfl, rfl⟩
      · exact ⟨rfl, fun p => .inr ⟨rfl, rfl⟩⟩

/-- C140: a document of version 1, and the same document with a member that the format does not know. -/
example (v : Values) (hv : v "input"ₛ = "a.ojson"ₛ) (n : Nat) : ∃ t t' j j',
    Files.at (fun p => if p = pathOf "a.ojson"ₛ then some (.text (Json.print 0 (.obj [("hint"ₛ, .num n), ("tables"ₛ, .arr [])]))) else none) (v "input"ₛ)
      = some (.text t) ∧
    Files.at (fun p => if p = pathOf "a.ojson"ₛ then some (.text (Json.print 0 (.obj [("tables"ₛ, .arr [])]))) else none) (v "input"ₛ)
      = some (.text t') ∧ readJson t = some j ∧ readJson t' = some j' ∧ SameDoc1 j j' := by
  rw [hv]
  unfold Files.at
  exact ⟨_, _, _, _, if_pos rfl, if_pos rfl, Json.readJson_print _, Json.readJson_print _,
    .rel _ _ (.unknown (a := []) (by unfold Names; decide))⟩

end Octo.Cli
