import Verif.Lemmas.JpaClass
import Verif.Lemmas.GormStruct
import Verif.Lemmas.DiffTables
import Verif.Lemmas.MysqlImport

/-! The fields of the JPA generator as properties. -/

namespace Octo

/-- The entries that have a value. -/
def present {α : Type} (l : List (Str × Option α)) : List (Str × α) := l.filterMap fun p => p.2.map fun v => (p.1, v)

theorem present_ite {α : Type} (k : Str) (p : Prop) [Decidable p] (v : α) (l : List (Str × Option α)) :
    present ((k, if p then some v else none) :: l) = (if p then [(k, v)] else []) ++ present l := by
  unfold present
  split
  · rfl
  · rfl

theorem present_some {α : Type} (k : Str) (v : Option α) (l : List (Str × Option α)) :
    present ((k, v) :: l) = (v.map fun v => (k, v)).toList ++ present l := by
  unfold present
  cases v <;> rfl

theorem lookup_present {α : Type} {l : List (Str × Option α)} (h : (l.map Prod.fst).Nodup) (k : Str) :
    (present l).lookup k = (l.lookup k).join := by
  induction l with
  | nil => rfl
  | cons a l ih =>
    obtain ⟨x, v⟩ := a
    rw [List.map_cons, List.nodup_cons] at h
    rw [present_some, List.lookup_cons]
    by_cases e : k = x
    · subst e
      rw [show (k == k) = true from beq_self_eq_true k]
      cases v with
      | some v =>
        show List.lookup k ((k, v) :: present l) = _
        rw [List.lookup_cons_self]; rfl
      | none =>
        show List.lookup k (present l) = _
        rw [ih h.2]
        have : l.lookup k = none := by
          rw [List.lookup_eq_none_iff]
          intro p hp
          refine bne_iff_ne.2 fun e => h.1 ?_
          show k ∈ _
          rw [e]
          exact List.mem_map.2 ⟨p, hp, rfl⟩
        rw [this]; rfl
    · rw [show (k == x) = false from beq_eq_false_iff_ne.2 e]
      cases v with
      | some v =>
        show List.lookup k ((x, v) :: present l) = _
        rw [List.lookup_cons, show (k == x) = false from beq_eq_false_iff_ne.2 e, ih h.2]
      | none => exact ih h.2

theorem nodup_present {α : Type} {l : List (Str × Option α)} (h : (l.map Prod.fst).Nodup) : ((present l).map Prod.fst).Nodup := by
  refine List.Sublist.nodup ?_ h
  unfold present
  induction l with
  | nil => exact .refl _
  | cons a l ih =>
    rw [List.map_cons, List.nodup_cons] at h
    obtain ⟨x, v⟩ := a
    cases v with
    | none => exact (ih h.2).cons _
    | some v => exact (ih h.2).cons_cons _

theorem mem_iff_lookup {α : Type} {l : List (Str × α)} (h : (l.map Prod.fst).Nodup) {k : Str} {v : α} :
    (k, v) ∈ l ↔ l.lookup k = some v := by
  refine ⟨fun hm => ?_, Ojson.lookup_mem'⟩
  induction l with
  | nil => cases hm
  | cons a l ih =>
    rw [List.map_cons, List.nodup_cons] at h
    rcases List.mem_cons.1 hm with rfl | hm
    · exact List.lookup_cons_self
    · rw [List.lookup_cons]
      have : k ≠ a.1 := fun e => h.1 (e ▸ List.mem_map_of_mem (f := Prod.fst) hm)
      rw [show (k == a.1) = false from beq_eq_false_iff_ne.2 this]
      exact ih h.2 hm

theorem mem_present {α : Type} {l : List (Str × Option α)} (h : (l.map Prod.fst).Nodup) {k : Str} {v : α} :
    (k, v) ∈ present l ↔ (l.lookup k).join = some v := by
  rw [mem_iff_lookup (nodup_present h), lookup_present h]

theorem ite_some_iff {α : Type} {p : Prop} [Decidable p] {a v : α} : (if p then some a else none) = some v ↔ v = a ∧ p := by
  split
  · rename_i h; simp [h, eq_comm]
  · rename_i h; simp [h]

theorem containsColType_iff {t : Str} {l : List Str} : containsColType t l = true ↔ lower t ∈ l := by
  unfold containsColType
  rw [List.any_eq_true]
  simp

namespace Jpa
open Spec
open Protobuf (LineWord lineWord_ident lineWord_literal)

theorem className_eq (sc : Strcase) (o : KtOption) (t : Table) : className sc o t = ktClassName sc o t := by
  unfold className ktClassName
  split
  · dsimp only
    split
    · rfl
    · rename_i h
      rw [not_not.1 h]; rfl
  · rfl

theorem ident_ktClassName {sc : Strcase} {o : KtOption} {s : Schema} (hc : CleanCase sc) (hp : PlainJpa o s) {t : Table}
    (ht : t ∈ s.tables) : Ident (ktClassName sc o t) := by
  unfold ktClassName
  split
  · have h1 := (hc _ (hp.tables t ht).2.1).1
    refine alnum_ident ⟨?_, ?_⟩
    · intro e; exact h1.1 (List.append_eq_nil_iff.1 e).2
    · rw [List.all_append, h1.2, hp.prefixes]; rfl
  · rename_i h
    exact (hp.tables t ht).2.2.resolve_left h

theorem selected_eq (o : KtOption) (s : Schema) : s.tables.filter (passes o.tableFilter) = JpaSelected o s := by
  unfold JpaSelected
  congr 1
  funext t
  unfold passes
  cases o.tableFilter <;> rfl

theorem newClasses_eq (sc : Strcase) (o : KtOption) (s : Schema) : newClasses sc o s = (JpaSelected o s).map (newClass sc o) := by
  unfold newClasses
  rw [selected_eq]

/-! ### Types -/

theorem typeInfo_eq (type : Str) : typeInfo type = (((ktTypes.lookup (lower type)).map (·.1)).getD "Any"ₛ,
    (ktDefault type).getD [], (ktImport type).toList) := by
  unfold typeInfo ktDefault ktImport
  dsimp only
  by_cases h : lower type ∈ ktTypes.map Prod.fst
  · have key : ∀ x ∈ ktTypes.map Prod.fst,
      (if x ∈ ["char"ₛ, "varchar"ₛ, "text8"ₛ, "text16"ₛ, "text24"ₛ, "text32"ₛ] then ("String"ₛ, "\"\""ₛ, ([] : List Str))
        else if x = "boolean"ₛ then ("Boolean"ₛ, "false"ₛ, [])
        else if x ∈ ["int8"ₛ, "int16"ₛ, "int24"ₛ, "int32"ₛ] then ("Int"ₛ, "0"ₛ, [])
        else if x = "int64"ₛ then ("Long"ₛ, "0L"ₛ, [])
        else if x = "decimal"ₛ then ("BigDecimal"ₛ, "BigDecimal.ZERO"ₛ, ["java.math.BigDecimal"ₛ])
        else if x = "float"ₛ then ("Float"ₛ, "0.0F"ₛ, [])
        else if x = "double"ₛ then ("Double"ₛ, "0.0"ₛ, [])
        else if x = "datetime"ₛ then ("Timestamp"ₛ, "Timestamp(System.currentTimeMillis())"ₛ, ["java.sql.Timestamp"ₛ])
        else if x = "date"ₛ then ("LocalDate"ₛ, "LocalDate.now()"ₛ, ["java.time.LocalDate"ₛ])
        else if x = "time"ₛ then ("LocalTime"ₛ, "LocalTime.now()"ₛ, ["java.time.LocalTime"ₛ])
        else if x ∈ ["blob8"ₛ, "blob16"ₛ, "blob24"ₛ, "blob32"ₛ] then ("Blob"ₛ, [], ["java.sql.Blob"ₛ])
        else ("Any"ₛ, [], [])) = (((ktTypes.lookup x).map (·.1)).getD "Any"ₛ,
          ((ktTypes.lookup x).bind (·.2.1)).getD [], ((ktTypes.lookup x).bind (·.2.2)).toList) := by
      decide +kernel
    exact key _ h
  · have hn : ∀ x ∈ ktTypes.map Prod.fst, lower type ≠ x := fun x hx e => h (e ▸ hx)
    have hl : ktTypes.lookup (lower type) = none := by
      rw [List.lookup_eq_none_iff]
      intro p hp
      exact bne_iff_ne.2 (hn _ (List.mem_map_of_mem hp))
    have hm : ∀ l : List Str, (∀ x ∈ l, x ∈ ktTypes.map Prod.fst) → lower type ∉ l := fun l hs hm => hn _ (hs _ hm) rfl
    rw [hl, if_neg (hm _ (by decide)), if_neg (hn _ (by decide)), if_neg (hm _ (by decide)), if_neg (hn _ (by decide)),
      if_neg (hn _ (by decide)), if_neg (hn _ (by decide)), if_neg (hn _ (by decide)), if_neg (hn _ (by decide)),
      if_neg (hn _ (by decide)), if_neg (hn _ (by decide)), if_neg (hm _ (by decide))]
    rfl

theorem field_type (sc : Strcase) (c : Column) : (newField sc c).type = ktTypeOf c := by
  show (if c.notNull then _ else _) = _
  rw [typeInfo_eq]
  unfold ktTypeOf
  split <;> simp

theorem field_default (sc : Strcase) (c : Column) :
    (newField sc c).defaultValue = if c.notNull then (ktDefault c.type).getD [] else [] := by
  show (if c.notNull then (typeInfo c.type).2.1 else []) = _
  rw [typeInfo_eq]

theorem field_imports (sc : Strcase) (c : Column) (i : Str) : i ∈ (newField sc c).imports ↔ ktImport c.type = some i := by
  show i ∈ (StringSet.addAll StringSet.empty (typeInfo c.type).2.2).slice ↔ _
  rw [mem_slice, Octo.mem_addAll, typeInfo_eq]
  simp [StringSet.empty, Option.mem_toList, eq_comm]

theorem ktType_mem (type : Str) : (ktTypes.lookup (lower type)).map (·.1) = none ∨
    ∃ p ∈ ktTypes, ktTypes.lookup (lower type) = some p.2 := by
  cases h : ktTypes.lookup (lower type) with
  | none => exact .inl rfl
  | some p => exact .inr ⟨_, Ojson.lookup_mem' h, rfl⟩

theorem ktDefault_ne (type : Str) : ktDefault type ≠ some [] := by
  unfold ktDefault
  rcases ktType_mem type with h | ⟨p, hp, h⟩
  · rw [Option.map_eq_none_iff] at h
    rw [h]; intro e; cases e
  · rw [h]
    have : ∀ p ∈ ktTypes, p.2.2.1 ≠ some [] := by decide +kernel
    exact this p hp

theorem lineWord_type (c : Column) : LineWord (ktTypeOf c) ∧ ',' ∉ ktTypeOf c := by
  have h1 : ∀ s : Str, s.all (fun c => !sqlSep c && !isQuote c && c != '(' && c != ')') = true → s ≠ [] →
      LineWord (s ++ if c.notNull then [] else "?"ₛ) ∧ ',' ∉ (s ++ if c.notNull then [] else "?"ₛ) := by
    intro s h hne
    have hall : (s ++ if c.notNull then [] else "?"ₛ).all (fun c => !sqlSep c && !isQuote c && c != '(' && c != ')') = true := by
      rw [List.all_append, h]
      split <;> decide
    refine ⟨lineWord_literal _ hall ?_, ?_⟩
    · intro e; exact hne (List.append_eq_nil_iff.1 e).1
    · intro hm; exact absurd (List.all_eq_true.1 hall _ hm) (by decide)
  unfold ktTypeOf
  rcases ktType_mem c.type with h | ⟨p, hp, h⟩
  · rw [h]; exact h1 "Any"ₛ (by decide) (by decide)
  · rw [h]
    have : ∀ p ∈ ktTypes, p.2.1.all (fun c => !sqlSep c && !isQuote c && c != '(' && c != ')') = true ∧ p.2.1 ≠ [] := by decide +kernel
    exact h1 _ (this p hp).1 (this p hp).2

theorem lineWord_default {type x : Str} (h : ktDefault type = some x) : LineWord x ∧ ',' ∉ x := by
  unfold ktDefault at h
  rcases ktType_mem type with h' | ⟨p, hp, h'⟩
  · rw [Option.map_eq_none_iff] at h'
    rw [h'] at h; cases h
  · rw [h'] at h
    have : ∀ p ∈ ktTypes, p.2.2.1 = none ∨ p.2.2.1 ∈ ["\"\""ₛ, "Timestamp(System.currentTimeMillis())"ₛ, "LocalDate.now()"ₛ, "LocalTime.now()"ₛ].map some ∨
      ((p.2.2.1).getD []).all (fun c => !sqlSep c && !isQuote c && c != '(' && c != ')') = true ∧ p.2.2.1 ≠ some [] := by decide +kernel
    have hx : p.2.2.1 = some x := h
    have hcomma : ',' ∉ x := by
      have : ∀ p ∈ ktTypes, ',' ∉ (p.2.2.1).getD [] := by decide +kernel
      have := this p hp
      rwa [hx] at this
    refine ⟨?_, hcomma⟩
    have hpar : LineWord "()"ₛ := ⟨.paren [] rfl .nil, by decide, by decide⟩
    rcases this p hp with e | e | ⟨e, hne⟩
    · rw [hx] at e; cases e
    · rw [hx] at e
      simp only [List.map_cons, List.map_nil, List.mem_cons, List.not_mem_nil, or_false, Option.some.injEq] at e
      rcases e with rfl | rfl | rfl | rfl
      · exact ⟨.quoted '"' [] rfl rfl (by simp) (.inr (by simp)), by decide, by decide⟩
      · refine ⟨?_, by decide, by decide⟩
        have h1 : Good (fun _ => false) ("System.currentTimeMillis"ₛ ++ ('(' :: [] ++ [')'])) :=
          .append _ _ (good_chars (by decide)) (.paren [] rfl .nil)
        exact .append "Timestamp"ₛ _ (good_literal _ (by decide)) (.paren _ rfl h1)
      · exact (LineWord.append (lineWord_literal "LocalDate.now"ₛ (by decide) (by decide)) hpar)
      · exact (LineWord.append (lineWord_literal "LocalTime.now"ₛ (by decide) (by decide)) hpar)
    · rw [hx] at e hne
      exact lineWord_literal x e fun e => hne (by rw [e])

/-! ### Annotations -/

/-- The arguments of `@Column`. -/
def columnEntries (sc : Strcase) (c : Column) : List (Str × Option Str) :=
  [("name"ₛ, if (newField sc c).overrideName then some (ktQuoted c.name) else none),
   ("nullable"ₛ, if c.notNull then some "false"ₛ else none),
   ("length"ₛ, if isColTypeString c.type && c.size > 0 then some (itoa c.size.toNat) else none),
   ("precision"ₛ, if isColTypeDecimal c.type && c.size > 0 then some (itoa c.size.toNat) else none),
   ("scale"ₛ, if isColTypeDecimal c.type && c.scale > 0 then some (itoa c.scale.toNat) else none),
   ("updatable"ₛ, if c.type = "datetime"ₛ ∧ (newField sc c).name = "createdAt"ₛ then some "false"ₛ else none)]

theorem columnEntries_nodup (sc : Strcase) (c : Column) : ((columnEntries sc c).map Prod.fst).Nodup := by
  show ["name"ₛ, "nullable"ₛ, "length"ₛ, "precision"ₛ, "scale"ₛ, "updatable"ₛ].Nodup
  decide

theorem columnAttrs_eq (sc : Strcase) (c : Column) : columnAttrs (newField sc c) = (present (columnEntries sc c)).map argStr := by
  unfold columnAttrs columnEntries
  simp only [present_ite, List.map_append, Gorm.map_ite, List.map_cons, List.map_nil]
  simp only [← List.append_assoc]
  rw [show present ([] : List (Str × Option Str)) = [] from rfl, List.map_nil, List.append_nil]
  rfl

theorem overrideName_iff (sc : Strcase) (c : Column) : (newField sc c).overrideName = true ↔ NeedsName sc c.name := by
  show (!(c.name == sc.toSnake (sc.toLowerCamel c.name))) = true ↔ _
  unfold NeedsName
  rw [Bool.not_eq_true', beq_eq_false_iff_ne]
  exact ⟨fun h e => h e.symm, fun h e => h e.symm⟩

theorem size_iff {t : Str} {n : UInt16} {f : Str → Bool} {l : List Str} (h : f t = containsColType t l) {v : Str} :
    (if f t && n > 0 then some (itoa n.toNat) else none) = some v ↔ v = itoa n.toNat ∧ 0 < n ∧ lower t ∈ l := by
  rw [ite_some_iff, Bool.and_eq_true, h, containsColType_iff, decide_eq_true_eq]
  exact ⟨fun h => ⟨h.1, h.2.2, h.2.1⟩, fun h => ⟨h.1, h.2.2, h.2.1⟩⟩

theorem mem_present_entry {α : Type} {l : List (Str × Option α)} {p : Str × α} (h : p ∈ present l) : (p.1, some p.2) ∈ l := by
  unfold present at h
  obtain ⟨⟨k, v⟩, hq, e⟩ := List.mem_filterMap.1 h
  rw [Option.map_eq_some_iff] at e
  obtain ⟨x, hx, rfl⟩ := e
  dsimp only at hx ⊢
  rwa [← hx]

theorem columnArgs (sc : Strcase) (c : Column) : ColumnArgs sc c (present (columnEntries sc c)) where
  name v := by
    rw [mem_present (columnEntries_nodup sc c), ← overrideName_iff]
    exact ite_some_iff
  nullable v := by
    rw [mem_present (columnEntries_nodup sc c)]
    exact ite_some_iff
  length v := by
    rw [mem_present (columnEntries_nodup sc c)]
    exact size_iff (f := isColTypeString) rfl
  precision v := by
    rw [mem_present (columnEntries_nodup sc c)]
    exact size_iff (f := isColTypeDecimal) rfl
  scale v := by
    rw [mem_present (columnEntries_nodup sc c)]
    exact size_iff (f := isColTypeDecimal) rfl
  updatable v := by
    rw [mem_present (columnEntries_nodup sc c)]
    exact ite_some_iff
  once := nodup_present (columnEntries_nodup sc c)
  others a ha := List.mem_map_of_mem (f := Prod.fst) (mem_present_entry ha)

/-- The arguments of `@VRelation`. -/
def relationArgs (sc : Strcase) (o : KtOption) (s : Schema) (c : Column) : Option (List (Str × Str)) :=
  if o.relation = "VRelation"ₛ then c.ref.map fun r =>
    [("cls"ₛ, ktQuoted ((ktTarget sc o s r.table).getD [])), ("field"ₛ, ktQuoted (sc.toLowerCamel r.column))]
  else none

/-- The annotations of a column. -/
def annoEntries (sc : Strcase) (o : KtOption) (s : Schema) (c : Column) : List (Str × Option (List (Str × Str))) :=
  [("Id"ₛ, if c.primaryKey then some [] else none),
   ("GeneratedValue"ₛ, if c.autoIncremental then some [("strategy"ₛ, "GenerationType.AUTO"ₛ)] else none),
   ("Lob"ₛ, if isColTypeClob c.type then some [] else none),
   ("VRelation"ₛ, relationArgs sc o s c),
   ("CreationTimestamp"ₛ, if c.type = "datetime"ₛ ∧ (newField sc c).name = "createdAt"ₛ then some [] else none),
   ("UpdateTimestamp"ₛ, if c.type = "datetime"ₛ ∧ (newField sc c).name = "updatedAt"ₛ then some [] else none),
   ("Column"ₛ, if present (columnEntries sc c) ≠ [] then some (present (columnEntries sc c)) else none)]

/-- The annotations of a column. -/
def annoList (sc : Strcase) (o : KtOption) (s : Schema) (c : Column) : List KtAnnotation := present (annoEntries sc o s c)

theorem annoEntries_nodup (sc : Strcase) (o : KtOption) (s : Schema) (c : Column) : ((annoEntries sc o s c).map Prod.fst).Nodup := by
  show ["Id"ₛ, "GeneratedValue"ₛ, "Lob"ₛ, "VRelation"ₛ, "CreationTimestamp"ₛ, "UpdateTimestamp"ₛ, "Column"ₛ].Nodup
  decide

theorem propertyAnnotations {sc : Strcase} {o : KtOption} {s : Schema} {c : Column} (hr : Related sc o s c) :
    PropertyAnnotations sc o s c (annoList sc o s c) where
  id v := by
    unfold annoList
    rw [mem_present (annoEntries_nodup sc o s c)]
    exact ite_some_iff
  generated v := by
    unfold annoList
    rw [mem_present (annoEntries_nodup sc o s c)]
    exact ite_some_iff
  lob v := by
    unfold annoList
    rw [mem_present (annoEntries_nodup sc o s c)]
    refine (ite_some_iff (p := isColTypeClob c.type = true)).trans (and_congr_right fun _ => ?_)
    exact containsColType_iff
  relation v := by
    unfold annoList
    rw [mem_present (annoEntries_nodup sc o s c)]
    show relationArgs sc o s c = some v ↔ _
    unfold relationArgs
    by_cases h : o.relation = "VRelation"ₛ
    · rw [if_pos h]
      cases hc : c.ref with
      | none => exact ⟨fun e => (by cases e), fun ⟨_, r, e, _⟩ => (by cases e)⟩
      | some r =>
        cases ht : ktTarget sc o s r.table with
        | none => exact absurd ht (hr h r hc)
        | some k =>
          rw [Option.map_some, ht, Option.some.injEq]
          constructor
          · intro e; exact ⟨h, r, rfl, k, ht, e.symm⟩
          · rintro ⟨_, r', e, k', hk, hv⟩
            rw [Option.some.injEq] at e
            subst e
            rw [ht, Option.some.injEq] at hk
            subst hk
            exact hv.symm
    · rw [if_neg h]
      exact ⟨fun e => (by cases e), fun e => absurd e.1 h⟩
  created v := by
    unfold annoList
    rw [mem_present (annoEntries_nodup sc o s c)]
    exact ite_some_iff
  updated v := by
    unfold annoList
    rw [mem_present (annoEntries_nodup sc o s c)]
    exact ite_some_iff
  column := by
    unfold annoList
    rw [lookup_present (annoEntries_nodup sc o s c)]
    show ColumnArgs sc c ((if present (columnEntries sc c) ≠ [] then some (present (columnEntries sc c)) else none).getD [])
    split
    · exact columnArgs sc c
    · rename_i h
      have := columnArgs sc c
      rwa [not_not.1 h] at this
  once := nodup_present (annoEntries_nodup sc o s c)
  others a ha := List.mem_map_of_mem (f := Prod.fst) (mem_present_entry ha)

theorem target_eq (sc : Strcase) (o : KtOption) (s : Schema) (n : Str) :
    classNameByTableName (newClasses sc o s) n = (ktTarget sc o s n).getD [] := by
  unfold classNameByTableName ktTarget
  rw [newClasses_eq, List.find?_map]
  show (Option.map (·.name) (Option.map (newClass sc o) ((JpaSelected o s).find? fun t => t.name == n))).getD [] = _
  cases (JpaSelected o s).find? fun t => t.name == n with
  | none => rfl
  | some t => exact className_eq sc o t

theorem target_ident {sc : Strcase} {o : KtOption} {s : Schema} (hc : CleanCase sc) (hp : PlainJpa o s) {n k : Str}
    (h : ktTarget sc o s n = some k) : Ident k := by
  unfold ktTarget at h
  rw [Option.map_eq_some_iff] at h
  obtain ⟨t, ht, rfl⟩ := h
  exact ident_ktClassName hc hp (List.mem_filter.1 (List.mem_of_find?_eq_some ht)).1

theorem relationAnnotation_eq {sc : Strcase} {o : KtOption} {s : Schema} (hc : CleanCase sc) (hp : PlainJpa o s) (c : Column) :
    relationAnnotation sc o (newClasses sc o s) (newField sc c) =
      if Related sc o s c then some ((((relationArgs sc o s c).map fun v => ("VRelation"ₛ, v)).toList).map annoStr) else none := by
  unfold relationAnnotation relationArgs
  by_cases h : o.relation = "VRelation"ₛ
  · rw [if_pos h, if_pos h]
    rw [show (newField sc c).column = c from rfl]
    cases hr : c.ref with
    | none =>
      rw [if_pos (by intro _ r h; rw [hr] at h; cases h)]
      rfl
    | some r =>
      dsimp only
      rw [target_eq]
      cases ht : ktTarget sc o s r.table with
      | none =>
        rw [if_pos (show (none : Option Str).getD [] = [] from rfl), if_neg fun hR => hR h r hr ht]
      | some k =>
        rw [if_neg (show ¬(some k).getD [] = [] from (target_ident hc hp ht).1), if_pos (by
          intro _ r' h'
          rw [hr] at h'
          cases h'
          rw [ht]; simp)]
        rw [Option.some.injEq, Option.map_some, ht]
        show _ = [annoStr ("VRelation"ₛ, [("cls"ₛ, ktQuoted k), ("field"ₛ, ktQuoted (sc.toLowerCamel r.column))])]
        unfold annoStr
        rw [if_neg (List.cons_ne_nil _ _)]
        simp only [List.map_cons, List.map_nil, join, argStr, ktQuoted, List.append_assoc, Option.getD_some]
        rfl
  · rw [if_neg h, if_neg h, if_pos (show Related sc o s c from fun h' => absurd h' h)]
    rfl

theorem fieldAnnotations_eq {sc : Strcase} {o : KtOption} {s : Schema} (hc : CleanCase sc) (hp : PlainJpa o s) (c : Column) :
    fieldAnnotations sc o (newClasses sc o s) (newField sc c) =
      if Related sc o s c then some ((annoList sc o s c).map annoStr) else none := by
  unfold fieldAnnotations
  rw [relationAnnotation_eq hc hp]
  by_cases h : Related sc o s c
  · rw [if_pos h, if_pos h]
    dsimp only [Option.map_some]
    rw [Option.some.injEq]
    unfold annoList annoEntries
    rw [columnAttrs_eq]
    simp only [present_ite, present_some "VRelation"ₛ, List.map_append, Gorm.map_ite, List.map_cons, List.map_nil]
    simp only [← List.append_assoc]
    rw [show present ([] : List (Str × Option (List (Str × Str)))) = [] from rfl, List.map_nil, List.append_nil]
    congr 1
    by_cases e : present (columnEntries sc c) = []
    · rw [if_pos (List.map_eq_nil_iff.2 e), if_neg (not_not.2 e)]
    · rw [if_neg (fun h => e (List.map_eq_nil_iff.1 h)), if_pos e]
      unfold annoStr
      rw [if_neg e]
      rfl
  · rw [if_neg h, if_neg h]; rfl

theorem lineWord_ktQuoted {s : Str} (h : PlainQuoted '"' s) : LineWord (ktQuoted s) :=
  ⟨good_ktQuoted h rfl, by simp [ktQuoted], newline_ktQuoted h⟩

theorem lineWord_itoa (n : Nat) : LineWord (itoa n) := by
  refine ⟨good_itoa n, itoa_ne_nil n, fun h => ?_⟩
  exact absurd (itoa_digits n _ h) (by decide)

theorem plainQuoted_ident {s : Str} (h : Ident s) : PlainQuoted '"' s :=
  ⟨ident_not (by decide) h, ident_not (by decide) h, ident_not (by decide) h⟩

theorem plain_columnArgs (sc : Strcase) {c : Column} (h : PlainQuoted '"' c.name) :
    ∀ p ∈ present (columnEntries sc c), LineWord p.1 ∧ LineWord p.2 := by
  intro p hp
  have hm := mem_present_entry hp
  obtain ⟨k, v⟩ := p
  unfold columnEntries at hm
  simp only [List.mem_cons, List.not_mem_nil, or_false, Prod.mk.injEq, eq_comm (a := some v), ite_some_iff] at hm
  have hf : LineWord "false"ₛ := lineWord_literal _ (by decide) (by decide)
  rcases hm with ⟨rfl, rfl, _⟩ | ⟨rfl, rfl, _⟩ | ⟨rfl, rfl, _⟩ | ⟨rfl, rfl, _⟩ | ⟨rfl, rfl, _⟩ | ⟨rfl, rfl, _⟩
  · exact ⟨lineWord_literal "name"ₛ (by decide) (by decide), lineWord_ktQuoted h⟩
  · exact ⟨lineWord_literal "nullable"ₛ (by decide) (by decide), hf⟩
  · exact ⟨lineWord_literal "length"ₛ (by decide) (by decide), lineWord_itoa _⟩
  · exact ⟨lineWord_literal "precision"ₛ (by decide) (by decide), lineWord_itoa _⟩
  · exact ⟨lineWord_literal "scale"ₛ (by decide) (by decide), lineWord_itoa _⟩
  · exact ⟨lineWord_literal "updatable"ₛ (by decide) (by decide), hf⟩

theorem plain_annoList {sc : Strcase} {o : KtOption} {s : Schema} (hc : CleanCase sc) (hp : PlainJpa o s) {c : Column}
    (hn : PlainQuoted '"' c.name) (hr : ∀ r ∈ c.ref, HasAlnum r.column) (hR : Related sc o s c) :
    ∀ a ∈ annoList sc o s c, PlainAnnotation a := by
  intro a ha
  have hm := mem_present_entry ha
  obtain ⟨k, v⟩ := a
  unfold annoEntries at hm
  simp only [List.mem_cons, List.not_mem_nil, or_false, Prod.mk.injEq, eq_comm (a := some v), ite_some_iff] at hm
  rcases hm with ⟨rfl, rfl, _⟩ | ⟨rfl, rfl, _⟩ | ⟨rfl, rfl, _⟩ | ⟨rfl, e⟩ | ⟨rfl, rfl, _⟩ | ⟨rfl, rfl, _⟩ | ⟨rfl, rfl, _⟩
  · exact ⟨by show Ident "Id"ₛ; decide, by intro p hp; cases hp⟩
  · refine ⟨by show Ident "GeneratedValue"ₛ; decide, ?_⟩
    intro p hp
    rw [List.mem_singleton.1 hp]
    exact ⟨lineWord_literal "strategy"ₛ (by decide) (by decide), lineWord_literal "GenerationType.AUTO"ₛ (by decide) (by decide)⟩
  · exact ⟨by show Ident "Lob"ₛ; decide, by intro p hp; cases hp⟩
  · refine ⟨by show Ident "VRelation"ₛ; decide, ?_⟩
    unfold relationArgs at e
    by_cases h : o.relation = "VRelation"ₛ
    · rw [if_pos h, Option.map_eq_some_iff] at e
      obtain ⟨r, hr', rfl⟩ := e
      cases ht : ktTarget sc o s r.table with
      | none => exact absurd ht (hR h r hr')
      | some k =>
        intro p hp'
        rcases List.mem_cons.1 hp' with rfl | hp'
        · refine ⟨lineWord_literal "cls"ₛ (by decide) (by decide), lineWord_ktQuoted (s := (some k).getD []) ?_⟩
          exact plainQuoted_ident (target_ident hc hp ht)
        · rw [List.mem_singleton.1 hp']
          exact ⟨lineWord_literal "field"ₛ (by decide) (by decide),
            lineWord_ktQuoted (plainQuoted_ident (alnum_ident (hc _ (hr r hr')).2))⟩
    · rw [if_neg h] at e; cases e
  · exact ⟨by show Ident "CreationTimestamp"ₛ; decide, by intro p hp; cases hp⟩
  · exact ⟨by show Ident "UpdateTimestamp"ₛ; decide, by intro p hp; cases hp⟩
  · exact ⟨by show Ident "Column"ₛ; decide, plain_columnArgs sc hn⟩

end Jpa
end Octo
