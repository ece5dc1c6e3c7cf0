import Verif.Props.Groups
import Verif.Props.Protobuf
import Verif.Props.Dbml
import Verif.Lemmas.CliOutput

/-! Property C128, exactly: when `generate gorm` and `generate pb` restricted to groups do what they do on the schema of these groups. -/

namespace Octo
open Spec Cli

/-- Every reference of a table of the groups that leads to a column leads to a column of a table of the groups. -/
def Spec.ClosedLinks (gs : List Str) (s : Schema) : Prop :=
  ∀ t ∈ s.tables, t.group ∈ gs → ∀ c ∈ t.columns, ∀ r, c.ref = some r →
    ∀ u ∈ s.tables, u.name = r.table → (∃ d ∈ u.columns, d.name = r.column) → u.group ∈ gs

theorem tableByName_of_mem {ts : List Table} (hd : (ts.map (·.name)).Nodup) {u : Table} (hu : u ∈ ts) :
    ts.find? (fun t => t.name == u.name) = some u := by
  induction ts with
  | nil => cases hu
  | cons t ts ih =>
    rw [List.map_cons, List.nodup_cons] at hd
    rcases List.mem_cons.1 hu with rfl | hu
    · exact List.find?_cons_of_pos (by simp)
    · rw [List.find?_cons_of_neg]
      · exact ih hd.2 hu
      · intro e
        exact hd.1 (List.mem_map.2 ⟨u, hu, (beq_iff_eq.1 e).symm⟩)

theorem tableByName_restrict {gs : List Str} {s : Schema} (hd : (s.tables.map (·.name)).Nodup) (n : Str) :
    (restrict gs s).tableByName n = s.tableByName n ∨ (restrict gs s).tableByName n = none := by
  cases h : (restrict gs s).tableByName n with
  | none => exact .inr rfl
  | some u =>
    left
    have hm := mem_restrict.1 (List.mem_of_find?_eq_some h)
    have hn : u.name = n := beq_iff_eq.1 (List.find?_some (p := fun t : Table => t.name == n) h)
    have := tableByName_of_mem hd hm.1
    rw [hn] at this
    exact this.symm

theorem findReference_restrict {gs : List Str} {s : Schema} (hd : (s.tables.map (·.name)).Nodup) (r : Reference) :
    (restrict gs s).findReference r = s.findReference r ∨ (restrict gs s).findReference r = none := by
  unfold Schema.findReference
  rcases tableByName_restrict (gs := gs) hd r.table with h | h
  · rw [h]; exact .inl rfl
  · rw [h]; exact .inr rfl

theorem findReference_none {gs : List Str} {s : Schema} (hd : (s.tables.map (·.name)).Nodup) (r : Reference) :
    (restrict gs s).findReference r = s.findReference r ↔
      ∀ u ∈ s.tables, u.name = r.table → (∃ d ∈ u.columns, d.name = r.column) → u.group ∈ gs := by
  constructor
  · intro h u hu hn ⟨d, hd1, hd2⟩
    have h1 : s.tableByName r.table = some u := by rw [← hn]; exact tableByName_of_mem hd hu
    have h2 : ∃ c, u.columnByName r.column = some c := by
      unfold Table.columnByName
      rw [← Option.isSome_iff_exists, List.find?_isSome]
      exact ⟨d, hd1, by simp [hd2]⟩
    obtain ⟨c, hc⟩ := h2
    have h3 : s.findReference r = some (u, c) := by unfold Schema.findReference; rw [h1]; dsimp only; rw [hc]
    rw [h3] at h
    unfold Schema.findReference at h
    cases h4 : (restrict gs s).tableByName r.table with
    | none => rw [h4] at h; cases h
    | some u' =>
      rw [h4] at h
      dsimp only at h
      cases h5 : u'.columnByName r.column with
      | none => rw [h5] at h; cases h
      | some c' =>
        rw [h5] at h
        cases h
        exact (mem_restrict.1 (List.mem_of_find?_eq_some h4)).2
  · intro h
    rcases findReference_restrict (gs := gs) hd r with e | e
    · exact e
    · rw [e]
      cases h3 : s.findReference r with
      | none => rfl
      | some p =>
        exfalso
        unfold Schema.findReference at h3
        cases h1 : s.tableByName r.table with
        | none => rw [h1] at h3; cases h3
        | some u =>
          rw [h1] at h3
          dsimp only at h3
          cases h2 : u.columnByName r.column with
          | none => rw [h2] at h3; cases h3
          | some c =>
            have hu := List.mem_of_find?_eq_some h1
            have hn : u.name = r.table := beq_iff_eq.1 (List.find?_some (p := fun t : Table => t.name == r.table) h1)
            have hg := h u hu hn ⟨c, List.mem_of_find?_eq_some h2, beq_iff_eq.1 (List.find?_some (p := fun t : Column => t.name == r.column) h2)⟩
            have h4 : (restrict gs s).tableByName r.table = s.tableByName r.table := by
              refine tableByName_groups r.table fun x hx hxn => ?_
              have := tableByName_of_mem hd hx
              rw [hxn] at this
              unfold Schema.tableByName at h1
              rw [h1] at this
              cases this
              exact hg
            unfold Schema.findReference at e
            rw [h4, h1] at e
            dsimp only at e
            rw [h2] at e
            cases e

theorem flatMap_length_eq {α β : Type} {l : List α} {f g : α → List β} (hle : ∀ a ∈ l, (g a).length ≤ (f a).length)
    (h : (l.flatMap f).length = (l.flatMap g).length) : ∀ a ∈ l, (f a).length = (g a).length := by
  have le : ∀ l : List α, (∀ a ∈ l, (g a).length ≤ (f a).length) → (l.flatMap g).length ≤ (l.flatMap f).length := by
    intro l
    induction l with
    | nil => intro _; exact Nat.le_refl _
    | cons a l ih =>
      intro hle
      rw [List.flatMap_cons, List.flatMap_cons, List.length_append, List.length_append]
      exact Nat.add_le_add (hle a List.mem_cons_self) (ih fun b hb => hle b (List.mem_cons_of_mem _ hb))
  induction l with
  | nil => intro a ha; cases ha
  | cons a l ih =>
    rw [List.flatMap_cons, List.flatMap_cons, List.length_append, List.length_append] at h
    have h1 := hle a List.mem_cons_self
    have h2 := le l fun b hb => hle b (List.mem_cons_of_mem _ hb)
    intro b hb
    rcases List.mem_cons.1 hb with rfl | hb
    · omega
    · exact ih (fun b hb => hle b (List.mem_cons_of_mem _ hb)) (by omega) b hb

theorem flatMap_filterMap {α β γ : Type} (f : α → Option β) (g : β → List γ) (l : List α) :
    (l.filterMap f).flatMap g = l.flatMap fun a => (f a).elim [] g := by
  induction l with
  | nil => rfl
  | cons a l ih =>
    rw [List.flatMap_cons, List.filterMap_cons]
    cases f a with
    | none => exact ih
    | some b => dsimp only; rw [List.flatMap_cons, ih]; rfl

theorem associations_length (sc : Strcase) {s s' : Schema} (o o' : Gorm.GormOption) (f : Gorm.GoAssociation → Str)
    (hf : ∀ a, 0 < (f a).length) (hs : ∀ c, Gorm.association sc s' o' c = Gorm.association sc s o c ∨ Gorm.association sc s' o' c = none)
    (cs : List Column) :
    ((cs.filterMap (Gorm.association sc s' o')).flatMap f).length ≤ ((cs.filterMap (Gorm.association sc s o)).flatMap f).length ∧
    (((cs.filterMap (Gorm.association sc s o)).flatMap f).length = ((cs.filterMap (Gorm.association sc s' o')).flatMap f).length →
      ∀ c ∈ cs, Gorm.association sc s' o' c = Gorm.association sc s o c) := by
  have hle : ∀ c, ((Gorm.association sc s' o' c).elim [] f).length ≤
      ((Gorm.association sc s o c).elim [] f).length := by
    intro c
    rcases hs c with h | h
    · rw [h]
    · rw [h]; exact Nat.zero_le _
  rw [flatMap_filterMap, flatMap_filterMap]
  constructor
  · induction cs with
    | nil => exact Nat.le_refl _
    | cons c cs ih =>
      rw [List.flatMap_cons, List.flatMap_cons, List.length_append, List.length_append]
      exact Nat.add_le_add (hle c) ih
  · intro h c hc
    have h := flatMap_length_eq (fun c _ => hle c) h c hc
    rcases hs c with e | e
    · exact e
    · rw [e] at h ⊢
      cases h2 : Gorm.association sc s o c with
      | none => rfl
      | some a =>
        rw [h2] at h
        exact absurd h (Nat.ne_of_gt (hf a))

/-- The text of a struct without its associations: what is before and behind them. -/
theorem structText_parts (o : Gorm.GormOption) (g : Gorm.GoStruct) : ∃ a b, ∀ as : List Gorm.GoAssociation,
    Gorm.structText o { g with associations := as } = a ++ as.flatMap (fun x => "\n\t"ₛ ++ Gorm.fieldLine x.name (Gorm.associationType o x)
      (Gorm.gormTag ["foreignKey:"ₛ ++ x.foreignKey, "references:"ₛ ++ x.reference])) ++ b := by
  refine ⟨"type "ₛ ++ g.name ++ " struct {"ₛ ++ g.embedded.flatMap (fun e => "\n\t"ₛ ++ e) ++ (g.fields.map (fun f =>
      Gorm.fieldLine f.name f.type (Gorm.gormTag (Gorm.fieldTags g.table (Gorm.uniqueCstName o g) f)))).flatMap (fun f => "\n\t"ₛ ++ f),
    "\n}\n\nfunc (c *"ₛ ++ g.name ++ ") TableName() string { return \""ₛ ++ g.table.name ++ "\" }\n\n"ₛ, fun as => ?_⟩
  unfold Gorm.structText Gorm.structFields
  dsimp only
  simp only [List.flatMap_append, List.flatMap_map, List.append_assoc]
  rfl

theorem association_iff {gs : List Str} {s : Schema} (hd : (s.tables.map (·.name)).Nodup) (sc : Strcase) {o o' : Gorm.GormOption}
    (ho : Gorm.structName sc o' = Gorm.structName sc o) (c : Column) :
    (Gorm.association sc (restrict gs s) o' c = Gorm.association sc s o c ∨ Gorm.association sc (restrict gs s) o' c = none) ∧
    (Gorm.association sc (restrict gs s) o' c = Gorm.association sc s o c ↔ ∀ r, c.ref = some r →
      ∀ u ∈ s.tables, u.name = r.table → (∃ d ∈ u.columns, d.name = r.column) → u.group ∈ gs) := by
  unfold Gorm.association
  cases c.ref with
  | none => exact ⟨.inl rfl, ⟨(fun _ r h => by cases h), (fun _ => rfl)⟩⟩
  | some r =>
    rw [Option.bind_some, Option.bind_some, ho]
    constructor
    · rcases findReference_restrict (gs := gs) hd r with h | h
      · rw [h]; exact .inl rfl
      · rw [h]; exact .inr rfl
    · constructor
      · intro h r' hr
        cases hr
        refine (findReference_none hd r).1 ?_
        rcases findReference_restrict (gs := gs) hd r with e | e
        · exact e
        · rw [e] at h ⊢
          cases h2 : s.findReference r with
          | none => rfl
          | some p => rw [h2] at h; cases h
      · intro h
        rw [(findReference_none hd r).2 (h r rfl)]

theorem gorm_texts (sc : Strcase) (ords : Nat → (Gorm.Models → Gorm.Models) × (Gorm.Models → Gorm.Models)) (models : Gorm.Models)
    {text : Str} {gs : List Str} (hg : NamesGroups text gs) (s : Schema) (hd : (s.tables.map (·.name)).Nodup)
    (p : PrefixMapper) (e pk : Str) (pa : Bool) (rp : List Str) (u : Str) :
    (Gorm.generate sc ords models ⟨p, getTableFilterFn text, e, pk, pa, rp, u⟩ s).1 =
      (Gorm.generate sc ords models ⟨p, getTableFilterFn [], e, pk, pa, rp, u⟩ (restrict gs s)).1 ↔ ClosedLinks gs s := by
  have hsel : ∀ t, t ∈ (restrict gs s).tables.filter (passes (getTableFilterFn [])) ↔ t ∈ s.tables ∧ t.group ∈ gs := fun t => by
    rw [List.mem_filter, mem_restrict]
    exact and_iff_left rfl
  have hc := association_iff (gs := gs) hd sc (o := ⟨p, getTableFilterFn text, e, pk, pa, rp, u⟩)
    (o' := ⟨p, getTableFilterFn [], e, pk, pa, rp, u⟩) rfl
  unfold Gorm.generate Gorm.structs Gorm.selected
  dsimp only
  rw [filter_groups hg s]
  generalize hl : (restrict gs s).tables.filter (passes (getTableFilterFn [])) = l
  rw [hl] at hsel
  have hi : ∀ (A B : Table × Nat → Gorm.GoStruct) (l : List (Table × Nat)), (∀ q, (A q).embedded = (B q).embedded) →
      (∀ q, (A q).fields = (B q).fields) → Gorm.imports (l.map A) = Gorm.imports (l.map B) := by
    intro A B l h1 h2
    unfold Gorm.imports
    rw [List.foldl_map, List.foldl_map]
    simp only [h1, h2]
  rw [hi (fun q => Gorm.newGoStruct sc s ⟨p, getTableFilterFn text, e, pk, pa, rp, u⟩ (Gorm.register models e) (ords q.2).1
    (ords q.2).2 q.1) (fun q => Gorm.newGoStruct sc (restrict gs s) ⟨p, getTableFilterFn [], e, pk, pa, rp, u⟩ (Gorm.register models e) (ords q.2).1
    (ords q.2).2 q.1) l.zipIdx (fun _ => rfl) (fun _ => rfl)]
  unfold Gorm.headerText
  dsimp only
  rw [List.append_cancel_left_eq, List.flatMap_map, List.flatMap_map]
  constructor
  · intro h t ht hg c hcm
    have hm := (hsel t).2 ⟨ht, hg⟩
    obtain ⟨i, hi⟩ : ∃ i, (t, i) ∈ l.zipIdx := by
      obtain ⟨i, hi, e⟩ := List.getElem_of_mem hm
      exact ⟨i, List.mk_mem_zipIdx_iff_getElem?.2 (by rw [List.getElem?_eq_getElem hi, e])⟩
    have hlen := flatMap_length_eq (l := l.zipIdx) ?_ (congrArg List.length h) (t, i) hi
    · obtain ⟨a, b, hab⟩ := structText_parts ⟨p, getTableFilterFn text, e, pk, pa, rp, u⟩ (Gorm.newGoStruct sc s
        ⟨p, getTableFilterFn text, e, pk, pa, rp, u⟩ (Gorm.register models e) (ords i).1 (ords i).2 t)
      have h1 := hab (t.columns.filterMap (Gorm.association sc s ⟨p, getTableFilterFn text, e, pk, pa, rp, u⟩))
      have h2 := hab (t.columns.filterMap (Gorm.association sc (restrict gs s) ⟨p, getTableFilterFn [], e, pk, pa, rp, u⟩))
      have hlen := (congrArg List.length h1).symm.trans (hlen.trans (congrArg List.length h2))
      simp only [List.length_append, Nat.add_right_cancel_iff, Nat.add_left_cancel_iff] at hlen
      exact (hc c).2.1 ((associations_length sc _ _ _ (fun _ => by rw [List.length_append]; exact Nat.lt_of_lt_of_le (by decide) (Nat.le_add_right 2 _))
        (fun c => (hc c).1) t.columns).2 hlen c hcm)
    · rintro ⟨t, i⟩ -
      obtain ⟨a, b, hab⟩ := structText_parts ⟨p, getTableFilterFn text, e, pk, pa, rp, u⟩ (Gorm.newGoStruct sc s
        ⟨p, getTableFilterFn text, e, pk, pa, rp, u⟩ (Gorm.register models e) (ords i).1 (ords i).2 t)
      have h1 := hab (t.columns.filterMap (Gorm.association sc s ⟨p, getTableFilterFn text, e, pk, pa, rp, u⟩))
      have h2 := hab (t.columns.filterMap (Gorm.association sc (restrict gs s) ⟨p, getTableFilterFn [], e, pk, pa, rp, u⟩))
      refine Nat.le_trans (Nat.le_of_eq (congrArg List.length h2)) (Nat.le_trans ?_ (Nat.le_of_eq (congrArg List.length h1.symm)))
      simp only [List.length_append (bs := b), List.length_append (as := a)]
      have := (associations_length sc (s := s) (s' := restrict gs s) ⟨p, getTableFilterFn text, e, pk, pa, rp, u⟩
        ⟨p, getTableFilterFn [], e, pk, pa, rp, u⟩ (fun x => "\n\t"ₛ ++ Gorm.fieldLine x.name
          (Gorm.associationType ⟨p, getTableFilterFn text, e, pk, pa, rp, u⟩ x)
          (Gorm.gormTag ["foreignKey:"ₛ ++ x.foreignKey, "references:"ₛ ++ x.reference]))
        (fun _ => by rw [List.length_append]; exact Nat.lt_of_lt_of_le (by decide) (Nat.le_add_right 2 _)) (fun c => (hc c).1) t.columns).1
      omega
  · intro h
    refine List.flatMap_congr fun q hq => ?_
    have hq := (hsel q.1).1 (List.fst_mem_of_mem_zipIdx hq)
    have ha : q.1.columns.filterMap (Gorm.association sc s ⟨p, getTableFilterFn text, e, pk, pa, rp, u⟩) =
        q.1.columns.filterMap (Gorm.association sc (restrict gs s) ⟨p, getTableFilterFn [], e, pk, pa, rp, u⟩) :=
      List.filterMap_congr fun c hcm => ((hc c).2.2 (h q.1 hq.1 hq.2 c hcm)).symm
    unfold Gorm.newGoStruct
    dsimp only
    rw [ha]
    rfl

section
variable (w : World) (v v' : Values) (gs : List Str)
  (hg : NamesGroups (v "groups"ₛ) gs) (hv : v' "groups"ₛ = []) (hother : ∀ n, n ≠ "groups"ₛ → n ≠ "input"ₛ → v' n = v n)
  (fs : Files) (s : Schema) (hl : load w fs (v "input"ₛ) = some s) (hload : load w fs (v' "input"ₛ) = some (restrict gs s))
  (hd : (s.tables.map (·.name)).Nodup)
include hg hv hother hl hload hd

/-- C128, exactly: when `generate gorm` with `--groups` succeeds for a schema with distinct table names, it does what it does without it
for the tables of these groups if and only if no reference of these tables leads to a column of another group. -/
theorem C128_gorm_exact (hok : (action w .gorm v fs).status = .ok) :
    action w .gorm v fs = action w .gorm v' fs ↔ ClosedLinks gs s := by
  have hb : ∀ n, n ≠ "groups"ₛ → n ≠ "input"ₛ → v'.bool n = v.bool n := fun n h1 h2 => by unfold Values.bool; rw [hother n h1 h2]
  have h1 : ∀ k, withSchema w fs (v "input"ₛ) k = k s := fun k => by unfold withSchema; rw [hl]
  have h2 : ∀ k, withSchema w fs (v' "input"ₛ) k = k (restrict gs s) := fun k => by unfold withSchema; rw [hload]
  change (gormAction w v fs).status = _ at hok
  change gormAction w v fs = gormAction w v' fs ↔ _
  unfold gormAction at hok ⊢
  rw [h1] at hok ⊢
  rw [h2, hv, hother "output"ₛ (by decide) (by decide), hother "uniqueNameSuffix"ₛ (by decide) (by decide),
    hother "prefix"ₛ (by decide) (by decide), hother "embed"ₛ (by decide) (by decide), hother "package"ₛ (by decide) (by decide),
    hother "removePrefix"ₛ (by decide) (by decide), hb "pointerAssociation"ₛ (by decide) (by decide)]
  cases hp : newPrefixMapper (v "prefix"ₛ) with
  | none => rw [hp] at hok; cases hok
  | some m =>
    rw [hp] at hok
    dsimp only at hok ⊢
    rw [← gorm_texts w.sc w.models Gorm.defaultModels hg s hd m (v "embed"ₛ) (v "package"ₛ) (v.bool "pointerAssociation"ₛ)
      (split ',' (v "removePrefix"ₛ)) (v "uniqueNameSuffix"ₛ)]
    generalize (Gorm.generate w.sc w.models Gorm.defaultModels _ s).1 = x at hok ⊢
    generalize (Gorm.generate w.sc w.models Gorm.defaultModels _ (restrict gs s)).1 = y at hok ⊢
    constructor
    · intro h
      have hok' := hok
      rw [h] at hok'
      have hf := congrArg Result.files h
      have key : ∀ p : Path, fs.set p (.text x) = fs.set p (.text y) → x = y := by
        intro p e
        have e := congrFun e p
        unfold Files.set at e
        rw [if_pos rfl, if_pos rfl] at e
        cases e
        rfl
      rcases writeIn_done hok with ⟨ha, e⟩ | ⟨ha, hb, e⟩
      · rcases writeIn_done hok' with ⟨_, e'⟩ | ⟨ha', _⟩
        · exact key _ (e.symm.trans (hf.trans e'))
        · exact absurd ha ha'
      · rcases writeIn_done hok' with ⟨ha', _⟩ | ⟨_, _, e'⟩
        · exact absurd ha' ha
        · exact key _ (e.symm.trans (hf.trans e'))
    · rintro rfl
      rfl

/-- C128, exactly: the same for `generate pb`, if and only if no reference of these tables leads to a table of another group. -/
theorem C128_pb_exact (hok : (action w .pb v fs).status = .ok) : action w .pb v fs = action w .pb v' fs ↔ ClosedGroups gs s := by
  constructor
  · intro h t ht htg c hc r hr u hu hn
    by_contra hug
    rw [h] at hok
    have h2 : ∀ k, withSchema w fs (v' "input"ₛ) k = k (restrict gs s) := fun k => by unfold withSchema; rw [hload]
    change (pbAction w v' fs).status = _ at hok
    unfold pbAction Protobuf.cliOption at hok
    rw [h2, hv] at hok
    cases hp : newPrefixMapper (v' "prefix"ₛ) with
    | none => rw [hp] at hok; cases hok
    | some m =>
      rw [hp] at hok
      dsimp only [Option.map] at hok
      rw [(C80_panics_iff _ _ _).2 ⟨t, ?_, r, List.mem_filterMap.2 ⟨c, hc, hr⟩, ?_⟩] at hok
      · cases hok
      · exact List.mem_filter.2 ⟨mem_restrict.2 ⟨ht, htg⟩, rfl⟩
      · intro x hx hxn
        obtain ⟨hx, hxg⟩ := mem_restrict.1 hx
        have e1 := tableByName_of_mem hd hx
        have e2 := tableByName_of_mem hd hu
        rw [hxn, ← hn, e2] at e1
        cases e1
        exact hug hxg
  · intro h
    refine C128_closed_partial w .pb (.inr rfl) v v' gs hg hv hother fs (by rw [hl, hload]; rfl) fun s' hs' => ?_
    rw [hl] at hs'
    cases hs'
    exact h

omit hg hv hd in
/-- C128, exactly: the same for `export dbml` and a schema whose names and texts need no quotes, if and only if all tables are in these
groups. -/
theorem C128_dbml_exact (hplain : ∀ t ∈ s.tables, PlainDbmlTable t) (hok : (action w .exportDbml v fs).status = .ok) :
    action w .exportDbml v fs = action w .exportDbml v' fs ↔ ∀ t ∈ s.tables, t.group ∈ gs := by
  have h1 : ∀ k, withSchema w fs (v "input"ₛ) k = k s := fun k => by unfold withSchema; rw [hl]
  have h2 : ∀ k, withSchema w fs (v' "input"ₛ) k = k (restrict gs s) := fun k => by unfold withSchema; rw [hload]
  change (exportDbmlAction w v fs).status = _ at hok
  change exportDbmlAction w v fs = exportDbmlAction w v' fs ↔ _
  unfold exportDbmlAction at hok ⊢
  rw [h1] at hok ⊢
  rw [h2, hother "output"ₛ (by decide) (by decide)]
  constructor
  · intro h
    have hok' := hok
    rw [h] at hok'
    have hf := (write_done hok).symm.trans ((congrArg Result.files h).trans (write_done hok'))
    have e := congrFun hf (pathOf (v "output"ₛ))
    unfold Files.set at e
    rw [if_pos rfl, if_pos rfl] at e
    injection e with e
    injection e with e
    obtain ⟨d, hd, hn, _⟩ := C51_relations_partial (getTableFilterFn (v "groups"ₛ)) s hplain
    obtain ⟨d', hd', hn', _⟩ := C51_relations_partial (getTableFilterFn (v' "groups"ₛ)) (restrict gs s)
      fun t ht => hplain t (mem_restrict.1 ht).1
    rw [e, hd'] at hd
    cases hd
    have hlen := hn.length_eq.trans hn'.length_eq.symm
    intro t ht
    have := List.length_filter_eq_length_iff.1 hlen.symm t ht
    exact of_decide_eq_true this
  · intro h
    have e : restrict gs s = s := by
      unfold restrict
      rw [List.filter_eq_self.2 fun t ht => decide_eq_true (h t ht)]
    rw [e]
    rfl

end

/-- C128, exactly: the conditions can be met, by a schema with links between the groups and by one without. -/
example :
    let fs := twoFiles ["h"ₛ] demoA
    let v := given [("input"ₛ, "a.json"ₛ), ("output"ₛ, "o"ₛ), ("groups"ₛ, "h"ₛ)]
    let v' := given [("input"ₛ, "b.json"ₛ), ("output"ₛ, "o"ₛ)]
    NamesGroups (v "groups"ₛ) ["h"ₛ] ∧ v' "groups"ₛ = [] ∧ load demoWorld fs (v "input"ₛ) = some demoA ∧
    load demoWorld fs (v' "input"ₛ) = some (restrict ["h"ₛ] demoA) ∧ (demoA.tables.map (·.name)).Nodup ∧
    (action demoWorld .gorm v fs).status = .ok ∧ (action demoWorld .pb v fs).status = .ok ∧ ¬ClosedLinks ["h"ₛ] demoA ∧ (action demoWorld .exportDbml v fs).status = .ok ∧
    ClosedLinks ["g"ₛ] demoA ∧ ClosedGroups ["g"ₛ] demoA := by
  dsimp only
  refine ⟨⟨by decide +kernel, by decide +kernel, by decide +kernel⟩, by decide +kernel, by decide +kernel, by decide +kernel,
    by decide +kernel, by decide +kernel, by decide +kernel, ?_, by decide +kernel, ?_, ?_⟩
  · unfold ClosedLinks; decide +kernel
  · unfold ClosedLinks; decide +kernel
  · unfold ClosedGroups; decide +kernel

end Octo
