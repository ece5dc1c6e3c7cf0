import Verif.Lemmas.SaDescribe

/-! Lemmas about the whole SQLAlchemy generator. -/

namespace Octo.Sqlalchemy
open Spec Protobuf Jpa

theorem newClasses_eq (sc : Strcase) (o : SaOption) (s : Schema) : newClasses sc o s = (SaSelected o s).map (newClass sc o) := by
  unfold newClasses SaSelected
  congr 1
  refine List.filter_congr fun t _ => ?_
  unfold passes
  cases o.tableFilter <;> rfl

theorem mem_selected {o : SaOption} {s : Schema} {t : Table} (h : t ∈ SaSelected o s) : t ∈ s.tables := (List.mem_filter.1 h).1

theorem generate_single {sc : Strcase} {o : SaOption} {s : Schema} {out : Str} (h : SingleFile out) :
    generate sc o s out = [(Jpa.pathJoin [out], singleText o ((SaSelected o s).map (newClass sc o)))] := by
  unfold generate
  dsimp only
  rw [if_pos ((single_iff out).2 h), newClasses_eq]

theorem generate_files {sc : Strcase} {o : SaOption} {s : Schema} {out : Str} (h : ¬ SingleFile out) :
    (generate sc o s out).length = (SaSelected o s).length ∧ ∀ (i : Nat) t w, (SaSelected o s)[i]? = some t →
      (generate sc o s out)[i]? = some w → IsClassText sc o out (i = 0) t w := by
  unfold generate
  dsimp only
  rw [if_neg (fun e => h ((single_iff out).1 e)), newClasses_eq]
  obtain ⟨h1, h2⟩ := classFiles_eq sc o out (SaSelected o s) start True rfl (by
    intro n
    show n ∈ ["Column"ₛ] ↔ _
    rw [List.mem_singleton]
    exact (and_iff_right trivial).symm)
  refine ⟨h1, fun i t w ht hw => ?_⟩
  obtain ⟨a, b, e1, e2, e3⟩ := h2 i t w ht hw
  exact ⟨a, b, e1, fun n => (e2 n).trans (or_congr (and_congr_left fun _ => and_iff_left trivial) Iff.rfl), e3⟩

theorem file_at {sc : Strcase} {o : SaOption} {s : Schema} {out : Str} (h : ¬ SingleFile out) {i : Nat} {t : Table}
    (ht : (SaSelected o s)[i]? = some t) : ∃ w, (generate sc o s out)[i]? = some w ∧ IsClassText sc o out (i = 0) t w := by
  obtain ⟨h1, h2⟩ := generate_files (sc := sc) (o := o) (s := s) h
  obtain ⟨hi, _⟩ := List.getElem?_eq_some_iff.1 ht
  rw [← h1] at hi
  exact ⟨_, List.getElem?_eq_getElem hi, h2 i t _ ht (List.getElem?_eq_getElem hi)⟩

theorem pyClasses_fileOf (imports sa : List Str) (tz : Bool) (ks : List PyClass) :
    pyClasses (fileOf imports sa tz ks) = (if tz then [tzClass] else []) ++ ks := by
  have h1 : pyClasses (headerFile imports sa) = [] := by
    unfold pyClasses headerFile
    rw [List.filterMap_append, List.filterMap_eq_nil_iff.2]
    · rfl
    · intro x hx
      obtain ⟨l, _, rfl⟩ := List.mem_map.1 hx
      rfl
  have h2 : ∀ ks : List PyClass, pyClasses (ks.map .cls) = ks := by
    intro ks
    induction ks with
    | nil => rfl
    | cons k ks ih => exact congrArg (k :: ·) ih
  unfold fileOf
  rw [show ∀ a b : PyFile, pyClasses (a ++ b) = pyClasses a ++ pyClasses b from fun a b => List.filterMap_append ..,
    show ∀ a b : PyFile, pyClasses (a ++ b) = pyClasses a ++ pyClasses b from fun a b => List.filterMap_append .., h1, h2]
  cases tz <;> rfl

/-- The names with their origins are distinct. -/
theorem origins_nodup : ((saOrigins.take 9).map Prod.fst).Nodup := by decide +kernel

theorem importable_origin : ∀ n ∈ saImportable, saOrigins.lookup n = some (.module "sqlalchemy"ₛ) := by decide +kernel

theorem importable_not : ∀ n ∈ saImportable, n ≠ "Base"ₛ ∧ n ≠ "RepresentableBase"ₛ ∧ n ≠ "declarative_base"ₛ ∧ n ≠ "TZDateTime"ₛ := by
  decide +kernel

/-- A name that is imported from SQLAlchemy. -/
theorem header_sa {imports sa : List Str} (hi : ∀ l ∈ imports, l ∈ timeImports) {n : Str} (h : n ∈ saImportable) :
    (headerScope imports sa).lookup n = if n ∈ sa then some (.module "sqlalchemy"ₛ) else none := by
  have ht : ∀ n ∈ saImportable, "from datetime import "ₛ ++ n ∉ timeImports := by decide +kernel
  obtain ⟨h1, h2, h3, _⟩ := importable_not n h
  rw [header_lookup hi, if_neg h1, if_neg h2, if_neg h3]
  by_cases hs : n ∈ sa
  · rw [if_pos hs, if_pos hs]
  · rw [if_neg hs, if_neg hs, if_neg fun e => ht n h (hi _ e)]

/-- A name that is imported for times. -/
theorem header_time {imports sa : List Str} (hi : ∀ l ∈ imports, l ∈ timeImports) (hs : ∀ n ∈ sa, n ∈ saImportable) {n : Str}
    (h : n = "datetime"ₛ ∨ n = "timezone"ₛ) :
    (headerScope imports sa).lookup n = if "from datetime import "ₛ ++ n ∈ imports then some (.module "datetime"ₛ) else none := by
  have ht : ∀ n ∈ ["datetime"ₛ, "timezone"ₛ], n ∉ saImportable ∧ n ≠ "Base"ₛ ∧ n ≠ "RepresentableBase"ₛ ∧ n ≠ "declarative_base"ₛ := by
    decide +kernel
  obtain ⟨h0, h1, h2, h3⟩ := ht n (by rcases h with rfl | rfl <;> simp)
  rw [header_lookup hi, if_neg h1, if_neg h2, if_neg h3, if_neg fun e => h0 (hs n e)]

theorem header_base {imports sa : List Str} (hi : ∀ l ∈ imports, l ∈ timeImports) : (headerScope imports sa).lookup "Base"ₛ = some .value := by
  rw [header_lookup hi, if_pos rfl]

theorem header_tz {imports sa : List Str} (hi : ∀ l ∈ imports, l ∈ timeImports) (hs : ∀ n ∈ sa, n ∈ saImportable) :
    (headerScope imports sa).lookup "TZDateTime"ₛ = none := by
  rw [header_lookup hi, if_neg (by decide), if_neg (by decide), if_neg (by decide), if_neg fun e => absurd (hs _ e) (by decide +kernel),
    if_neg fun e => absurd (hi _ e) (by decide +kernel)]

/-- The type of a column is imported, or is the class for times. -/
theorem typeName_cases {o : SaOption} {c : Column} {n : Str} (h : saTypeName o c = some n) :
    Converted o c ∧ n = "TZDateTime"ₛ ∨ saType c = some n ∧ n ∈ saImportable := by
  unfold saTypeName at h
  split at h
  · exact Or.inl ⟨by assumption, (Option.some.inj h).symm⟩
  · refine Or.inr ⟨h, ?_⟩
    exact List.mem_cons_of_mem _ (List.mem_cons_of_mem _ (List.mem_cons_of_mem _ (saType_mem h)))

/-- Where the names of the class of a table come from: `tz` tells whether the class for times is there, `first` whether `Column` is
imported. -/
theorem class_resolved {sc : Strcase} {o : SaOption} {s : Schema} (hp : PlainSa sc o s) {t : Table} (ht : t ∈ s.tables)
    {imports sa : List Str} (hi : ∀ l ∈ imports, l ∈ timeImports) (hs : ∀ n ∈ sa, n ∈ saImportable)
    (hi' : ∀ l, TimeNeeds o t l → l ∈ imports) (hs' : ∀ n, SaNeeds o t n → n ∈ sa) {n : Str} (hn : ClassUses (pyClassOf sc o t) n) :
    (headerScope imports sa).lookup n = saOrigins.lookup n ∧ saOrigins.lookup n ≠ none ∨ n = "Column"ₛ ∧ "Column"ₛ ∉ sa ∨
      n = "TZDateTime"ₛ ∧ ∃ c ∈ t.columns, Converted o c := by
  rcases (class_uses hp ht n).1 hn with rfl | ⟨rfl, hu⟩ | ⟨c, hc, rfl | h | ⟨rfl, hst⟩⟩
  · exact Or.inl ⟨by rw [header_base hi]; decide +kernel, by decide +kernel⟩
  · have hm : "UniqueConstraint"ₛ ∈ saImportable := by decide +kernel
    refine Or.inl ⟨?_, by decide +kernel⟩
    rw [header_sa hi hm, if_pos (hs' _ (Or.inl ⟨rfl, hu⟩)), importable_origin _ hm]
  · by_cases h : "Column"ₛ ∈ sa
    · have hm : "Column"ₛ ∈ saImportable := by decide +kernel
      exact Or.inl ⟨by rw [header_sa hi hm, if_pos h, importable_origin _ hm], by decide +kernel⟩
    · exact Or.inr (Or.inl ⟨rfl, h⟩)
  · rcases typeName_cases h with ⟨hC, rfl⟩ | ⟨h1, h2⟩
    · exact Or.inr (Or.inr ⟨rfl, c, hc, hC⟩)
    · refine Or.inl ⟨?_, ?_⟩
      · rw [header_sa hi h2, if_pos (hs' _ (Or.inr ⟨c, hc, Or.inl h1⟩)), importable_origin _ h2]
      · rw [importable_origin _ h2]; exact fun e => by cases e
  · refine Or.inl ⟨?_, by decide +kernel⟩
    rw [header_time hi hs (Or.inl rfl), if_pos (c := "from datetime import "ₛ ++ "datetime"ₛ ∈ imports) (hi' _ ⟨c, hc, Or.inl ⟨hst.1, rfl⟩⟩)]
    decide +kernel

theorem tz_resolved {imports sa : List Str} (hi : ∀ l ∈ imports, l ∈ timeImports) (hs : ∀ n ∈ sa, n ∈ saImportable)
    (h1 : "TypeDecorator"ₛ ∈ sa) (h2 : "DateTime"ₛ ∈ sa) (h3 : "from datetime import timezone"ₛ ∈ imports) {n : Str}
    (hn : ClassUses tzClass n) : (headerScope imports sa).lookup n = saOrigins.lookup n ∧ saOrigins.lookup n ≠ none ∧ n ≠ "impl"ₛ := by
  have h := tz_uses hn
  rcases List.mem_cons.1 h with rfl | h
  · have hm : "TypeDecorator"ₛ ∈ saImportable := by decide +kernel
    exact ⟨by rw [header_sa hi hm, if_pos h1, importable_origin _ hm], by decide +kernel, by decide⟩
  rcases List.mem_cons.1 h with rfl | h
  · have hm : "DateTime"ₛ ∈ saImportable := by decide +kernel
    exact ⟨by rw [header_sa hi hm, if_pos h2, importable_origin _ hm], by decide +kernel, by decide⟩
  · rw [List.mem_singleton.1 h]
    exact ⟨by rw [header_time hi hs (Or.inr rfl), if_pos (c := "from datetime import "ₛ ++ "timezone"ₛ ∈ imports) h3]; decide +kernel, by decide +kernel, by decide⟩

theorem converted_type {o : SaOption} {c : Column} (h : Converted o c) : saType c = some "DateTime"ₛ := by
  unfold saType
  rw [h.2.1, if_neg (fun e => absurd e.1 (by decide))]
  decide +kernel

/-- A name that a class uses is no name that it binds, when there is no clash. -/
theorem noClash_bound {sc : Strcase} {o : SaOption} {t : Table} (h : NoClash sc o t) {n : Str} (hn : saOrigins.lookup n ≠ none) :
    n ∉ boundNames (pyClassOf sc o t).members ∧ (pyClassOf sc o t).name ≠ n := by
  have hm : n ∈ saOrigins.map Prod.fst := by
    obtain ⟨v, hv⟩ := Option.ne_none_iff_exists'.1 hn
    exact List.mem_map.2 ⟨_, Ojson.lookup_mem' hv, rfl⟩
  constructor
  · rw [class_bound]
    intro e
    rcases List.mem_cons.1 e with rfl | e
    · exact absurd hm (by decide +kernel)
    · obtain ⟨c, hc, rfl⟩ := List.mem_map.1 e
      exact h.2 c hc hm
  · rintro rfl
    exact h.1 hm

/-! ### Names in a single file -/

/-- The names of a single file are bound, and stand for what they should stand for when there is no clash. -/
theorem single_names {sc : Strcase} {o : SaOption} {s : Schema} (hc : CleanCase sc) (hp : PlainSa sc o s) {ts : List Table}
    (hts : ∀ t ∈ ts, t ∈ s.tables) {f : PyFile} (hf : readPy (singleText o (ts.map (newClass sc o))) = some f) {n : Str}
    {r : Option PyOrigin} (hn : (n, r) ∈ pyNames f) :
    r ≠ none ∧ ((∀ t ∈ ts, NoClash sc o t) → r = saOrigins.lookup n) := by
  obtain ⟨imports, sa, tz, hI, hS, hT, hr⟩ := read_single hc hp hts
  rw [hr] at hf
  split at hf
  swap
  · cases hf
  cases hf
  have hi : ∀ l ∈ imports, l ∈ timeImports := by
    intro l hl
    obtain ⟨t, _, h⟩ := (hI l).1 hl
    exact needs_time h
  have hs : ∀ n ∈ sa, n ∈ saImportable := by
    intro n hn
    rcases (hS n).1 hn with rfl | ⟨t, _, h⟩
    · decide +kernel
    · exact needs_importable h
  have htz : tz = true → "TypeDecorator"ₛ ∈ sa ∧ "DateTime"ₛ ∈ sa ∧ "from datetime import timezone"ₛ ∈ imports := by
    intro h
    obtain ⟨t, ht, c, hc, hC⟩ := hT.1 h
    exact ⟨(hS _).2 (Or.inr ⟨t, ht, Or.inr ⟨c, hc, Or.inr ⟨rfl, hC⟩⟩⟩),
      (hS _).2 (Or.inr ⟨t, ht, Or.inr ⟨c, hc, Or.inl (converted_type hC)⟩⟩), (hI _).2 ⟨t, ht, c, hc, Or.inr ⟨hC, rfl⟩⟩⟩
  rcases file_names.1 hn with h | ⟨h, hn⟩ | ⟨a, k, b, e, hn⟩
  · rcases List.mem_cons.1 h with h | h
    · cases h
      exact ⟨by simp, fun _ => by decide +kernel⟩
    · cases List.mem_singleton.1 h
      exact ⟨by simp, fun _ => by decide +kernel⟩
  · obtain ⟨h1, h2, h3⟩ := htz h
    obtain ⟨g1, _, g3⟩ := stmtNames_uses hn
    obtain ⟨e1, e2, e3⟩ := tz_resolved hi hs h1 h2 h3 g1
    have : r = (headerScope imports sa).lookup n := g3 (by rw [tz_bound, List.mem_singleton]; exact e3)
    rw [this, e1]
    exact ⟨e2, fun _ => rfl⟩
  · have hmem : k ∈ ts.map (pyClassOf sc o) := by rw [e]; simp
    obtain ⟨t, ht, rfl⟩ := List.mem_map.1 hmem
    obtain ⟨g1, g2, g3⟩ := stmtNames_uses hn
    have hpre : ∀ x ∈ a, ∃ u ∈ ts, pyClassOf sc o u = x := fun x hx => List.mem_map.1 (by rw [e]; simp [hx])
    have hres := class_resolved hp (hts t ht) hi hs (fun l hl => (hI l).2 ⟨t, ht, hl⟩) (fun m hm => (hS m).2 (Or.inr ⟨t, ht, hm⟩)) g1
    have hskip : (∀ t ∈ ts, NoClash sc o t) → saOrigins.lookup n ≠ none →
        r = (fileScope (headerScope imports sa) (if tz then [.cls tzClass] else [])).lookup n := by
      intro hC ho
      rw [g3 (noClash_bound (hC t ht) ho).1, classScope_skip]
      intro x hx
      obtain ⟨u, hu, rfl⟩ := hpre x hx
      exact (noClash_bound (hC u hu) ho).2
    rcases hres with ⟨h1, h2⟩ | ⟨h1, h2⟩ | ⟨rfl, c, hc, hC⟩
    · refine ⟨g2 (fileScope_more _ _ (fileScope_more _ _ (by rw [h1]; exact h2))), fun hC => ?_⟩
      rw [hskip hC h2, ← h1]
      cases tz
      · rfl
      · refine lookup_skip ?_
        show n ∉ ["TZDateTime"ₛ]
        rw [List.mem_singleton]
        rintro rfl
        rw [header_tz hi hs] at h1
        exact h2 h1.symm
    · exact absurd ((hS _).2 (Or.inl rfl)) h2
    · have htt : tz = true := hT.2 ⟨t, ht, c, hc, hC⟩
      subst htt
      have hl : (fileScope (headerScope imports sa) [.cls tzClass]).lookup "TZDateTime"ₛ = some (.cls "TypeDecorator"ₛ) := rfl
      refine ⟨g2 (fileScope_more _ _ ?_), fun hC => ?_⟩
      · rw [if_pos rfl, hl]; simp
      · rw [hskip hC (by decide +kernel), if_pos rfl, hl]
        decide +kernel

/-- The names of the file of a table that are not bound. -/
theorem class_names {sc : Strcase} {o : SaOption} {s : Schema} (hp : PlainSa sc o s) {t : Table} (ht : t ∈ s.tables)
    {imports sa : List Str} {first : Prop} (hI : ∀ l, l ∈ imports ↔ TimeNeeds o t l)
    (hS : ∀ n, n ∈ sa ↔ first ∧ n = "Column"ₛ ∨ SaNeeds o t n) {n : Str} {r : Option PyOrigin}
    (hn : (n, r) ∈ pyNames (fileOf imports sa false [pyClassOf sc o t])) :
    r ≠ none ∧ (NoClash sc o t → r = saOrigins.lookup n) ∨ n = "Column"ₛ ∧ ¬ first ∨ n = "TZDateTime"ₛ ∧ ∃ c ∈ t.columns, Converted o c := by
  have hi : ∀ l ∈ imports, l ∈ timeImports := fun l hl => needs_time ((hI l).1 hl)
  have hs : ∀ n ∈ sa, n ∈ saImportable := by
    intro n hn
    rcases (hS n).1 hn with ⟨_, rfl⟩ | h
    · decide +kernel
    · exact needs_importable h
  rcases file_names.1 hn with h | ⟨h, _⟩ | ⟨a, k, b, e, hn⟩
  · rcases List.mem_cons.1 h with h | h
    · cases h
      exact Or.inl ⟨by simp, fun _ => by decide +kernel⟩
    · cases List.mem_singleton.1 h
      exact Or.inl ⟨by simp, fun _ => by decide +kernel⟩
  · cases h
  · cases a with
    | cons x a => cases a <;> cases e
    | nil =>
      cases e
      obtain ⟨g1, g2, g3⟩ := stmtNames_uses hn
      have hsc : fileScope (fileScope (headerScope imports sa) (if false = true then [.cls tzClass] else [])) (List.map PyStmt.cls []) =
        headerScope imports sa := rfl
      rw [hsc] at g2 g3
      rcases class_resolved hp ht hi hs (fun l hl => (hI l).2 hl) (fun m hm => (hS m).2 (Or.inr hm)) g1 with ⟨h1, h2⟩ | ⟨h1, h2⟩ | h
      · refine Or.inl ⟨g2 (by rw [h1]; exact h2), fun hC => ?_⟩
        rw [g3 (noClash_bound hC h2).1, h1]
      · exact Or.inr (Or.inl ⟨h1, fun hf => h2 ((hS _).2 (Or.inl ⟨hf, rfl⟩))⟩)
      · exact Or.inr (Or.inr h)

/-- A name that the first column of a class uses. -/
theorem first_column_name {sc : Strcase} {o : SaOption} {t : Table} {c : Column}
    {cs : List Column} (ht' : t.columns = c :: cs) {imports sa : List Str} {n : Str} (hn : n ∈ memberUses (columnMember o.useUTC sc c))
    (hne : n ≠ "__tablename__"ₛ) :
    (n, (headerScope imports sa).lookup n) ∈ pyNames (fileOf imports sa false [pyClassOf sc o t]) := by
  refine file_names.2 (Or.inr (Or.inr ⟨[], _, [], rfl, ?_⟩))
  refine List.mem_cons_of_mem _ ((mem_memberNames _ _).2
    ⟨tableMember t :: (if (uniques t).length > 1 then [uniqueMember sc o t] else []), _, cs.map (columnMember o.useUTC sc), ?_, hn, ?_⟩)
  · unfold pyClassOf
    dsimp only
    rw [ht']
    rfl
  · refine (memberScope_skip _ _ ?_).symm
    have : boundNames (tableMember t :: if (uniques t).length > 1 then [uniqueMember sc o t] else []) = ["__tablename__"ₛ] := by
      split <;> rfl
    rw [this, List.mem_singleton]
    exact hne

/-- A name that a column of a class uses. -/
theorem column_name {sc : Strcase} {o : SaOption} {t : Table} {c : Column} (hc : c ∈ t.columns) {imports sa : List Str} {n : Str}
    (hn : n ∈ memberUses (columnMember o.useUTC sc c)) (hb : n ∉ boundNames (pyClassOf sc o t).members) :
    (n, (headerScope imports sa).lookup n) ∈ pyNames (fileOf imports sa false [pyClassOf sc o t]) := by
  refine file_names.2 (Or.inr (Or.inr ⟨[], _, [], rfl, ?_⟩))
  have hm : columnMember o.useUTC sc c ∈ (pyClassOf sc o t).members := List.mem_append_right _ (List.mem_map.2 ⟨c, hc, rfl⟩)
  obtain ⟨a, b, e⟩ := List.append_of_mem hm
  refine List.mem_cons_of_mem _ ((mem_memberNames _ _).2 ⟨a, _, b, e, hn, ?_⟩)
  refine (memberScope_skip _ _ fun h => hb ?_).symm
  rw [e]
  unfold boundNames at h ⊢
  rw [List.flatMap_append]
  exact List.mem_append_left _ h

/-! ### Classes in files -/

/-- All names and types fit, and no table is empty. -/
theorem written {sc : Strcase} {o : SaOption} {s : Schema} (hc : CleanCase sc) (hp : PlainSa sc o s)
    (hk : ∀ t ∈ SaSelected o s, PyTable sc o t ∧ t.columns ≠ [] ∧ ∀ c ∈ t.columns, saType c ≠ none) (out : Str) {t : Table}
    (ht : t ∈ SaSelected o s) : ∃ w ∈ generate sc o s out, ∃ f, readPy w.2 = some f ∧ pyClassOf sc o t ∈ pyClasses f := by
  by_cases h : SingleFile out
  · rw [generate_single h]
    obtain ⟨imports, sa, tz, _, _, _, hr⟩ := read_single hc hp (ts := SaSelected o s) (fun t ht => mem_selected ht)
    rw [if_pos fun t ht => (hk t ht).1] at hr
    refine ⟨_, List.mem_singleton.2 rfl, _, hr, ?_⟩
    rw [pyClasses_fileOf]
    exact List.mem_append_right _ (List.mem_map.2 ⟨t, ht, rfl⟩)
  · obtain ⟨i, hi⟩ := List.mem_iff_getElem?.1 ht
    obtain ⟨w, hw, imports, sa, h1, h2, rfl⟩ := file_at (sc := sc) h hi
    refine ⟨_, List.mem_iff_getElem?.2 ⟨i, hw⟩, fileOf imports sa false [pyClassOf sc o t], ?_, ?_⟩
    · rw [read_classText hc hp (mem_selected ht) h1 h2]
      refine if_pos ⟨?_, (hk t ht).1⟩
      intro e
      obtain ⟨c, hc⟩ := List.exists_mem_of_ne_nil _ (hk t ht).2.1
      obtain ⟨n, hn⟩ := Option.ne_none_iff_exists'.1 ((hk t ht).2.2 c hc)
      have := (h2 n).2 (Or.inr (Or.inr ⟨c, hc, Or.inl hn⟩))
      rw [e] at this
      cases this
    · rw [pyClasses_fileOf]
      exact List.mem_append_right _ (List.mem_singleton.2 rfl)

theorem read_class_of {sc : Strcase} {o : SaOption} {s : Schema} (hc : CleanCase sc) (hp : PlainSa sc o s) {out : Str} {w : List Str × Str}
    (hw : w ∈ generate sc o s out) {f : PyFile} (hf : readPy w.2 = some f) {k : PyClass} (hk : k ∈ pyClasses f) :
    k = tzClass ∨ ∃ t ∈ SaSelected o s, k = pyClassOf sc o t := by
  by_cases h : SingleFile out
  · rw [generate_single h] at hw
    cases List.mem_singleton.1 hw
    obtain ⟨imports, sa, tz, _, _, _, hr⟩ := read_single hc hp (ts := SaSelected o s) (fun t ht => mem_selected ht)
    rw [hr] at hf
    split at hf
    · cases hf
      rw [pyClasses_fileOf] at hk
      rcases List.mem_append.1 hk with hk | hk
      · cases tz
        · cases hk
        · exact Or.inl (List.mem_singleton.1 hk)
      · obtain ⟨t, ht, rfl⟩ := List.mem_map.1 hk
        exact Or.inr ⟨t, ht, rfl⟩
    · cases hf
  · obtain ⟨i, hi⟩ := List.mem_iff_getElem?.1 hw
    obtain ⟨h1, h2⟩ := generate_files (sc := sc) (o := o) (s := s) h
    obtain ⟨hl, _⟩ := List.getElem?_eq_some_iff.1 hi
    rw [h1] at hl
    have ht := List.getElem?_eq_getElem hl
    obtain ⟨imports, sa, e1, e2, rfl⟩ := h2 i _ w ht hi
    have hm : (SaSelected o s)[i] ∈ SaSelected o s := List.getElem_mem hl
    rw [read_classText hc hp (mem_selected hm) e1 e2] at hf
    split at hf
    · cases hf
      rw [pyClasses_fileOf] at hk
      rcases List.mem_append.1 hk with hk | hk
      · cases hk
      · exact Or.inr ⟨_, hm, List.mem_singleton.1 hk⟩
    · cases hf

end Octo.Sqlalchemy
