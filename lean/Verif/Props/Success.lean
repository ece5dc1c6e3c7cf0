import Verif.Spec.Success
import Verif.Props.Targets
import Verif.Props.Xlsx
import Verif.Props.Octopus
import Verif.Lemmas.Liquibase
import Verif.Lemmas.DiffTables

/-! Property C136: when commands succeed. -/

namespace Octo.Cli
open Spec

theorem write_ok (w : World) (fs : Files) (p : Path) (x : Content) : (write w fs p x).status = .ok ↔ w.writable p = true := by
  unfold write
  by_cases h : w.writable p = true
  · rw [if_pos h]; exact ⟨fun _ => h, fun _ => rfl⟩
  · rw [if_neg h]; exact ⟨fun e => (by cases e), fun e => absurd e h⟩

theorem writeAll_ok_iff (w : World) (st : Status) (l : List (Path × Content)) (fs : Files) :
    (writeAll w st fs l).status = .ok ↔ st = .ok ∧ ∀ q ∈ l, w.writable q.1 = true := by
  induction l generalizing fs with
  | nil => exact ⟨fun h => ⟨h, fun q hq => by cases hq⟩, fun h => h.1⟩
  | cons p l ih =>
    unfold writeAll
    by_cases h : w.writable p.1 = true
    · rw [if_pos h, ih]
      exact and_congr_right fun _ => ⟨fun h' => List.forall_mem_cons.2 ⟨h, h'⟩, fun h' => (List.forall_mem_cons.1 h').2⟩
    · rw [if_neg h]
      exact ⟨fun e => (by cases e), fun e => absurd (e.2 p List.mem_cons_self) h⟩

theorem mkdir_ok (w : World) (d : Str) : mkdir w d = true ↔ d ≠ [] ∧ w.mkdir (pathOf d) = true := by
  unfold mkdir
  rw [Bool.and_eq_true, bne_iff_ne]

theorem ite_ok {b : Bool} {r : Result} {fs : Files} : (if b = true then r else ⟨fs, .error⟩).status = .ok ↔ b = true ∧ r.status = .ok := by
  cases b
  · exact ⟨fun e => (by cases e), fun e => (by cases e.1)⟩
  · exact ⟨fun e => ⟨rfl, e⟩, fun e => e.2⟩

theorem writeIn_ok {exts : List Str} (he : ∀ e ∈ exts, ∃ x, e = '.' :: x ∧ '/' ∉ x ∧ '.' ∉ x) (w : World) (fs : Files) (out name text : Str) :
    (writeIn w fs exts out name text).status = .ok ↔
      (∀ d, ¬EndsIn exts out ∧ d = out → d ≠ [] ∧ w.mkdir (pathOf d) = true) ∧
      ∀ f, (EndsIn exts out ∧ f = out) ∨ (¬EndsIn exts out ∧ f = out ++ "/"ₛ ++ name) → w.writable (pathOf f) = true := by
  have hx := endsIn_iff he out
  unfold writeIn
  by_cases h : lower (fileExt out) ∈ exts
  · rw [if_pos h, write_ok]
    constructor
    · intro hw
      refine ⟨fun d hd => absurd (hx.1 h) hd.1, ?_⟩
      rintro f (⟨_, rfl⟩ | ⟨hn, _⟩)
      · exact hw
      · exact absurd (hx.1 h) hn
    · exact fun hw => hw.2 out (.inl ⟨hx.1 h, rfl⟩)
  · have hn : ¬EndsIn exts out := fun e => h (hx.2 e)
    rw [if_neg h, ite_ok, mkdir_ok, write_ok]
    constructor
    · rintro ⟨⟨ho, hd⟩, hw⟩
      refine ⟨?_, ?_⟩
      · rintro d ⟨_, rfl⟩
        exact ⟨ho, hd⟩
      · rintro f (⟨hy, _⟩ | ⟨_, rfl⟩)
        · exact absurd hy hn
        · rw [← joined_dir ho]; exact hw
    · rintro ⟨hd, hw⟩
      have ho := hd out ⟨hn, rfl⟩
      refine ⟨ho, ?_⟩
      rw [joined_dir ho.1]
      exact hw _ (.inr ⟨hn, rfl⟩)

/-! ### Parent directories -/

theorem takeWhile_dropWhile_reverse (p : Str) : ∃ n r, '/' ∉ n ∧ p = r.reverse ++ n ∧ p.reverse.dropWhile (· ≠ '/') = r ∧
    (r = [] ∨ ∃ r', r = '/' :: r') := by
  refine ⟨(p.reverse.takeWhile (· ≠ '/')).reverse, _, ?_, ?_, rfl, ?_⟩
  · intro h
    have := List.mem_takeWhile_imp (List.mem_reverse.1 h)
    exact absurd (of_decide_eq_true this) (by simp)
  · rw [← List.reverse_append, List.takeWhile_append_dropWhile, List.reverse_reverse]
  · cases h : p.reverse.dropWhile (· ≠ '/') with
    | nil => exact .inl rfl
    | cons c r' =>
      right
      have := List.head_dropWhile_not (p := fun x : Char => decide (x ≠ '/')) (l := p.reverse) (by rw [h]; exact List.cons_ne_nil _ _)
      simp only [h, List.head_cons, decide_eq_false_iff_not, not_not] at this
      exact ⟨r', by rw [this]⟩

theorem split_last_slash {a b m n : Str} (hm : '/' ∉ m) (hn : '/' ∉ n) (h : a ++ '/' :: m = b ++ '/' :: n) : a = b ∧ m = n := by
  have h1 := congrArg List.reverse h
  rw [List.reverse_append, List.reverse_append, List.reverse_cons, List.reverse_cons, List.append_assoc, List.append_assoc] at h1
  have key : ∀ (x y p q : Str), '/' ∉ x → '/' ∉ y → x ++ ['/'] ++ p = y ++ ['/'] ++ q → x = y ∧ p = q := by
    intro x
    induction x with
    | nil =>
      intro y p q _ hy e
      cases y with
      | nil => exact ⟨rfl, (List.cons.inj e).2⟩
      | cons c y => exact absurd (List.cons.inj e).1 fun e' => hy (e' ▸ List.mem_cons_self)
    | cons c x ih =>
      intro y p q hx hy e
      cases y with
      | nil => exact absurd (List.cons.inj e).1 fun e' => hx (e' ▸ List.mem_cons_self)
      | cons d y =>
        obtain ⟨e1, e2⟩ := List.cons.inj e
        obtain ⟨h1, h2⟩ := ih y p q (fun h => hx (List.mem_cons_of_mem _ h)) (fun h => hy (List.mem_cons_of_mem _ h)) e2
        exact ⟨by rw [e1, h1], h2⟩
  obtain ⟨e1, e2⟩ := key m.reverse n.reverse a.reverse b.reverse (fun h => hm (List.mem_reverse.1 h)) (fun h => hn (List.mem_reverse.1 h))
    (by rw [List.append_assoc, List.append_assoc]; exact h1)
  exact ⟨List.reverse_inj.1 e2, List.reverse_inj.1 e1⟩

theorem parent_iff (p d : Str) : Parent p d ↔ d = dirOf p := by
  obtain ⟨n, r, hn, hp, hr, hr'⟩ := takeWhile_dropWhile_reverse p
  have happ : ∀ x y : Str, x ++ "/"ₛ ++ y = x ++ '/' :: y := fun x y => by rw [List.append_assoc]; rfl
  unfold dirOf
  rw [hr]
  rcases hr' with rfl | ⟨r', rfl⟩
  · have hno : '/' ∉ p := by rw [hp]; exact hn
    dsimp only
    constructor
    · rintro (⟨e, _⟩ | ⟨n', _, ⟨_, e⟩ | ⟨_, e⟩⟩)
      · exact e
      · rw [happ] at e
        exact absurd (by rw [e]; exact List.mem_append_right _ List.mem_cons_self) hno
      · exact absurd (by rw [e]; exact List.mem_cons_self) hno
    · exact fun e => .inl ⟨e, hno⟩
  · have hp' : p = r'.reverse ++ '/' :: n := by rw [hp, List.reverse_cons, List.append_assoc]; rfl
    have hmem : '/' ∈ p := by rw [hp']; exact List.mem_append_right _ List.mem_cons_self
    cases r' with
    | nil =>
      dsimp only
      constructor
      · rintro (⟨_, e⟩ | ⟨n', hn', ⟨h0, e⟩ | ⟨e, _⟩⟩)
        · exact absurd hmem e
        · rw [happ, hp'] at e
          exact absurd (split_last_slash hn hn' e).1.symm h0
        · exact e
      · exact fun e => .inr ⟨n, hn, .inr ⟨e, hp'⟩⟩
    | cons c r'' =>
      dsimp only
      constructor
      · rintro (⟨_, e⟩ | ⟨n', hn', ⟨h0, e⟩ | ⟨_, e⟩⟩)
        · exact absurd hmem e
        · rw [happ, hp'] at e
          exact (split_last_slash hn hn' e).1.symm
        · rw [hp'] at e
          have := (split_last_slash (b := []) hn hn' e).1
          rw [List.reverse_cons] at this
          exact absurd this (by simp)
      · intro e
        refine .inr ⟨n, hn, .inl ⟨?_, ?_⟩⟩
        · rw [e, List.reverse_cons]; simp
        · rw [happ, e]; exact hp'

/-! ### Default values of Liquibase -/

theorem intText_iff (s : Str) : (Lq.atoi s).isSome = true ↔ IntText s := by
  have good : ∀ ds : Str, (ds.isEmpty || !ds.all isDigit) = false ↔ ds ≠ [] ∧ ∀ c ∈ ds, isDigit c = true := by
    intro ds
    rw [Bool.or_eq_false_iff, Bool.not_eq_false', List.all_eq_true, List.isEmpty_eq_false_iff]
  have hd1 : isDigit '-' = false := by decide
  have hd2 : isDigit '+' = false := by decide
  unfold Lq.atoi IntText
  dsimp only
  by_cases h1 : ∃ r, s = '-' :: r
  · obtain ⟨r, rfl⟩ := h1
    rw [show hasPrefix ('-' :: r) "-"ₛ = true from by cases r <;> rfl, Bool.true_or, if_pos rfl, show List.drop 1 ('-' :: r) = r from rfl]
    by_cases hg : (r.isEmpty || !r.all isDigit) = true
    · rw [if_pos hg]
      constructor
      · intro e; cases e
      · rintro ⟨ds, h0, hall, ⟨e, _⟩ | ⟨e | e, _⟩⟩
        · rw [(List.cons.inj e).2, (good ds).2 ⟨h0, hall⟩] at hg
          cases hg
        · have := hall '-' (by rw [← e]; exact List.mem_cons_self)
          rw [hd1] at this; cases this
        · exact absurd (List.cons.inj e).1 (by decide)
    · rw [if_neg hg, if_pos rfl]
      have hg' := (good r).1 (Bool.eq_false_iff.2 hg)
      constructor
      · intro e
        by_cases hv : digitsVal r ≤ 2 ^ 63
        · exact ⟨r, hg'.1, hg'.2, .inl ⟨rfl, hv⟩⟩
        · rw [if_neg hv] at e; cases e
      · rintro ⟨ds, h0, hall, ⟨e, hv⟩ | ⟨e | e, _⟩⟩
        · rw [(List.cons.inj e).2, if_pos hv]; rfl
        · have := hall '-' (by rw [← e]; exact List.mem_cons_self)
          rw [hd1] at this; cases this
        · exact absurd (List.cons.inj e).1 (by decide)
  · have hneg : hasPrefix s "-"ₛ = false := by
      cases s with
      | nil => rfl
      | cons c r =>
        by_cases hc : c = '-'
        · exact absurd ⟨r, by rw [hc]⟩ h1
        · simp [hasPrefix, hc]
    rw [hneg, Bool.false_or, if_neg (Bool.false_ne_true)]
    by_cases h2 : ∃ r, s = '+' :: r
    · obtain ⟨r, rfl⟩ := h2
      rw [show hasPrefix ('+' :: r) "+"ₛ = true from by cases r <;> rfl, if_pos rfl, show List.drop 1 ('+' :: r) = r from rfl]
      by_cases hg : (r.isEmpty || !r.all isDigit) = true
      · rw [if_pos hg]
        constructor
        · intro e; cases e
        · rintro ⟨ds, h0, hall, ⟨e, _⟩ | ⟨e | e, _⟩⟩
          · exact absurd (List.cons.inj e).1 (by decide)
          · have := hall '+' (by rw [← e]; exact List.mem_cons_self)
            rw [hd2] at this; cases this
          · rw [(List.cons.inj e).2, (good ds).2 ⟨h0, hall⟩] at hg
            cases hg
      · rw [if_neg hg]
        have hg' := (good r).1 (Bool.eq_false_iff.2 hg)
        constructor
        · intro e
          by_cases hv : digitsVal r < 2 ^ 63
          · exact ⟨r, hg'.1, hg'.2, .inr ⟨.inr rfl, hv⟩⟩
          · rw [if_neg hv] at e; cases e
        · rintro ⟨ds, h0, hall, ⟨e, hv⟩ | ⟨e | e, hv⟩⟩
          · exact absurd (List.cons.inj e).1 (by decide)
          · have := hall '+' (by rw [← e]; exact List.mem_cons_self)
            rw [hd2] at this; cases this
          · rw [(List.cons.inj e).2, if_pos hv]; rfl
    · have hplus : hasPrefix s "+"ₛ = false := by
        cases s with
        | nil => rfl
        | cons c r =>
          by_cases hc : c = '+'
          · exact absurd ⟨r, by rw [hc]⟩ h2
          · simp [hasPrefix, hc]
      rw [hplus, if_neg (Bool.false_ne_true)]
      by_cases hg : (s.isEmpty || !s.all isDigit) = true
      · rw [if_pos hg]
        constructor
        · intro e; cases e
        · rintro ⟨ds, h0, hall, ⟨e, _⟩ | ⟨e | e, _⟩⟩
          · exact absurd ⟨ds, e⟩ h1
          · rw [e, (good ds).2 ⟨h0, hall⟩] at hg
            cases hg
          · exact absurd ⟨ds, e⟩ h2
      · rw [if_neg hg]
        have hg' := (good s).1 (Bool.eq_false_iff.2 hg)
        constructor
        · intro e
          by_cases hv : digitsVal s < 2 ^ 63
          · exact ⟨s, hg'.1, hg'.2, .inr ⟨.inl rfl, hv⟩⟩
          · rw [if_neg hv] at e; cases e
        · rintro ⟨ds, h0, hall, ⟨e, hv⟩ | ⟨e | e, hv⟩⟩
          · exact absurd ⟨ds, e⟩ h1
          · rw [e, if_pos hv]; rfl
          · exact absurd ⟨ds, e⟩ h2

theorem defaultValue_none (pf : Str → Option Str) (c : Column) (hd : c.defaultValue ≠ []) : Lq.newLqDefaultValue pf c = none ↔ BadDefault pf c := by
  have any_mem : ∀ (l : List Str) (x : Str), (l.any fun t => x == t) = true ↔ x ∈ l := by
    intro l x
    rw [List.any_eq_true]
    exact ⟨fun ⟨t, ht, e⟩ => by rw [beq_iff_eq.1 e]; exact ht, fun h => ⟨x, h, beq_iff_eq.2 rfl⟩⟩
  have hbool : isBooleanType c.type = true ↔ lower c.type ∈ ["bool"ₛ, "boolean"ₛ] := any_mem _ _
  have hnum : isNumericType c.type = true ↔
      lower c.type ∈ ["decimal"ₛ, "float"ₛ, "double"ₛ, "long"ₛ, "bigint"ₛ, "int"ₛ, "smallint"ₛ, "number"ₛ] := any_mem _ _
  have hint : isIntType c.type = true ↔ lower c.type ∈ ["long"ₛ, "bigint"ₛ, "int"ₛ, "smallint"ₛ] := any_mem _ _
  have hstr : isStringType c.type = (["char"ₛ, "string"ₛ].any fun t => containsSub (lower c.type) t) := rfl
  have facts : ∀ y ∈ ["decimal"ₛ, "float"ₛ, "double"ₛ, "long"ₛ, "bigint"ₛ, "int"ₛ, "smallint"ₛ, "number"ₛ],
      (["char"ₛ, "string"ₛ].any fun t => containsSub y t) = false ∧ y ∉ ["bool"ₛ, "boolean"ₛ] ∧
      (y ∉ ["long"ₛ, "bigint"ₛ, "int"ₛ, "smallint"ₛ] → y ∈ ["decimal"ₛ, "float"ₛ, "double"ₛ, "number"ₛ]) := by decide
  have sub1 : ∀ y ∈ ["long"ₛ, "bigint"ₛ, "int"ₛ, "smallint"ₛ],
      y ∈ ["decimal"ₛ, "float"ₛ, "double"ₛ, "long"ₛ, "bigint"ₛ, "int"ₛ, "smallint"ₛ, "number"ₛ] := by decide
  have sub2 : ∀ y ∈ ["decimal"ₛ, "float"ₛ, "double"ₛ, "number"ₛ],
      y ∈ ["decimal"ₛ, "float"ₛ, "double"ₛ, "long"ₛ, "bigint"ₛ, "int"ₛ, "smallint"ₛ, "number"ₛ] ∧
      y ∉ ["long"ₛ, "bigint"ₛ, "int"ₛ, "smallint"ₛ] := by decide
  unfold Lq.newLqDefaultValue BadDefault
  by_cases hn : isNumericType c.type = true
  · obtain ⟨f1, f2, f3⟩ := facts _ (hnum.1 hn)
    rw [hstr, f1, if_neg Bool.false_ne_true, if_neg (fun h => f2 (hbool.1 h)), if_pos hn]
    by_cases hi : isIntType c.type = true
    · rw [if_pos hi, Option.map_eq_none_iff, ← intText_iff, ← Option.not_isSome_iff_eq_none]
      refine ⟨fun h => ⟨hd, .inl ⟨hint.1 hi, h⟩⟩, ?_⟩
      rintro ⟨_, ⟨_, h⟩ | ⟨h, _⟩⟩
      · exact h
      · exact absurd (hint.1 hi) (sub2 _ h).2
    · rw [if_neg hi, Option.map_eq_none_iff]
      refine ⟨fun h => ⟨hd, .inr ⟨f3 fun h => hi (hint.2 h), h⟩⟩, ?_⟩
      rintro ⟨_, ⟨h, _⟩ | ⟨_, h⟩⟩
      · exact absurd (hint.2 h) hi
      · exact h
  · constructor
    · intro h
      split at h
      · cases h
      · split at h
        · cases h
        · split at h <;> cases h
    · rintro ⟨_, ⟨h, _⟩ | ⟨h, _⟩⟩
      · exact absurd (hnum.2 (sub1 _ h)) hn
      · exact absurd (hnum.2 (sub2 _ h).1) hn

theorem lqColumn_none (pf : Str → Option Str) (c : Column) (b1 b2 : Bool) : Lq.newLqColumn pf c b1 b2 = none ↔ BadDefault pf c := by
  unfold Lq.newLqColumn
  dsimp only
  by_cases hd : c.defaultValue = []
  · rw [if_neg (fun h => h hd)]
    exact ⟨fun e => (by cases e), fun e => absurd hd e.1⟩
  · rw [if_pos hd, Option.map_eq_none_iff, defaultValue_none pf c hd]

theorem createSets_none (pf : Str → Option Str) (suffix : Str) (uc : Bool) (t : Table) :
    Lq.createSets pf suffix uc t = none ↔ ∃ c ∈ t.columns, BadDefault pf c := by
  unfold Lq.createSets Lq.createColumns
  rw [Option.map_eq_none_iff, mapM_eq_none]
  refine exists_congr fun c => and_congr_right fun _ => ?_
  rw [Option.map_eq_none_iff, lqColumn_none]

theorem generateAll_none (pf : Str → Option Str) (opt : Lq.GenOption) (s : Schema) :
    Lq.generateAll pf opt s = none ↔ ∃ t ∈ s.tables, passes opt.tableFilter t = true ∧ ∃ c ∈ t.columns, BadDefault pf c := by
  rw [Lq.generateAll_eq, Option.map_eq_none_iff, mapM_eq_none]
  constructor
  · rintro ⟨t, ht, h⟩
    obtain ⟨h1, h2⟩ := List.mem_filter.1 ht
    exact ⟨t, h1, h2, (createSets_none ..).1 h⟩
  · rintro ⟨t, h1, h2, h⟩
    exact ⟨t, List.mem_filter.2 ⟨h1, h2⟩, (createSets_none ..).2 h⟩

/-! ### `generate kt` -/

theorem kt_ok (w : World) (v : Values) (fs : Files) (a : AnnotationMapper) (m : PrefixMapper) (s : Schema) (hs : load w fs (v "input"ₛ) = some s)
    (ha : newAnnotationMapper (v "annotation"ₛ) = some a) (hm : newPrefixMapper (v "prefix"ₛ) = some m) :
    (action w .kt v fs).status = .ok ↔ mkdirPackage w (v "output"ₛ) (v "package"ₛ) = true ∧
      (v "reposPackage"ₛ = [] ∨ mkdirPackage w (v "output"ₛ) (v "reposPackage"ₛ) = true) ∧
      (Jpa.generate w.sc (ktOption v a m) s (v "output"ₛ)).ending = .done ∧
      ∀ q ∈ ktFiles (Jpa.generate w.sc (ktOption v a m) s (v "output"ₛ)), w.writable q.1 = true := by
  have main : ∀ (o : Jpa.KtOption) (E R : Jpa.Run), E = Jpa.generateEntities w.sc o (Jpa.newClasses w.sc o s) (v "output"ₛ) →
      R = Jpa.generateRepositories o (Jpa.newClasses w.sc o s) (v "output"ₛ) →
      ((if mkdirPackage w (v "output"ₛ) o.package = true then
          if (writeAll w (ktStatus E.ending) fs (ktFiles E)).status = .ok ∧ o.reposPackage ≠ [] then
            if mkdirPackage w (v "output"ₛ) o.reposPackage = true then
              writeAll w (ktStatus R.ending) (writeAll w (ktStatus E.ending) fs (ktFiles E)).files (ktFiles R)
            else ⟨(writeAll w (ktStatus E.ending) fs (ktFiles E)).files, .error⟩
          else writeAll w (ktStatus E.ending) fs (ktFiles E)
        else ⟨fs, .error⟩ : Result).status = .ok ↔ mkdirPackage w (v "output"ₛ) o.package = true ∧
      (o.reposPackage = [] ∨ mkdirPackage w (v "output"ₛ) o.reposPackage = true) ∧
      (Jpa.generate w.sc o s (v "output"ₛ)).ending = .done ∧
      ∀ q ∈ ktFiles (Jpa.generate w.sc o s (v "output"ₛ)), w.writable q.1 = true) := by
    intro o E R hE hR
    rw [ite_ok]
    refine and_congr_right fun _ => ?_
    have hdone : ∀ e : Jpa.Ending, ktStatus e = .ok ↔ e = .done := fun e => ⟨ktStatus_ok, fun h => by rw [h]; rfl⟩
    have hgen : Jpa.generate w.sc o s (v "output"ₛ) = match E.ending with
        | .done => if o.reposPackage = [] then E else ⟨E.writes ++ R.writes, R.ending⟩
        | _ => E := by
      rw [hE, hR]; rfl
    rw [hgen]
    by_cases hd : E.ending = .done
    · rw [hd]
      dsimp only
      by_cases hr : o.reposPackage = []
      · rw [if_neg (fun h => h.2 hr), if_pos hr, writeAll_ok_iff]
        exact ⟨fun h => ⟨.inl hr, hd, h.2⟩, fun h => ⟨rfl, h.2.2⟩⟩
      · rw [if_neg hr]
        have hfiles : ∀ q, q ∈ ktFiles ⟨E.writes ++ R.writes, R.ending⟩ ↔ q ∈ ktFiles E ∨ q ∈ ktFiles R := by
          intro q
          unfold ktFiles
          rw [List.map_append, List.mem_append]
        by_cases hw : (writeAll w (ktStatus .done) fs (ktFiles E)).status = .ok
        · rw [if_pos ⟨hw, hr⟩, ite_ok, writeAll_ok_iff, hdone]
          have hw' := ((writeAll_ok_iff ..).1 hw).2
          constructor
          · rintro ⟨h1, h2, h3⟩
            refine ⟨.inr h1, h2, fun q hq => ?_⟩
            rcases (hfiles q).1 hq with hq | hq
            · exact hw' q hq
            · exact h3 q hq
          · rintro ⟨h1, h2, h3⟩
            exact ⟨h1.resolve_left hr, h2, fun q hq => h3 q ((hfiles q).2 (.inr hq))⟩
        · rw [if_neg fun h => hw h.1]
          refine ⟨fun h => absurd h hw, fun h => absurd ?_ hw⟩
          rw [writeAll_ok_iff]
          exact ⟨rfl, fun q hq => h.2.2 q ((hfiles q).2 (.inl hq))⟩
    · have hg : (match E.ending with
        | .done => if o.reposPackage = [] then E else ⟨E.writes ++ R.writes, R.ending⟩
        | _ => E) = E := by
        cases he : E.ending with
        | done => exact absurd he hd
        | fatal => rfl
        | panic => rfl
      rw [hg]
      have hw : ¬(writeAll w (ktStatus E.ending) fs (ktFiles E)).status = .ok := by
        rw [writeAll_ok_iff, hdone]
        exact fun h => hd h.1
      rw [if_neg fun h => hw h.1]
      exact ⟨fun h => absurd h hw, fun h => absurd h.2.1 hd⟩
  have key := main (ktOption v a m) _ _ rfl rfl
  show (ktAction w v fs).status = .ok ↔ _
  unfold ktAction
  rw [status_withSchema w fs _ _ (by decide)]
  constructor
  · rintro ⟨s', hs', h⟩
    rw [hs] at hs'
    cases hs'
    rw [ha, hm] at h
    exact key.1 h
  · intro h
    refine ⟨s, hs, ?_⟩
    rw [ha, hm]
    exact key.2 h

/-- Nothing is in the way of writing. -/
def World.free (w : World) : World := { w with writable := fun _ => true, mkdir := fun _ => true }

theorem kt_free (w : World) (v : Values) (fs : Files) (a : AnnotationMapper) (m : PrefixMapper) (s : Schema)
    (hs : load w fs (v "input"ₛ) = some s) (ha : newAnnotationMapper (v "annotation"ₛ) = some a) (hm : newPrefixMapper (v "prefix"ₛ) = some m) :
    ∃ e, (action w.free .kt v fs).status = ktStatus e := by
  have hs' : load w.free fs (v "input"ₛ) = some s := hs
  have hw := status_writeAll_of (w := w.free) fun _ => rfl
  show ∃ e, (ktAction w.free v fs).status = ktStatus e
  unfold ktAction withSchema
  rw [hs', ha, hm]
  dsimp only
  rw [show ∀ out pkg, mkdirPackage w.free out pkg = true from fun out pkg => Bool.or_true _, if_pos rfl]
  split
  · rw [show ∀ out pkg, mkdirPackage w.free out pkg = true from fun out pkg => Bool.or_true _, if_pos rfl]
    exact ⟨_, hw _ _ _⟩
  · exact ⟨_, hw _ _ _⟩

theorem kt_done_iff (w : World) (v : Values) (fs : Files) (a : AnnotationMapper) (m : PrefixMapper) (s : Schema)
    (hs : load w fs (v "input"ₛ) = some s) (ha : newAnnotationMapper (v "annotation"ₛ) = some a) (hm : newPrefixMapper (v "prefix"ₛ) = some m)
    (hn : ClassesNamed w.sc v s) : (Jpa.generate w.sc (ktOption v a m) s (v "output"ₛ)).ending = .done ↔
      ¬KtStops v s ∧ (v "reposPackage"ₛ = [] ∨ ¬Keyless (v "groups"ₛ) s) := by
  have hs' : load w.free fs (v "input"ₛ) = some s := hs
  have hmk : ∀ out pkg, mkdirPackage w.free out pkg = true := fun out pkg => Bool.or_true _
  have n1 : ¬MixedOption (v "prefix"ₛ) := fun h => by rw [(prefix_none _).2 h] at hm; cases hm
  have n2 : ¬MixedOption (v "annotation"ₛ) := fun h => by rw [(annotation_none _).2 h] at ha; cases ha
  have h1 := kt_ok w.free v fs a m s hs' ha hm
  obtain ⟨h2, h3⟩ := C130_kt w.free (fun _ => rfl) (fun _ => rfl) v fs fun s' e => by rw [hs'] at e; cases e; exact hn
  have h4 : (action w.free .kt v fs).status = .ok ↔ (Jpa.generate w.sc (ktOption v a m) s (v "output"ₛ)).ending = .done := by
    rw [h1]
    exact ⟨fun h => h.2.2.1, fun h => ⟨hmk _ _, .inr (hmk _ _), h, fun _ _ => rfl⟩⟩
  rw [← h4]
  constructor
  · intro h
    have hst : ¬KtStops v s := fun hk => by
      have := h3.2 ⟨s, hs', n1, n2, hk⟩
      rw [h] at this
      cases this
    refine ⟨hst, ?_⟩
    by_cases hr : v "reposPackage"ₛ = []
    · exact .inl hr
    · refine .inr fun hk => ?_
      have := h2.2 ⟨s, hs', .inr (.inr ⟨hr, hk, hst⟩)⟩
      rw [h] at this
      cases this
  · rintro ⟨hst, hk⟩
    obtain ⟨e, he⟩ := kt_free w v fs a m s hs ha hm
    rw [he]
    rw [he] at h2 h3
    cases e with
    | done => rfl
    | fatal =>
      obtain ⟨s', e, _, _, h⟩ := h3.1 rfl
      rw [hs'] at e
      cases e
      exact absurd h hst
    | panic =>
      obtain ⟨s', e, h⟩ := h2.1 rfl
      rw [hs'] at e
      cases e
      rcases h with h | h | ⟨h, h', _⟩
      · exact absurd h n1
      · exact absurd h n2
      · exact hk.elim (fun e => absurd e h) fun hk => absurd h' hk

/-! ### All commands -/

theorem package_dir {out : Str} (ho : out ≠ []) {pkg : Str} (hp : pkg ≠ []) : joined (Jpa.packageDir out pkg) = pathOf (packageIn out pkg) := by
  unfold Jpa.packageDir packageIn
  rw [if_neg hp, joined_enter ho, ← enter_dots, List.append_assoc]
  exact (pathOf_enter ho _).symm

theorem mkdirPackage_ok {w : World} {out : Str} (ho : out ≠ []) (pkg : Str) :
    mkdirPackage w out pkg = true ↔ (pkg ≠ [] → w.mkdir (pathOf (packageIn out pkg)) = true) := by
  unfold mkdirPackage
  by_cases hp : pkg = []
  · rw [beq_iff_eq.2 hp]
    exact ⟨fun _ h => absurd hp h, fun _ => rfl⟩
  · rw [Bool.or_eq_true, package_dir ho hp]
    refine ⟨fun h _ => h.resolve_left fun e => hp (beq_iff_eq.1 e), fun h => .inr (h hp)⟩

/-- A command that writes the file that is named. -/
theorem one_output {out : Str} {M W : Str → Prop} {w : World} {P : Prop} (hM : ∀ d, ¬M d) (hW : ∀ f, W f ↔ f = out) :
    (P ∧ w.writable (pathOf out) = true) ↔
      P ∧ (∀ d, M d → d ≠ [] ∧ w.mkdir (pathOf d) = true) ∧ ∀ f, W f → w.writable (pathOf f) = true := by
  refine and_congr_right fun _ => ⟨fun h => ⟨fun d hd => absurd hd (hM d), fun f hf => ?_⟩, fun h => h.2 out ((hW out).2 rfl)⟩
  rw [(hW f).1 hf]
  exact h

theorem withPrefix_ok {w : World} {fs : Files} {f o : Str} {k : Schema → PrefixMapper → Result} {A : Prop}
    (h : ∀ s m, load w fs f = some s → ((k s m).status = .ok ↔ A)) :
    ((withSchema w fs f fun s => match newPrefixMapper o with
      | none => ⟨fs, .panic⟩
      | some m => k s m).status = .ok) ↔ (∃ s, load w fs f = some s ∧ ¬MixedOption o) ∧ A := by
  rw [status_withSchema w fs _ _ (by decide)]
  constructor
  · rintro ⟨s, hs, e⟩
    cases hm : newPrefixMapper o with
    | none => rw [hm] at e; cases e
    | some m =>
      rw [hm] at e
      exact ⟨⟨s, hs, fun h => by rw [(prefix_none _).2 h] at hm; cases hm⟩, (h s m hs).1 e⟩
  · rintro ⟨⟨s, hs, hn⟩, ha⟩
    refine ⟨s, hs, ?_⟩
    cases hm : newPrefixMapper o with
    | none => exact absurd ((prefix_none _).1 hm) hn
    | some m => exact (h s m hs).2 ha

theorem plain_ok {w : World} {fs : Files} {f out : Str} {k : Schema → Result} {Q : Schema → Prop}
    (h : ∀ s, (k s).status = .ok ↔ Q s ∧ w.writable (pathOf out) = true) :
    (withSchema w fs f k).status = .ok ↔ (∃ s, load w fs f = some s ∧ Q s) ∧ w.writable (pathOf out) = true := by
  rw [status_withSchema w fs _ _ (by decide)]
  constructor
  · rintro ⟨s, hs, e⟩
    exact ⟨⟨s, hs, ((h s).1 e).1⟩, ((h s).1 e).2⟩
  · rintro ⟨⟨s, hs, hq⟩, hw⟩
    exact ⟨s, hs, (h s).2 ⟨hq, hw⟩⟩

theorem fit_xlsx (w : World) (b : Bool) (v : Values) (s : Schema) : Xlsx.exportSchema w.accepts b s ≠ none ↔ Fit w v s .exportXlsx := by
  have hg := (C09_groups s id fun l => .refl l).1
  rw [Option.ne_none_iff_exists', C47_succeeds_iff]
  show _ ∧ (∀ g ∈ s.groupsOrd id, _) ∧ "Meta"ₛ ∉ s.groupsOrd id ∧ ¬([] ∈ s.groupsOrd id ∧ "Common"ₛ ∈ s.groupsOrd id) ↔ _
  rw [hg, hg, hg]
  unfold Fit sheetOf
  refine and_congr_right fun _ => and_congr ?_ (and_congr ?_ ?_)
  · exact ⟨fun h t ht => h _ ((hg _).2 ⟨t, ht, rfl⟩), fun h g hg' => by obtain ⟨t, ht, rfl⟩ := (hg g).1 hg'; exact h t ht⟩
  · exact ⟨fun h t ht e => h ⟨t, ht, e⟩, fun h ⟨t, ht, e⟩ => h t ht e⟩
  · constructor
    · intro h t ht u hu e
      by_cases h1 : t.group = [] <;> by_cases h2 : u.group = []
      · rw [h1, h2]
      · rw [if_pos h1, if_neg h2] at e
        exact absurd ⟨⟨t, ht, h1⟩, u, hu, e.symm⟩ h
      · rw [if_neg h1, if_pos h2] at e
        exact absurd ⟨⟨u, hu, h2⟩, t, ht, e⟩ h
      · rw [if_neg h1, if_neg h2] at e
        exact e
    · rintro h ⟨⟨t, ht, e1⟩, u, hu, e2⟩
      have := h t ht u hu (by rw [e1, e2]; decide)
      rw [e1, e2] at this
      exact absurd this (by decide)

/-- C136: a command that reads one schema succeeds exactly when the schema can be read and is fit for the command, the directories can
be made, and the files can be written. -/
theorem C136_one (w : World) (c : Cmd) (hc : ReadsSchema c) (hdiff : c ∉ [.diffFlyway, .diffLiquibase, .diffMd]) (v : Values) (fs : Files)
    (hk : c = .kt → v "output"ₛ ≠ [] ∧ ∀ s, load w fs (v "input"ₛ) = some s → ClassesNamed w.sc v s) :
    (action w c v fs).status = .ok ↔
      (∃ s, load w fs (v "input"ₛ) = some s ∧ Fit w v s c) ∧
      (∀ d, Makes v d c → d ≠ [] ∧ w.mkdir (pathOf d) = true) ∧
      ∀ f, Writes w v fs f c → w.writable (pathOf f) = true := by
  have hgo : ∀ e ∈ [".go"ₛ], ∃ x, e = '.' :: x ∧ '/' ∉ x ∧ '.' ∉ x :=
    fun e he => by rw [List.mem_singleton] at he; exact ⟨"go"ₛ, he, by decide, by decide⟩
  have hpy := endsIn_iff (exts := [".py"ₛ]) (fun e he => by rw [List.mem_singleton] at he; exact ⟨"py"ₛ, he, by decide, by decide⟩) (v "output"ₛ)
  have hpu : ∀ e ∈ plantumlExts, ∃ x, e = '.' :: x ∧ '/' ∉ x ∧ '.' ∉ x := fun e he => by
    have : ∀ e ∈ plantumlExts, e = '.' :: e.tail ∧ '/' ∉ e.tail ∧ '.' ∉ e.tail := by decide
    exact ⟨_, this e he⟩
  have hone : ∀ {P : Prop}, (P ∧ w.writable (pathOf (v "output"ₛ)) = true) ↔ P ∧ (∀ d, False → d ≠ [] ∧ w.mkdir (pathOf d) = true) ∧
      ∀ f, f = v "output"ₛ → w.writable (pathOf f) = true := one_output (fun _ h => h) fun _ => Iff.rfl
  have hplain : ∀ x : Schema → Content, (withSchema w fs (v "input"ₛ) fun s => write w fs (pathOf (v "output"ₛ)) (x s)).status = .ok ↔
      (∃ s, load w fs (v "input"ₛ) = some s ∧ True) ∧ (∀ d, False → d ≠ [] ∧ w.mkdir (pathOf d) = true) ∧
      ∀ f, f = v "output"ₛ → w.writable (pathOf f) = true := fun x =>
    (plain_ok fun s => (write_ok ..).trans (true_and _).symm.to_iff).trans hone
  cases c with
  | init => exact absurd (List.mem_of_getElem? (i := 0) rfl) hc
  | importMysql => exact absurd (List.mem_of_getElem? (i := 1) rfl) hc
  | importOjson => exact absurd (List.mem_of_getElem? (i := 2) rfl) hc
  | importStaruml => exact absurd (List.mem_of_getElem? (i := 3) rfl) hc
  | importXlsx => exact absurd (List.mem_of_getElem? (i := 4) rfl) hc
  | diffFlyway => exact absurd (List.mem_of_getElem? (i := 0) rfl) hdiff
  | diffLiquibase => exact absurd (List.mem_of_getElem? (i := 1) rfl) hdiff
  | diffMd => exact absurd (List.mem_of_getElem? (i := 2) rfl) hdiff
  | exportDbml => exact hplain _
  | exportQuickdbd => exact hplain _
  | exportMysql => exact hplain _
  | exportXlsx =>
    refine (plain_ok (Q := fun s => Fit w v s .exportXlsx) fun s => ?_).trans hone
    rw [← fit_xlsx w (v.bool "useNullColumn"ₛ)]
    cases Xlsx.exportSchema w.accepts (v.bool "useNullColumn"ₛ) s with
    | none => exact ⟨fun e => (by cases e), fun e => absurd rfl e.1⟩
    | some x => exact (write_ok ..).trans ⟨fun h => ⟨Option.some_ne_none _, h⟩, fun h => h.2⟩
  | liquibase =>
    refine (plain_ok (Q := fun s => Fit w v s .liquibase) fun s => ?_).trans hone
    have hx := generateAll_none w.float
      { tableFilter := getTableFilterFn (v "groups"ₛ), uniqueNameSuffix := v "uniqueNameSuffix"ₛ, useComments := v.bool "comments"ₛ } s
    have hfit : Fit w v s .liquibase ↔ ¬∃ t ∈ s.tables, passes (getTableFilterFn (v "groups"ₛ)) t = true ∧ ∃ c ∈ t.columns, BadDefault w.float c :=
      ⟨fun h ⟨t, ht, hg, c, hc, hb⟩ => h t ht ((passes_groups _ _).1 hg) c hc hb,
       fun h t ht hg c hc hb => h ⟨t, ht, (passes_groups _ _).2 hg, c, hc, hb⟩⟩
    rw [hfit, ← hx]
    cases Lq.generateAll w.float
      { tableFilter := getTableFilterFn (v "groups"ₛ), uniqueNameSuffix := v "uniqueNameSuffix"ₛ, useComments := v.bool "comments"ₛ } s with
    | none => exact ⟨fun e => (by cases e), fun e => absurd rfl e.1⟩
    | some x => exact (write_ok ..).trans ⟨fun h => ⟨Option.some_ne_none _, h⟩, fun h => h.2⟩
  | plantuml =>
    show (plantumlAction w v fs).status = .ok ↔ _
    unfold plantumlAction
    rw [status_withSchema w fs _ _ (by decide)]
    have := fun s => writeIn_ok hpu w fs (v "output"ₛ) "output.plantuml"ₛ (Plantuml.generate s)
    constructor
    · rintro ⟨s, hs, e⟩
      exact ⟨⟨s, hs, trivial⟩, by rw [List.append_assoc] at this; exact (this s).1 e⟩
    · rintro ⟨⟨s, hs, _⟩, e⟩
      exact ⟨s, hs, by rw [List.append_assoc] at this; exact (this s).2 e⟩
  | gorm =>
    refine withPrefix_ok fun s m _ => ?_
    have := writeIn_ok hgo w fs (v "output"ₛ) "output.go"ₛ (Gorm.generate w.sc w.models Gorm.defaultModels (gormOption v m) s).1
    rw [List.append_assoc] at this
    exact this
  | graphql =>
    refine withPrefix_ok fun s m hs => ?_
    refine ite_ok.trans ?_
    rw [mkdir_ok, write_ok]
    constructor
    · rintro ⟨ho, hw⟩
      refine ⟨?_, ?_⟩
      · rintro d rfl; exact ho
      · rintro f ⟨s', hs', rfl⟩
        rw [hs] at hs'
        cases hs'
        rw [← joined_dir ho.1]
        exact hw
    · rintro ⟨hd, hw⟩
      have ho := hd _ rfl
      refine ⟨ho, ?_⟩
      exact (joined_dir ho.1 (s.name ++ "-"ₛ ++ s.version ++ ".graphqls"ₛ)).symm ▸ hw _ ⟨s, hs, rfl⟩
  | pb =>
    have hpanic := C130_crash w .pb hc (by decide) v fs
    have h1 : (action w .pb v fs).status = .ok ↔ (∃ s, load w fs (v "input"ₛ) = some s ∧ Fit w v s .pb) ∧
        w.writable (pathOf (v "output"ₛ)) = true := by
      constructor
      · intro h
        obtain ⟨s, _, _, hs, ho, hx, hf⟩ := pb_done h
        refine ⟨⟨s, hs, ?_⟩, ?_⟩
        · by_contra hn
          have := hpanic.2 ⟨s, hs, by
            by_cases hm : MixedOption (v "prefix"ₛ)
            · exact .inl hm
            · exact .inr (by by_contra hd; exact hn ⟨hm, hd⟩)⟩
          rw [h] at this
          cases this
        · obtain ⟨s', hs', e, _⟩ := withSchema_done h
          rw [hs] at hs'
          cases hs'
          rw [ho] at e
          dsimp only at e
          rw [hx] at e
          exact (write_ok ..).1 e
      · rintro ⟨⟨s, hs, hn, hd⟩, hw⟩
        have hnp : (action w .pb v fs).status ≠ .panic := by
          intro h
          obtain ⟨s', hs', h⟩ := hpanic.1 h
          rw [hs] at hs'
          cases hs'
          exact h.elim hn hd
        revert hnp
        show (pbAction w v fs).status ≠ .panic → (pbAction w v fs).status = .ok
        unfold pbAction withSchema
        rw [hs]
        dsimp only
        split
        · exact fun h => absurd rfl h
        · split
          · exact fun h => absurd rfl h
          · exact fun _ => (write_ok ..).2 hw
    exact h1.trans hone
  | sqlalchemy =>
    refine withPrefix_ok fun s m hs => ?_
    have hsingle : Sqlalchemy.single (v "output"ₛ) = true ↔ EndsIn [".py"ₛ] (v "output"ₛ) := by
      rw [← hpy, List.mem_singleton]
      exact beq_iff_eq
    refine ite_ok.trans ?_
    rw [mkdir_ok, writeAll_ok_iff]
    show (_ ∧ Status.ok = .ok ∧ ∀ q ∈ (Sqlalchemy.generate w.sc (saOption v m) s (v "output"ₛ)).map
      fun p => ((joined p.1, .text p.2) : Path × Content), w.writable q.1 = true) ↔ _
    unfold Sqlalchemy.generate
    dsimp only
    by_cases h1 : Sqlalchemy.single (v "output"ₛ) = true
    · rw [if_pos h1, if_pos h1]
      have ho : v "output"ₛ ≠ [] := fun e => by rw [e] at h1; cases h1
      have hj : joined (Jpa.pathJoin [v "output"ₛ]) = pathOf (v "output"ₛ) := by
        unfold Jpa.pathJoin
        rw [List.filter_cons_of_pos (by exact decide_eq_true ho)]
        rfl
      constructor
      · rintro ⟨hd, _, hw⟩
        refine ⟨?_, ?_⟩
        · rintro d (⟨_, hp⟩ | ⟨hn, _⟩)
          · rw [(parent_iff _ _).1 hp]; exact hd
          · exact absurd (hsingle.1 h1) hn
        · rintro f (⟨_, rfl⟩ | ⟨hn, _⟩)
          · rw [← hj]; exact hw _ List.mem_cons_self
          · exact absurd (hsingle.1 h1) hn
      · rintro ⟨hd, hw⟩
        refine ⟨hd _ (.inl ⟨hsingle.1 h1, (parent_iff _ _).2 rfl⟩), rfl, ?_⟩
        intro q hq
        rw [List.map_cons, List.map_nil, List.mem_singleton] at hq
        rw [hq]
        show w.writable (joined _) = true
        rw [hj]
        exact hw _ (.inl ⟨hsingle.1 h1, rfl⟩)
    · rw [if_neg h1, if_neg h1]
      have hn : ¬EndsIn [".py"ₛ] (v "output"ₛ) := fun h => h1 (hsingle.2 h)
      constructor
      · rintro ⟨hd, _, hw⟩
        refine ⟨?_, ?_⟩
        · rintro d (⟨hp, _⟩ | ⟨_, rfl⟩)
          · exact absurd hp hn
          · exact hd
        · intro f hf
          obtain ⟨q, hq, e⟩ := (sa_targets hd.1 hs (m := m) h1 (pathOf f)).2 ⟨f, hf, rfl⟩
          rw [← e]
          exact hw q hq
      · rintro ⟨hd, hw⟩
        have ho := hd _ (.inr ⟨hn, rfl⟩)
        refine ⟨ho, rfl, fun q hq => ?_⟩
        obtain ⟨f, hf, e⟩ := (sa_targets ho.1 hs (m := m) h1 q.1).1 ⟨q, hq, rfl⟩
        rw [← e]
        exact hw f hf
  | kt =>
    obtain ⟨ho, hn⟩ := hk rfl
    have hpk : ∀ pkg : Str, packageIn (v "output"ₛ) pkg ≠ [] := fun pkg e => by
      unfold packageIn at e
      rw [List.append_assoc] at e
      exact ho (List.append_eq_nil_iff.1 e).1
    have hrest : ∀ s a m, load w fs (v "input"ₛ) = some s → newAnnotationMapper (v "annotation"ₛ) = some a → newPrefixMapper (v "prefix"ₛ) = some m →
        ((action w .kt v fs).status = .ok ↔ (¬KtStops v s ∧ (v "reposPackage"ₛ = [] ∨ ¬Keyless (v "groups"ₛ) s)) ∧
          (∀ d, Makes v d .kt → d ≠ [] ∧ w.mkdir (pathOf d) = true) ∧ ∀ f, Writes w v fs f .kt → w.writable (pathOf f) = true) := by
      intro s a m hs ha hm
      rw [kt_ok w v fs a m s hs ha hm, kt_done_iff w v fs a m s hs ha hm (hn s hs), mkdirPackage_ok ho, mkdirPackage_ok ho]
      have hM : (∀ d, Makes v d .kt → d ≠ [] ∧ w.mkdir (pathOf d) = true) ↔
          (v "package"ₛ ≠ [] → w.mkdir (pathOf (packageIn (v "output"ₛ) (v "package"ₛ))) = true) ∧
          (v "reposPackage"ₛ = [] ∨ (v "reposPackage"ₛ ≠ [] → w.mkdir (pathOf (packageIn (v "output"ₛ) (v "reposPackage"ₛ))) = true)) := by
        constructor
        · exact fun h => ⟨fun hp => (h _ (.inl ⟨hp, rfl⟩)).2, .inr fun hp => (h _ (.inr ⟨hp, rfl⟩)).2⟩
        · rintro ⟨h1, h2⟩ d (⟨hp, rfl⟩ | ⟨hp, rfl⟩)
          · exact ⟨hpk _, h1 hp⟩
          · exact ⟨hpk _, (h2.resolve_left hp) hp⟩
      rw [hM]
      constructor
      · rintro ⟨h1, h2, h3, h4⟩
        refine ⟨h3, ⟨h1, h2⟩, fun f hf => ?_⟩
        obtain ⟨q, hq, e⟩ := (kt_targets ho hs hm ((kt_done_iff w v fs a m s hs ha hm (hn s hs)).2 h3) (pathOf f)).2 ⟨f, hf, rfl⟩
        rw [← e]
        exact h4 q hq
      · rintro ⟨h3, ⟨h1, h2⟩, h4⟩
        refine ⟨h1, h2, h3, fun q hq => ?_⟩
        obtain ⟨f, hf, e⟩ := (kt_targets ho hs hm ((kt_done_iff w v fs a m s hs ha hm (hn s hs)).2 h3) q.1).1 ⟨q, hq, rfl⟩
        rw [← e]
        exact h4 f hf
    constructor
    · intro h
      obtain ⟨s, a, m, hs, ha, hm, _, _⟩ := kt_done h
      obtain ⟨h1, h2⟩ := (hrest s a m hs ha hm).1 h
      refine ⟨⟨s, hs, ?_, ?_, h1⟩, h2⟩
      · intro h; rw [(prefix_none _).2 h] at hm; cases hm
      · intro h; rw [(annotation_none _).2 h] at ha; cases ha
    · rintro ⟨⟨s, hs, n1, n2, h1⟩, h2⟩
      cases ha : newAnnotationMapper (v "annotation"ₛ) with
      | none => exact absurd ((annotation_none _).1 ha) n2
      | some a =>
        cases hm : newPrefixMapper (v "prefix"ₛ) with
        | none => exact absurd ((prefix_none _).1 hm) n1
        | some m => exact (hrest s a m hs ha hm).2 ⟨h1, h2⟩

/-! ### Commands that compare -/

theorem addDefault_none {pf : Str → Option Str} {t : Table} {c : Column} (hd : c.defaultValue ≠ []) :
    Lq.newAddDefaultValue pf t c = none ↔ BadDefault pf c := by
  unfold Lq.newAddDefaultValue
  rw [Option.map_eq_none_iff, defaultValue_none pf c hd]

theorem generate_none {pf : Str → Option Str} {opt : DiffOption} {sched : Sched} (h : Lq.generate pf opt sched = none) :
    ∃ t ∈ opt.diffTo.tables, passes opt.tableFilter t = true ∧ ∃ c ∈ t.columns, BadDefault pf c := by
  have hcol : ∀ t o : Table, ∀ uc, ∀ c ∈ notRenamed (columnRenames t o uc).1, c ∈ t.columns := by
    intro t o uc c hc
    have h1 := findRenames_split o.columnNameMap (fun a b => a.isRenamed b (!uc)) (addedColumns t o) (removedNames t o)
    exact (List.mem_filter.1 (h1.mem_iff.1 (List.mem_append_right _ hc))).1
  have htab : ∀ t ∈ notRenamed (tableRenames opt).1, t ∈ opt.diffTo.tables ∧ passes opt.tableFilter t = true := by
    intro t ht
    have h1 := findRenames_split opt.diffFrom.tablesByName (fun a b => a.columns == b.columns) (addedTables opt) (removedTableNames opt)
    obtain ⟨h2, h3⟩ := List.mem_filter.1 (h1.mem_iff.1 (List.mem_append_right _ ht))
    exact ⟨h2, (Bool.and_eq_true_iff.1 h3).1⟩
  rw [Lq.generate_eq] at h
  cases hk : Lq.keptSets pf opt sched with
  | none =>
    obtain ⟨⟨i, t, o⟩, he, hn⟩ := mapM_eq_none.1 hk
    obtain ⟨h1, h2, _⟩ := mem_keptTables.1 he
    refine ⟨t, List.mem_of_getElem? h1, h2, ?_⟩
    dsimp only at hn
    unfold Lq.tableSets at hn
    cases hc : (keptColumns t o).mapM fun p => Lq.columnSets pf t p.1 p.2 opt.useComments with
    | none =>
      obtain ⟨p, hp, hn⟩ := mapM_eq_none.1 hc
      refine ⟨p.1, (mem_keptColumns.1 hp).1, ?_⟩
      unfold Lq.columnSets Lq.defaultSets at hn
      rw [Option.map_eq_none_iff] at hn
      split at hn
      · split at hn
        · cases hn
        · rename_i hd
          rw [Option.map_eq_none_iff] at hn
          exact (addDefault_none hd).1 hn
      · cases hn
    | some cs =>
      rw [hc, Option.bind_some, Option.map_eq_none_iff] at hn
      unfold Lq.addSets at hn
      split at hn
      · unfold Lq.newAddColumn at hn
        rw [Option.map_eq_none_iff, Option.map_eq_none_iff] at hn
        obtain ⟨c, hc, hn⟩ := mapM_eq_none.1 hn
        unfold Lq.newAddedColumn at hn
        rw [Option.map_eq_none_iff] at hn
        exact ⟨c, hcol _ _ _ c hc, (lqColumn_none ..).1 hn⟩
      · cases hn
  | some ks =>
    rw [hk, Option.bind_some, Option.map_eq_none_iff] at h
    obtain ⟨t, ht, hn⟩ := mapM_eq_none.1 h
    exact ⟨t, (htab t ht).1, (htab t ht).2, (createSets_none ..).1 hn⟩

/-- C136: commands that compare two schemas succeed exactly when both can be read and the file can be written; `diff liquibase` also
needs default values that are numbers, as far as they are mentioned. -/
theorem C136_two (w : World) (v : Values) (fs : Files) :
    (∀ c ∈ [Cmd.diffFlyway, .diffMd], (action w c v fs).status = .ok ↔
      (∃ a b, load w fs (v "from"ₛ) = some a ∧ load w fs (v "to"ₛ) = some b) ∧ w.writable (pathOf (v "output"ₛ)) = true) ∧
    ((action w .diffLiquibase v fs).status = .ok →
      (∃ a b, load w fs (v "from"ₛ) = some a ∧ load w fs (v "to"ₛ) = some b) ∧ w.writable (pathOf (v "output"ₛ)) = true) ∧
    (∀ a b, load w fs (v "from"ₛ) = some a → load w fs (v "to"ₛ) = some b → w.writable (pathOf (v "output"ₛ)) = true →
      (∀ t ∈ b.tables, InGroups (v "groups"ₛ) t → ∀ c ∈ t.columns, ¬BadDefault w.float c) → (action w .diffLiquibase v fs).status = .ok) := by
  have h2 : ∀ k : Schema → Schema → Result, (withSchemas w v fs k).status = .ok ↔
      ∃ a b, load w fs (v "from"ₛ) = some a ∧ load w fs (v "to"ₛ) = some b ∧ (k a b).status = .ok := by
    intro k
    unfold withSchemas
    rw [status_withSchema w fs _ _ (by decide)]
    constructor
    · rintro ⟨a, ha, h⟩
      obtain ⟨b, hb, h⟩ := (status_withSchema w fs _ _ (by decide)).1 h
      exact ⟨a, b, ha, hb, h⟩
    · rintro ⟨a, b, ha, hb, h⟩
      exact ⟨a, ha, (status_withSchema w fs _ _ (by decide)).2 ⟨b, hb, h⟩⟩
  have hplain : ∀ x : Schema → Schema → Content, (withSchemas w v fs fun a b => write w fs (pathOf (v "output"ₛ)) (x a b)).status = .ok ↔
      (∃ a b, load w fs (v "from"ₛ) = some a ∧ load w fs (v "to"ₛ) = some b) ∧ w.writable (pathOf (v "output"ₛ)) = true := by
    intro x
    rw [h2]
    constructor
    · rintro ⟨a, b, ha, hb, h⟩
      exact ⟨⟨a, b, ha, hb⟩, (write_ok ..).1 h⟩
    · rintro ⟨⟨a, b, ha, hb⟩, h⟩
      exact ⟨a, b, ha, hb, (write_ok ..).2 h⟩
  refine ⟨?_, ?_, ?_⟩
  · intro c hc
    rcases List.mem_cons.1 hc with rfl | hc
    · exact hplain _
    · rw [List.mem_singleton.1 hc]
      exact hplain _
  · intro h
    obtain ⟨a, b, ha, hb, h⟩ := (h2 _).1 h
    refine ⟨⟨a, b, ha, hb⟩, ?_⟩
    split at h
    · cases h
    · exact (write_ok ..).1 h
  · intro a b ha hb hw hgood
    refine (h2 _).2 ⟨a, b, ha, hb, ?_⟩
    split
    · rename_i e
      obtain ⟨t, ht, hg, c, hc, hbad⟩ := generate_none e
      exact absurd hbad (hgood t ht ((passes_groups _ _).1 hg) c hc)
    · exact (write_ok ..).2 hw

/-! ### Commands that write schemas -/

theorem save_ok {w : World} (hs : SortSpec w.sorter) (fs : Files) (s : Schema) (out : Str) :
    (save w fs s out).status = .ok ↔ (∀ t ∈ s.tables, ValidTable t) ∧ w.writable (pathOf out) = true := by
  have h := C04_accepts_iff w.sorter hs s
  unfold save Schema.toJson
  cases hn : s.normalize w.sorter with
  | mk s' e =>
    rw [hn] at h
    cases e with
    | none => exact (write_ok ..).trans ⟨fun hw => ⟨h.1 rfl, hw⟩, fun hw => hw.2⟩
    | some e => exact ⟨fun e => (by cases e), fun hv => absurd (h.2 hv.1) (by simp)⟩

/-- C136: `init` succeeds exactly when the file can be written. -/
theorem C136_init (w : World) (hs : SortSpec w.sorter) (v : Values) (fs : Files) :
    (action w .init v fs).status = .ok ↔ w.writable (pathOf (v "output"ₛ)) = true := by
  refine (save_ok hs fs sample (v "output"ₛ)).trans ⟨fun h => h.2, fun h => ⟨fun t ht c hc => ?_, h⟩⟩
  have hgood : ∀ t ∈ sample.tables, ∀ c ∈ t.columns, c.name ≠ [] ∧ canon c.type ∈ supportedTypes ∧ canon c.type ≠ "set"ₛ ∧ canon c.type ≠ "enum"ₛ := by
    decide +kernel
  obtain ⟨h1, h2, h3, h4⟩ := hgood t ht c hc
  exact ⟨h1, h2, fun e => absurd e h3, fun e => absurd e h4⟩

/-- C136: an import succeeds exactly when the input can be read, has no column that is not valid, and the file can be written. -/
theorem C136_import (w : World) (hs : SortSpec w.sorter) (v : Values) (fs : Files) :
    ((action w .importMysql v fs).status = .ok ↔ (∃ stmts s, (fs.text (v "input"ₛ)).bind w.sql = some stmts ∧
      MysqlImport.importSql (split ',' (v "excludes"ₛ)) (v "author"ₛ) (v "version"ₛ) stmts = some s ∧ ∀ t ∈ s.tables, ValidTable t) ∧
      w.writable (pathOf (v "output"ₛ)) = true) ∧
    ((action w .importOjson v fs).status = .ok ↔ (∃ s, Ojson.importJSON w.sorter1 ((fs.text (v "input"ₛ)).bind w.json) = .ok s ∧
      ∀ t ∈ s.tables, ValidTable t) ∧ w.writable (pathOf (v "output"ₛ)) = true) ∧
    ((action w .importStaruml v fs).status = .ok ↔ (∃ s, Staruml.importJson ((fs.text (v "input"ₛ)).bind w.json) = .ok s ∧
      ∀ t ∈ s.tables, ValidTable t) ∧ w.writable (pathOf (v "output"ₛ)) = true) ∧
    ((action w .importXlsx v fs).status = .ok ↔ (∃ sheets s, fs.at (v "input"ₛ) = some (.book sheets) ∧
      Xlsx.importWorkbook w.sheets sheets = some s ∧ ∀ t ∈ s.tables, ValidTable t) ∧ w.writable (pathOf (v "output"ₛ)) = true) := by
  have hsave := save_ok hs fs
  refine ⟨?_, ?_, ?_, ?_⟩
  · show (importMysqlAction w v fs).status = .ok ↔ _
    unfold importMysqlAction
    cases h1 : (fs.text (v "input"ₛ)).bind w.sql with
    | none => exact ⟨fun e => (by cases e), fun ⟨⟨_, _, e, _⟩, _⟩ => (by cases e)⟩
    | some stmts =>
      dsimp only
      cases h2 : MysqlImport.importSql (split ',' (v "excludes"ₛ)) (v "author"ₛ) (v "version"ₛ) stmts with
      | none => exact ⟨fun e => (by cases e), fun ⟨⟨_, _, e, e', _⟩, _⟩ => (by cases e; rw [h2] at e'; cases e')⟩
      | some s =>
        dsimp only
        rw [hsave]
        exact ⟨fun h => ⟨⟨stmts, s, rfl, h2, h.1⟩, h.2⟩, fun ⟨⟨_, _, e, e', hv⟩, hw⟩ => by cases e; rw [h2] at e'; cases e'; exact ⟨hv, hw⟩⟩
  · show (importOjsonAction w v fs).status = .ok ↔ _
    unfold importOjsonAction
    cases h1 : Ojson.importJSON w.sorter1 ((fs.text (v "input"ₛ)).bind w.json) with
    | error => exact ⟨fun e => (by cases e), fun ⟨⟨_, e, _⟩, _⟩ => (by cases e)⟩
    | panic => exact ⟨fun e => (by cases e), fun ⟨⟨_, e, _⟩, _⟩ => (by cases e)⟩
    | ok s =>
      dsimp only
      rw [hsave]
      exact ⟨fun h => ⟨⟨s, rfl, h.1⟩, h.2⟩, fun ⟨⟨_, e, hv⟩, hw⟩ => by cases e; exact ⟨hv, hw⟩⟩
  · show (importStarumlAction w v fs).status = .ok ↔ _
    unfold importStarumlAction
    cases h1 : Staruml.importJson ((fs.text (v "input"ₛ)).bind w.json) with
    | error => exact ⟨fun e => (by cases e), fun ⟨⟨_, e, _⟩, _⟩ => (by cases e)⟩
    | panic => exact ⟨fun e => (by cases e), fun ⟨⟨_, e, _⟩, _⟩ => (by cases e)⟩
    | ok s =>
      dsimp only
      rw [hsave]
      exact ⟨fun h => ⟨⟨s, rfl, h.1⟩, h.2⟩, fun ⟨⟨_, e, hv⟩, hw⟩ => by cases e; exact ⟨hv, hw⟩⟩
  · show (importXlsxAction w v fs).status = .ok ↔ _
    unfold importXlsxAction
    cases h1 : fs.at (v "input"ₛ) with
    | none => exact ⟨fun e => (by cases e), fun ⟨⟨_, _, e, _⟩, _⟩ => (by cases e)⟩
    | some x =>
      cases x with
      | text _ => exact ⟨fun e => (by cases e), fun ⟨⟨_, _, e, _⟩, _⟩ => (by cases e)⟩
      | changelog _ => exact ⟨fun e => (by cases e), fun ⟨⟨_, _, e, _⟩, _⟩ => (by cases e)⟩
      | book sheets =>
        dsimp only
        cases h2 : Xlsx.importWorkbook w.sheets sheets with
        | none => exact ⟨fun e => (by cases e), fun ⟨⟨_, _, e, e', _⟩, _⟩ => (by cases e; rw [h2] at e'; cases e')⟩
        | some s =>
          dsimp only
          rw [hsave]
          exact ⟨fun h => ⟨⟨sheets, s, rfl, h2, h.1⟩, h.2⟩, fun ⟨⟨_, _, e, e', hv⟩, hw⟩ => by cases e; rw [h2] at e'; cases e'; exact ⟨hv, hw⟩⟩

/-- A world in which nothing can be written below a directory, and a file with a number that cannot be read. -/
def tightWorld : World := { demoWorld with writable := fun p => decide (p.elems.length ≤ 1), mkdir := fun p => decide (p.elems ≠ ["no"ₛ]) }

def badDefaultFiles : Files := fun p =>
  if p = pathOf "a.json"ₛ then
    (Schema.toJson tableSort { tables := [{ name := "t"ₛ, group := "g"ₛ, columns := [{ name := "c"ₛ, type := "decimal"ₛ, defaultValue := "x"ₛ }] },
      { name := "u"ₛ, columns := [{ name := "c"ₛ, type := "int"ₛ }] }] }).map .text
  else none

/-- C136: each condition decides: the schema, the directory, the file. -/
example :
    let v := fun o g => given [("input"ₛ, "a.json"ₛ), ("output"ₛ, o), ("groups"ₛ, g), ("package"ₛ, "p"ₛ)]
    (action tightWorld .liquibase (v "o"ₛ "h"ₛ) badDefaultFiles).status = .ok ∧
    (action tightWorld .liquibase (v "o"ₛ "g"ₛ) badDefaultFiles).status = .error ∧
    (action tightWorld .liquibase (v "d/o"ₛ "h"ₛ) badDefaultFiles).status = .error ∧
    (action tightWorld .sqlalchemy (v "o.py"ₛ []) crashFiles).status = .ok ∧
    (action tightWorld .sqlalchemy (v "no/o.py"ₛ []) crashFiles).status = .error ∧
    (action tightWorld .sqlalchemy (v "o"ₛ []) crashFiles).status = .error ∧
    (action tightWorld .kt (v "o"ₛ "none"ₛ) crashFiles).status = .ok ∧
    (action tightWorld .kt (v "o"ₛ "h"ₛ) crashFiles).status = .error ∧
    SortSpec tightWorld.sorter := by
  dsimp only
  exact ⟨by decide +kernel, by decide +kernel, by decide +kernel, by decide +kernel, by decide +kernel, by decide +kernel, by decide +kernel,
    by decide +kernel, tableSort_spec⟩

end Octo.Cli
