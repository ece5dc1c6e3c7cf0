import Verif.Lemmas.CliFiles

/-! Lemmas on the actions of the commands: every action is a list of writes that depends on the inputs only. -/

namespace Octo.Cli
open Spec

/-- A part of an action: the same writes and the same end for all files in a set. -/
def Effect (A : Files → Prop) (k : Files → Result) (P : Path → Prop) (atomic : Prop) : Prop :=
  ∃ ws st, (∀ fs, A fs → k fs = ⟨applyWrites fs ws, st⟩) ∧ (∀ q ∈ ws, P q.1) ∧ (atomic → st ≠ .ok → ws = [])

section
variable {A : Files → Prop} {P : Path → Prop} {a : Prop}

theorem Effect.stop (st : Status) : Effect A (fun fs => ⟨fs, st⟩) P a :=
  ⟨[], st, fun _ _ => rfl, (fun _ h => by cases h), fun _ _ => rfl⟩

theorem Effect.of_eq {k k' : Files → Result} (h : ∀ fs, A fs → k fs = k' fs) (he : Effect A k' P a) : Effect A k P a := by
  obtain ⟨ws, st, h1, h2, h3⟩ := he
  exact ⟨ws, st, fun fs hA => (h fs hA).trans (h1 fs hA), h2, h3⟩

theorem Effect.mono {k : Files → Result} {Q : Path → Prop} (h : ∀ p, P p → Q p) (he : Effect A k P a) : Effect A k Q a := by
  obtain ⟨ws, st, h1, h2, h3⟩ := he
  exact ⟨ws, st, h1, fun q hq => h _ (h2 q hq), h3⟩

theorem Effect.write (w : World) {p : Path} (hp : P p) (c : Content) : Effect A (fun fs => Cli.write w fs p c) P a := by
  by_cases hw : w.writable p = true
  · exact ⟨[(p, c)], .ok, fun fs _ => (by show Cli.write w fs p c = _; unfold Cli.write; rw [if_pos hw]; rfl),
      (fun q hq => by rw [List.mem_singleton] at hq; subst hq; exact hp), fun _ h => absurd rfl h⟩
  · exact .of_eq (fun fs _ => by unfold Cli.write; rw [if_neg hw]) (.stop .error)

theorem Effect.out (w : World) (p : Path) (c : Content) : Effect A (fun fs => Cli.write w fs p c) (fun q => q = p) a :=
  .write (P := fun q => q = p) w rfl c

theorem Effect.writeAll (w : World) (last : Status) {l : List (Path × Content)} (hp : ∀ q ∈ l, P q.1) (ha : ¬a) :
    Effect A (fun fs => Cli.writeAll w last fs l) P a := by
  obtain ⟨ws, st, h1, h2⟩ := writeAll_writes w last l
  exact ⟨ws, st, fun fs _ => h2 fs, fun q hq => hp q (h1.subset hq), fun h => absurd h ha⟩

theorem Effect.save (w : World) (s : Schema) {out : Str} (hp : P (pathOf out)) : Effect A (fun fs => Cli.save w fs s out) P a := by
  unfold Cli.save
  cases s.toJson w.sorter with
  | none => exact .stop .error
  | some text => exact .write w hp _

theorem text_congr {fs fs' : Files} {f : Str} (h : fs'.at f = fs.at f) : fs'.text f = fs.text f := by
  unfold Files.text; rw [h]

theorem load_congr (w : World) {fs fs' : Files} {f : Str} (h : fs'.at f = fs.at f) : load w fs' f = load w fs f := by
  unfold load; rw [text_congr h]

theorem Effect.withSchema (w : World) {fs : Files} {f : Str} (hA : ∀ fs', A fs' → fs'.at f = fs.at f) {k : Files → Schema → Result}
    (h : ∀ s, load w fs f = some s → Effect A (fun fs' => k fs' s) P a) :
    Effect A (fun fs' => Cli.withSchema w fs' f (k fs')) P a := by
  cases hl : load w fs f with
  | none => exact .of_eq (fun fs' h' => by unfold Cli.withSchema; rw [load_congr w (hA fs' h'), hl]) (.stop .error)
  | some s => exact .of_eq (fun fs' h' => by unfold Cli.withSchema; rw [load_congr w (hA fs' h'), hl]) (h s hl)

end

/-- The other files have the same inputs. -/
def SameInputs (c : Cmd) (v : Values) (fs fs' : Files) : Prop := ∀ i ∈ inputs c, fs'.at (v i) = fs.at (v i)

/-- The paths that a command can write. -/
def Target (w : World) (v : Values) (fs : Files) (p : Path) : Cmd → Prop
  | .gorm => p = pathOf (v "output"ₛ) ∨ p = joined (Jpa.pathJoin [v "output"ₛ, "output.go"ₛ])
  | .plantuml => p = pathOf (v "output"ₛ) ∨ p = joined (Jpa.pathJoin [v "output"ₛ, "output.plantuml"ₛ])
  | .graphql => ∃ s, load w fs (v "input"ₛ) = some s ∧
      p = joined (Jpa.pathJoin [v "output"ₛ, s.name ++ "-"ₛ ++ s.version ++ ".graphqls"ₛ])
  | .kt => ∃ s m, load w fs (v "input"ₛ) = some s ∧ newPrefixMapper (v "prefix"ₛ) = some m ∧ ∃ t ∈ s.tables, ∃ o : Jpa.KtOption,
      o.prefixMapper = m ∧ o.removePrefixes = split ',' (v "removePrefix"ₛ) ∧
      ((p = joined (Jpa.pathJoin (Jpa.packageDir (v "output"ₛ) (v "package"ₛ) ++ [Jpa.className w.sc o t ++ ".kt"ₛ]))) ∨
       (v "reposPackage"ₛ ≠ [] ∧
        p = joined (Jpa.pathJoin (Jpa.packageDir (v "output"ₛ) (v "reposPackage"ₛ) ++ [Jpa.className w.sc o t ++ "Repository.kt"ₛ]))))
  | .sqlalchemy => (Sqlalchemy.single (v "output"ₛ) = true ∧ p = joined (Jpa.pathJoin [v "output"ₛ])) ∨
      ∃ s, load w fs (v "input"ₛ) = some s ∧ ∃ t ∈ s.tables, p = joined (Jpa.pathJoin [v "output"ₛ, t.name ++ ".py"ₛ])
  | _ => p = pathOf (v "output"ₛ)

/-- Commands that write one file. -/
def OneFile (c : Cmd) : Prop := c ≠ .kt ∧ c ≠ .sqlalchemy

theorem jpa_writes {stop : Jpa.Ending} {dir : List Str} {name : Jpa.KotlinClass → Str} {text : Jpa.KotlinClass → Option Str}
    (l : List Jpa.KotlinClass) : ∀ q ∈ (Jpa.writeAll stop dir name text l).writes, ∃ k ∈ l, q.1 = Jpa.pathJoin (dir ++ [name k]) := by
  induction l with
  | nil => intro q hq; cases hq
  | cons k l ih =>
    intro q hq
    unfold Jpa.writeAll at hq
    split at hq
    · cases hq
    · rcases List.mem_cons.mp hq with rfl | hq
      · exact ⟨k, List.mem_cons_self .., rfl⟩
      · obtain ⟨k', hk', e⟩ := ih q hq; exact ⟨k', List.mem_cons_of_mem _ hk', e⟩

theorem sa_writes {o : Sqlalchemy.SaOption} {dir : Str} (l : List Sqlalchemy.SaClass) : ∀ (st : Sqlalchemy.State),
    ∀ q ∈ Sqlalchemy.classFiles o dir st l, ∃ k ∈ l, q.1 = Jpa.pathJoin [dir, k.table.name ++ ".py"ₛ] := by
  induction l with
  | nil => intro st q hq; cases hq
  | cons k l ih =>
    intro st q hq
    rcases List.mem_cons.mp hq with rfl | hq
    · exact ⟨k, List.mem_cons_self .., rfl⟩
    · obtain ⟨k', hk', e⟩ := ih _ q hq; exact ⟨k', List.mem_cons_of_mem _ hk', e⟩

theorem Effect.writeIn (w : World) {A : Files → Prop} {a : Prop} (exts : List Str) (out name text : Str) :
    Effect A (fun fs => Cli.writeIn w fs exts out name text)
      (fun p => p = pathOf out ∨ p = joined (Jpa.pathJoin [out, name])) a := by
  unfold Cli.writeIn
  split
  · exact .write w (.inl rfl) _
  · split
    · exact .write w (.inr rfl) _
    · exact .stop .error

theorem applyWrites_append (fs : Files) (a b : List (Path × Content)) : applyWrites fs (a ++ b) = applyWrites (applyWrites fs a) b :=
  List.foldl_append ..

/-- Two lists of files, the second one only after the first one is written. -/
theorem Effect.two (w : World) {A : Files → Prop} {P : Path → Prop} {a : Prop} {st₁ st₂ : Status} {l₁ l₂ : List (Path × Content)}
    {C : Prop} [Decidable C] {B : Bool} (h₁ : ∀ q ∈ l₁, P q.1) (h₂ : ∀ q, C → q ∈ l₂ → P q.1) (ha : ¬a) :
    Effect A (fun fs => if (Cli.writeAll w st₁ fs l₁).status = .ok ∧ C then
        (if B = true then Cli.writeAll w st₂ (Cli.writeAll w st₁ fs l₁).files l₂ else ⟨(Cli.writeAll w st₁ fs l₁).files, .error⟩)
      else Cli.writeAll w st₁ fs l₁) P a := by
  obtain ⟨ws, st, hp, h⟩ := writeAll_writes w st₁ l₁
  obtain ⟨ws', st', hp', h'⟩ := writeAll_writes w st₂ l₂
  by_cases hc : st = .ok ∧ C
  · cases B with
    | true =>
      refine ⟨ws ++ ws', st', fun fs _ => ?_, fun q hq => ?_, fun h => absurd h ha⟩
      · simp only [h, if_pos hc, h', applyWrites_append]; rfl
      · rcases List.mem_append.mp hq with hq | hq
        · exact h₁ q (hp.subset hq)
        · exact h₂ q hc.2 (hp'.subset hq)
    | false =>
      refine ⟨ws, .error, fun fs _ => ?_, fun q hq => h₁ q (hp.subset hq), fun h => absurd h ha⟩
      simp only [h, if_pos hc]; rfl
  · refine ⟨ws, st, fun fs _ => ?_, fun q hq => h₁ q (hp.subset hq), fun h => absurd h ha⟩
    simp only [h, if_neg hc]

/-- Every action is a list of writes. -/
theorem action_effect (w : World) (c : Cmd) (v : Values) (fs : Files) :
    Effect (SameInputs c v fs) (action w c v) (fun p => Target w v fs p c) (OneFile c) := by
  cases c with
  | init => exact .save w _ rfl
  | importMysql =>
    refine .of_eq (k' := fun fs' => match (fs.text (v "input"ₛ)).bind w.sql with
      | none => ⟨fs', .error⟩
      | some stmts =>
        match MysqlImport.importSql (split ',' (v "excludes"ₛ)) (v "author"ₛ) (v "version"ₛ) stmts with
        | none => ⟨fs', .panic⟩
        | some s => save w fs' s (v "output"ₛ)) (fun fs' h => ?_) ?_
    · show importMysqlAction w v fs' = _
      unfold importMysqlAction; rw [text_congr (h _ (by decide))]; rfl
    · split
      · exact .stop .error
      · split
        · exact .stop .panic
        · exact .save w _ rfl
  | importOjson =>
    refine .of_eq (k' := fun fs' => match Ojson.importJSON w.sorter1 ((fs.text (v "input"ₛ)).bind w.json) with
      | .error => ⟨fs', .error⟩
      | .panic => ⟨fs', .panic⟩
      | .ok s => save w fs' s (v "output"ₛ)) (fun fs' h => ?_) ?_
    · show importOjsonAction w v fs' = _
      unfold importOjsonAction; rw [text_congr (h _ (by decide))]; rfl
    · split
      · exact .stop .error
      · exact .stop .panic
      · exact .save w _ rfl
  | importStaruml =>
    refine .of_eq (k' := fun fs' => match Staruml.importJson ((fs.text (v "input"ₛ)).bind w.json) with
      | .error => ⟨fs', .error⟩
      | .panic => ⟨fs', .panic⟩
      | .ok s => save w fs' s (v "output"ₛ)) (fun fs' h => ?_) ?_
    · show importStarumlAction w v fs' = _
      unfold importStarumlAction; rw [text_congr (h _ (by decide))]; rfl
    · split
      · exact .stop .error
      · exact .stop .panic
      · exact .save w _ rfl
  | importXlsx =>
    refine .of_eq (k' := fun fs' => match fs.at (v "input"ₛ) with
      | some (.book sheets) =>
        match Xlsx.importWorkbook w.sheets sheets with
        | none => ⟨fs', .error⟩
        | some s => save w fs' s (v "output"ₛ)
      | _ => ⟨fs', .error⟩) (fun fs' h => ?_) ?_
    · show importXlsxAction w v fs' = _
      unfold importXlsxAction; rw [h _ (by decide)]; rfl
    · split
      · split
        · exact .stop .error
        · exact .save w _ rfl
      · exact .stop .error
  | exportDbml => exact .withSchema w (fun fs' h => h _ (by decide)) fun s _ => .out w _ _
  | exportQuickdbd => exact .withSchema w (fun fs' h => h _ (by decide)) fun s _ => .out w _ _
  | exportMysql => exact .withSchema w (fun fs' h => h _ (by decide)) fun s _ => .out w _ _
  | exportXlsx =>
    refine .withSchema w (fun fs' h => h _ (by decide)) fun s _ => ?_
    try simp only
    split
    · exact .stop .error
    · exact .out w _ _
  | gorm =>
    refine .withSchema w (fun fs' h => h _ (by decide)) fun s _ => ?_
    try simp only
    split
    · exact .stop .panic
    · exact .writeIn w _ _ _ _
  | graphql =>
    refine .withSchema w (fun fs' h => h _ (by decide)) fun s hs => ?_
    try simp only
    split
    · exact .stop .panic
    · split
      · exact .write w ⟨s, hs, rfl⟩ _
      · exact .stop .error
  | kt =>
    refine .withSchema w (fun fs' h => h _ (by decide)) fun s hs => ?_
    try simp only
    split
    · rename_i a m ha hm
      split
      · rename_i hmk
        refine .two w (fun q hq => ?_) (fun q hc hq => ?_) (fun h => h.1 rfl)
        · obtain ⟨x, hx, rfl⟩ := List.mem_map.mp hq
          obtain ⟨k, hk, e⟩ := jpa_writes _ x hx
          obtain ⟨t, ht, rfl⟩ := List.mem_map.mp hk
          exact ⟨s, m, hs, hm, t, (List.mem_filter.mp ht).1, _, rfl, rfl, .inl (congrArg joined e)⟩
        · obtain ⟨x, hx, rfl⟩ := List.mem_map.mp hq
          obtain ⟨k, hk, e⟩ := jpa_writes _ x hx
          obtain ⟨t, ht, rfl⟩ := List.mem_map.mp hk
          exact ⟨s, m, hs, hm, t, (List.mem_filter.mp ht).1, _, rfl, rfl, .inr ⟨hc, congrArg joined e⟩⟩
      · exact .stop .error
    · exact .stop .panic
  | liquibase =>
    refine .withSchema w (fun fs' h => h _ (by decide)) fun s _ => ?_
    try simp only
    split
    · exact .stop .error
    · exact .out w _ _
  | plantuml => exact .withSchema w (fun fs' h => h _ (by decide)) fun s _ => .writeIn w _ _ _ _
  | pb =>
    refine .withSchema w (fun fs' h => h _ (by decide)) fun s _ => ?_
    try simp only
    split
    · exact .stop .panic
    · split
      · exact .stop .panic
      · exact .out w _ _
  | sqlalchemy =>
    refine .withSchema w (fun fs' h => h _ (by decide)) fun s hs => ?_
    try simp only
    split
    · exact .stop .panic
    · by_cases hmk : mkdir w (if Sqlalchemy.single (v "output"ₛ) = true then dirOf (v "output"ₛ) else v "output"ₛ) = true
      · refine .of_eq (fun fs' _ => if_pos hmk) ?_
        refine .writeAll (a := OneFile .sqlalchemy) w .ok (fun q hq => ?_) (fun h => h.2 rfl)
        obtain ⟨x, hx, rfl⟩ := List.mem_map.mp hq
        unfold Sqlalchemy.generate at hx
        simp only at hx
        split at hx
        · rename_i h1
          rw [List.mem_singleton] at hx; subst hx
          exact .inl ⟨h1, rfl⟩
        · obtain ⟨k, hk, e⟩ := sa_writes _ _ x hx
          unfold Sqlalchemy.newClasses at hk
          obtain ⟨t, ht, rfl⟩ := List.mem_map.mp hk
          exact .inr ⟨s, hs, t, (List.mem_filter.mp ht).1, by simp only [e]; rfl⟩
      · exact .of_eq (fun fs' _ => if_neg hmk) (.stop .error)
  | diffFlyway =>
    exact .withSchema w (fun fs' h => h _ (by decide)) fun s _ => .withSchema w (fun fs' h => h _ (by decide)) fun s' _ => .out w _ _
  | diffLiquibase =>
    refine .withSchema w (fun fs' h => h _ (by decide)) fun s _ => .withSchema w (fun fs' h => h _ (by decide)) fun s' _ => ?_
    try simp only
    split
    · exact .stop .error
    · exact .out w _ _
  | diffMd =>
    exact .withSchema w (fun fs' h => h _ (by decide)) fun s _ => .withSchema w (fun fs' h => h _ (by decide)) fun s' _ => .out w _ _

end Octo.Cli
