import Verif.Props.CliConvert
import Verif.Props.Stable
import Verif.Spec.CliOrder

/-! Property C127: what the commands do with a schema does not depend on how the schema is stored. -/

namespace Octo.Cli
open Spec

theorem Effect.withLoaded (w : World) {A : Files → Prop} {P : Path → Prop} {a : Prop} {fs : Files} {f : Str}
    (hA : ∀ fs', A fs' → load w fs' f = load w fs f) {k : Files → Schema → Result}
    (h : ∀ s, load w fs f = some s → Effect A (fun fs' => k fs' s) P a) :
    Effect A (fun fs' => Cli.withSchema w fs' f (k fs')) P a := by
  cases hl : load w fs f with
  | none => exact .of_eq (fun fs' h' => by unfold Cli.withSchema; rw [hA fs' h', hl]) (.stop .error)
  | some s => exact .of_eq (fun fs' h' => by unfold Cli.withSchema; rw [hA fs' h', hl]) (h s hl)

/-- The actions see the loaded schemas only. -/
theorem action_loaded (w : World) (c : Cmd) (hc : ReadsSchema c) (v : Values) (fs : Files) :
    Effect (fun fs' => ∀ i ∈ inputs c, load w fs' (v i) = load w fs (v i)) (action w c v) (fun _ => True) False := by
  have hn : ¬False := id
  cases c with
  | init => exact absurd hc (by unfold ReadsSchema; decide)
  | importMysql => exact absurd hc (by unfold ReadsSchema; decide)
  | importOjson => exact absurd hc (by unfold ReadsSchema; decide)
  | importStaruml => exact absurd hc (by unfold ReadsSchema; decide)
  | importXlsx => exact absurd hc (by unfold ReadsSchema; decide)
  | exportDbml => exact .withLoaded w (fun fs' h => h _ (by decide)) fun s _ => .write w trivial _
  | exportQuickdbd => exact .withLoaded w (fun fs' h => h _ (by decide)) fun s _ => .write w trivial _
  | exportMysql => exact .withLoaded w (fun fs' h => h _ (by decide)) fun s _ => .write w trivial _
  | exportXlsx =>
    refine .withLoaded w (fun fs' h => h _ (by decide)) fun s _ => ?_
    try simp only
    split
    · exact .stop .error
    · exact .write w trivial _
  | gorm =>
    refine .withLoaded w (fun fs' h => h _ (by decide)) fun s _ => ?_
    try simp only
    split
    · exact .stop .panic
    · exact .mono (fun _ _ => trivial) (.writeIn w _ _ _ _)
  | graphql =>
    refine .withLoaded w (fun fs' h => h _ (by decide)) fun s hs => ?_
    try simp only
    split
    · exact .stop .panic
    · split
      · exact .write w trivial _
      · exact .stop .error
  | kt =>
    refine .withLoaded w (fun fs' h => h _ (by decide)) fun s hs => ?_
    try simp only
    split
    · split
      · exact .two w (fun _ _ => trivial) (fun _ _ _ => trivial) hn
      · exact .stop .error
    · exact .stop .panic
  | liquibase =>
    refine .withLoaded w (fun fs' h => h _ (by decide)) fun s _ => ?_
    try simp only
    split
    · exact .stop .error
    · exact .write w trivial _
  | plantuml =>
    exact .withLoaded w (fun fs' h => h _ (by decide)) fun s _ => .mono (fun _ _ => trivial) (.writeIn w _ _ _ _)
  | pb =>
    refine .withLoaded w (fun fs' h => h _ (by decide)) fun s _ => ?_
    try simp only
    split
    · exact .stop .panic
    · split
      · exact .stop .panic
      · exact .write w trivial _
  | sqlalchemy =>
    refine .withLoaded w (fun fs' h => h _ (by decide)) fun s hs => ?_
    try simp only
    split
    · exact .stop .panic
    · by_cases hmk : mkdir w (if Sqlalchemy.single (v "output"ₛ) = true then dirOf (v "output"ₛ) else v "output"ₛ) = true
      · exact .of_eq (fun fs' _ => if_pos hmk) (.writeAll w .ok (fun _ _ => trivial) hn)
      · exact .of_eq (fun fs' _ => if_neg hmk) (.stop .error)
  | diffFlyway =>
    exact .withLoaded w (fun fs' h => h _ (by decide)) fun s _ => .withLoaded w (fun fs' h => h _ (by decide)) fun s' _ => .write w trivial _
  | diffLiquibase =>
    refine .withLoaded w (fun fs' h => h _ (by decide)) fun s _ => .withLoaded w (fun fs' h => h _ (by decide)) fun s' _ => ?_
    try simp only
    split
    · exact .stop .error
    · exact .write w trivial _
  | diffMd =>
    exact .withLoaded w (fun fs' h => h _ (by decide)) fun s _ => .withLoaded w (fun fs' h => h _ (by decide)) fun s' _ => .write w trivial _

theorem load_sameTables {w : World} (hw : Faithful w) {fs fs' : Files} {f : Str} (h : SameTables (fs.at f) (fs'.at f)) :
    load w fs' f = load w fs f := by
  obtain ⟨t, t', j, j', s, s', h1, h2, h3, h4, h5, h6, hm, hp, hd⟩ := h
  unfold load Files.text
  simp only [h1, h2, Option.bind_some, hw.json _ _ h3, hw.json _ _ h4, h5, h6]
  unfold loadSchema
  simp only [Option.map_some, C03_schedule_independent w.sorter w.sorter hw.sorter hw.sorter s s' hm hp hd]

/-- C127: the order of the tables in the input, and how the document is written, do not matter: every command that reads schemas ends
in the same way and writes the same files with the same contents. -/
theorem C127_order (w : World) (hw : Faithful w) (c : Cmd) (hc : ReadsSchema c) (v : Values) (fs fs' : Files)
    (h : ∀ i ∈ inputs c, SameTables (fs.at (v i)) (fs'.at (v i))) :
    (action w c v fs).status = (action w c v fs').status ∧
    ∀ p, (action w c v fs).files p = (action w c v fs').files p ∨
      ((action w c v fs).files p = fs p ∧ (action w c v fs').files p = fs' p) := by
  obtain ⟨ws, st, h1, -, -⟩ := action_loaded w c hc v fs
  rw [h1 fs fun _ _ => rfl, h1 fs' fun i hi => load_sameTables hw (h i hi)]
  refine ⟨rfl, fun p => ?_⟩
  by_cases hp : ∃ q ∈ ws, q.1 = p
  · exact .inl (applyWrites_of_mem hp _ _)
  · have hp' : ∀ q ∈ ws, q.1 ≠ p := fun q hq e => hp ⟨q, hq, e⟩
    exact .inr ⟨applyWrites_of_not_mem hp' _, applyWrites_of_not_mem hp' _⟩

/-- C127: nor does it matter which way of sorting the runtime uses, as long as the tables can be told apart. -/
theorem C127_sorting (w : World) (hw : Faithful w) (sorter : List Table → List Table) (hs : SortSpec sorter) (c : Cmd)
    (hc : ReadsSchema c) (v : Values) (fs : Files) (h : ∀ i ∈ inputs c, SameTables (fs.at (v i)) (fs.at (v i))) :
    action { w with sorter := sorter } c v fs = action w c v fs := by
  have hl : ∀ i ∈ inputs c, load { w with sorter := sorter } fs (v i) = load w fs (v i) := by
    intro i hi
    obtain ⟨t, t', j, j', s, s', h1, h2, h3, h4, h5, h6, hm, hp, hd⟩ := h i hi
    unfold load Files.text
    simp only [h1, Option.bind_some, hw.json _ _ h3, h5]
    unfold loadSchema
    simp only [Option.map_some, C03_schedule_independent sorter w.sorter hs hw.sorter s s ⟨rfl, rfl, rfl⟩ (List.Perm.refl _) hd]
  have hone : ∀ f, load { w with sorter := sorter } fs f = load w fs f → ∀ k : Schema → Result,
      withSchema { w with sorter := sorter } fs f k = withSchema w fs f k := by
    intro f hf k; unfold withSchema; rw [hf]
  have hwa : ∀ (st : Status) (fs : Files) (l : List (Path × Content)),
      writeAll { w with sorter := sorter } st fs l = writeAll w st fs l := by
    intro st fs l
    induction l generalizing fs with
    | nil => rfl
    | cons q l ih => unfold writeAll; rw [ih]
  cases c with
  | init => exact absurd hc (by unfold ReadsSchema; decide)
  | importMysql => exact absurd hc (by unfold ReadsSchema; decide)
  | importOjson => exact absurd hc (by unfold ReadsSchema; decide)
  | importStaruml => exact absurd hc (by unfold ReadsSchema; decide)
  | importXlsx => exact absurd hc (by unfold ReadsSchema; decide)
  | diffFlyway => exact (hone _ (hl _ (by decide)) _).trans (congrArg _ (funext fun _ => hone _ (hl _ (by decide)) _))
  | diffLiquibase => exact (hone _ (hl _ (by decide)) _).trans (congrArg _ (funext fun _ => hone _ (hl _ (by decide)) _))
  | diffMd => exact (hone _ (hl _ (by decide)) _).trans (congrArg _ (funext fun _ => hone _ (hl _ (by decide)) _))
  | kt =>
    show ktAction _ v fs = ktAction w v fs
    unfold ktAction
    rw [hone _ (hl "input"ₛ (by decide))]
    simp only [hwa]
    rfl
  | sqlalchemy =>
    show sqlalchemyAction _ v fs = sqlalchemyAction w v fs
    unfold sqlalchemyAction
    rw [hone _ (hl "input"ₛ (by decide))]
    simp only [hwa]
    rfl
  | _ => exact hone _ (hl _ (by decide)) _

/-- C127: a document, and the same document with the tables in the other order. -/
example (v : Values) (hv : v "input"ₛ = "a.json"ₛ) (a b : Table) (h : a.name ≠ b.name) :
    ∀ i ∈ inputs .kt, SameTables
      (Files.at (fun p => if p = pathOf "a.json"ₛ then some (.text (Json.print 0 (Json.ofSchema { tables := [a, b] }))) else none) (v i))
      (Files.at (fun p => if p = pathOf "a.json"ₛ then some (.text (Json.print 0 (Json.ofSchema { tables := [b, a] }))) else none) (v i)) := by
  intro i hi
  rw [List.mem_singleton.mp hi, hv]
  unfold Files.at
  refine ⟨_, _, _, _, _, _, if_pos rfl, if_pos rfl, Json.readJson_print _, Json.readJson_print _, Json.toSchema_of _, Json.toSchema_of _,
    ⟨rfl, rfl, rfl⟩, List.Perm.swap _ _ _, ?_⟩
  unfold DistinctTables
  exact List.pairwise_cons.2 ⟨fun x hx => by rw [List.mem_singleton] at hx; subst hx; exact fun e => h e.2, List.pairwise_singleton _ _⟩

end Octo.Cli
