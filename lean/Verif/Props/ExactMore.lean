import Verif.Props.ExactDiff
import Verif.Props.Mysql
import Verif.Props.MysqlImport
import Verif.Props.Xlsx
import Verif.Props.Dbml
import Verif.Props.Plantuml
import Verif.Props.Sqlalchemy
import Verif.Props.Gorm
import Verif.Props.Jpa

/-! Exact conditions for C19, C23, C36, C46, C52, C53, C63, C67, C87 and C94. -/

namespace Octo
open Spec Jpa Sqlalchemy

/-- C19, exactly: the size of a column of a sized type is written iff the type is neither `binary` nor
`varbinary`. -/
theorem C19_exact (c : Column) (ht : c.type ∈ sizedTypes) (hs : c.size ≠ 0) (hv : ∀ v ∈ c.values, Unescaped v) :
    (∃ base args, readType (Mysql.toMysqlColumnType c) = some (base, itoa c.size.toNat :: args)) ↔
      c.type ≠ "binary"ₛ ∧ c.type ≠ "varbinary"ₛ := by
  refine ⟨fun ⟨base, args, h⟩ => ?_, fun h => C19_size_partial c ht h hs hv⟩
  have key : ¬(c.type = "binary"ₛ ∨ c.type = "varbinary"ₛ) := by
    intro hb
    rw [C19_violated c hb hv] at h
    have := congrArg Prod.snd (Option.some.inj h)
    cases this
  exact not_or.1 key

example : "varbinary"ₛ ∈ sizedTypes ∧ "varchar"ₛ ∈ sizedTypes := by decide +kernel

/-- C67, exactly: the default of a column whose literals need quotes is read back as a quoted literal iff
the type is `char` or `varchar`. -/
theorem C67_exact (c : Column) (_ht : c.type ∈ quotedLiteralTypes) (h : PlainColumn c) (hv : c.defaultValue ≠ [])
    (hf : hasPrefix c.defaultValue "fn::"ₛ = false) :
    ∃ d, readOptions (tokens (Mysql.columnConstraints c)) { name := c.name, type := Mysql.toMysqlColumnType c } = some d ∧
      (d.default = some (.string c.defaultValue) ↔ c.type = "char"ₛ ∨ c.type = "varchar"ₛ) := by
  refine ⟨_, by
    rw [columnConstraints_eq, tokens_join fun s hs => ⟨Good.blank (good_optTokens h s hs).1, (good_optTokens h s hs).2⟩]
    exact readOptions_optTokens h _ rfl, ?_⟩
  show (if c.defaultValue = [] then none else some (valueMeaning c.type c.defaultValue)) = _ ↔ _
  rw [if_neg hv, valueMeaning, if_neg (by rw [hf]; decide), Option.some.injEq]
  by_cases hc : c.type = "char"ₛ ∨ c.type = "varchar"ₛ
  · rw [if_pos hc]; exact ⟨fun _ => hc, fun _ => rfl⟩
  · rw [if_neg hc]; exact ⟨fun e => (by cases e), fun e => absurd e hc⟩

/-- C23, exactly: a column is imported as unique whenever the DDL says so iff a column-level `UNIQUE` is
always repeated by a table constraint. -/
theorem C23_exact (excludes : List Str) (author version : Str) (stmts : List MysqlImport.Stmt) (s : Schema)
    (h : MysqlImport.importSql excludes author version stmts = some s) :
    List.Forall₂ (fun (x : Created) (t : Table) => List.Forall₂ (fun (d : MysqlImport.ColumnDef) (c : Column) =>
        (c.uniqueKey = true ↔ .uniqKey ∈ d.options ∨ KeyedBy .uniq x.2.2 d.name) ↔
        (.uniqKey ∈ d.options → KeyedBy .uniq x.2.2 d.name)) x.2.1 t.columns)
      (statedTables excludes stmts) s.tables := by
  refine (C23_columns_partial excludes author version stmts s h).imp fun x t hx => hx.imp fun d c hc => ?_
  rw [hc.2.1]
  constructor
  · intro e hu; exact e.2 (Or.inl hu)
  · intro e; exact ⟨Or.inr, fun hu => hu.elim e id⟩

/-- C36, exactly: the statement says what is meant iff auto-increment is switched on. -/
theorem C36_exact (suffix : Str) (hsuf : UnescapedName suffix) (t : Table) (c : Column) (hp : PlainChange (.setAutoIncrement t c)) :
    readScript ((toSQL suffix (.setAutoIncrement t c)).flatMap (· ++ "\n"ₛ)) =
      some (meant Mysql.toMysqlColumnType suffix (.setAutoIncrement t c)) ↔ c.autoIncremental = true := by
  have := C35_exact suffix hsuf _ hp
  constructor
  · intro h
    exact this.1 ⟨fun e => (C35_silent_iff suffix _).1 e, h⟩
  · intro h
    exact (this.2 h).2

/-- C46, exactly: the on-update value survives iff there is none or it equals the default value. -/
theorem C46_exact (useNull : Bool) (c : Column) (h : AttrText c.defaultValue) :
    (Xlsx.readColumn (!useNull) (Xlsx.columnRow useNull c)).onUpdate = c.onUpdate ↔
      c.onUpdate = [] ∨ c.onUpdate = c.defaultValue := by
  rw [C46_what_survives_partial useNull c h]
  by_cases hu : c.onUpdate = []
  · rw [if_pos hu, hu]; exact ⟨fun _ => Or.inl rfl, fun _ => rfl⟩
  · rw [if_neg hu]
    exact ⟨fun e => Or.inr e.symm, fun e => (e.resolve_left hu).symm⟩

/-- C52, exactly: the tables of the document are the selected ones iff all tables are selected. -/
theorem C52_exact (filter : Option (Table → Bool)) (s : Schema) (h : ∀ t ∈ s.tables, PlainDbmlTable t) :
    ∃ d, readDbml (Dbml.exportText filter s) = some d ∧
      (d.tables.map (·.name) = (s.tables.filter (passes filter)).map (·.name) ↔ ∀ t ∈ s.tables, passes filter t = true) := by
  obtain ⟨d, hd, ht, _⟩ := C51_relations_partial filter s h
  refine ⟨d, hd, ?_⟩
  have e : d.tables.map (·.name) = s.tables.map (·.name) := by
    rw [← List.forall₂_eq_eq_eq, List.forall₂_map_left_iff, List.forall₂_map_right_iff]
    exact ht.flip.imp fun _ _ hx => hx.1
  rw [e]
  constructor
  · intro he t ht
    have hl := congrArg List.length he
    rw [List.length_map, List.length_map] at hl
    exact List.length_filter_eq_length_iff.1 hl.symm t ht
  · intro ha
    rw [List.filter_eq_self.2 ha]

/-- C53, exactly: all key columns of a table are above the separator iff they come before all other
columns. -/
theorem C53_exact (s : Schema) (h : ∀ t ∈ s.tables, PlainPuTable t) :
    ∃ d, readPu (Plantuml.generate s) = some d ∧
      List.Forall₂ (fun (t : Table) (e : PuEntity) => e.name = t.name ∧
        ((∀ c ∈ e.below, c.pk = false) ↔ KeysFirst t)) s.tables d.entities := by
  obtain ⟨d, hd, _, hf⟩ := C53_diagram_partial s h
  refine ⟨d, hd, hf.imp fun t e ⟨h1, h2, h3, h4⟩ => ⟨h1, fun hb pre c post hc hk x hx => ?_, h4⟩⟩
  have em : t.columns.map (·.primaryKey) = e.above.map (·.pk) ++ e.below.map (·.pk) := by
    rw [← List.map_append]
    rw [← List.forall₂_eq_eq_eq, List.forall₂_map_left_iff, List.forall₂_map_right_iff]
    exact h2.imp fun _ _ hx => hx.keys.1.symm
  rw [hc, List.map_append, List.map_cons, hk] at em
  rcases List.append_eq_append_iff.1 em with ⟨m, ha, _⟩ | ⟨m, _, hb'⟩
  · have hx' : x.primaryKey ∈ e.above.map (·.pk) := by
      rw [ha]; exact List.mem_append_left _ (List.mem_map_of_mem hx)
    obtain ⟨y, hy, ey⟩ := List.mem_map.1 hx'
    rw [← ey]; exact h3 y hy
  · have ht : true ∈ e.below.map (·.pk) := by
      rw [hb']; exact List.mem_append_right _ (List.mem_cons_self ..)
    obtain ⟨y, hy, ey⟩ := List.mem_map.1 ht
    rw [hb y hy] at ey; cases ey

/-- C63, exactly: when a file per table is written and no name of a table hides one that the texts use, the
file binds every name iff it is the first one and no column is converted. -/
theorem C63_exact {sc : Strcase} {o : Sqlalchemy.SaOption} {s : Schema} (hc : CleanCase sc) (hp : PlainSa sc o s) {out : Str}
    (h : ¬ SingleFile out) {i : Nat} {t : Table} {w : List Str × Str} (ht : (SaSelected o s)[i]? = some t)
    (hw : (Sqlalchemy.generate sc o s out)[i]? = some w) {f : PyFile} (hf : readPy w.2 = some f) (hN : NoClash sc o t) :
    (∀ n, (n, none) ∉ pyNames f) ↔ i = 0 ∧ ∀ c ∈ t.columns, ¬ Converted o c := by
  constructor
  · intro hall
    constructor
    · by_contra h1
      refine hall _ (C63_imports_violated hc hp h h1 ht hw hf fun h2 => ?_)
      obtain ⟨imports, sa, h3, h4, rfl⟩ := (generate_files h).2 i t w ht hw
      rw [read_classText hc hp (mem_selected (List.mem_iff_getElem?.2 ⟨i, ht⟩)) h3 h4, if_neg] at hf
      · cases hf
      · rintro ⟨hsa, _⟩
        obtain ⟨n, hn⟩ := List.exists_mem_of_ne_nil _ hsa
        rcases (h4 n).1 hn with ⟨h5, _⟩ | ⟨_, h5⟩ | ⟨c, hcm, _⟩
        · exact h1 h5
        · rw [uniques, h2] at h5; cases h5
        · rw [h2] at hcm; cases hcm
    · intro c hcm hC
      exact hall _ (C63_converted_violated hc hp h ht hw hf hN ⟨c, hcm, hC⟩)
  · rintro ⟨h1, h2⟩ n hn
    rcases C63_imports_partial hc hp h ht hw hf hn with ⟨rfl, hi⟩ | ⟨_, c, hcm, hC⟩
    · exact hi h1
    · exact h2 c hcm hC

/-- C87, exactly: the tag gives the type with its size iff the column is a text or bits with a size, or a
number with a size and decimals. -/
theorem C87_exact {sc : Strcase} {o : Gorm.GormOption} {s : Schema} {ords : Nat → (Gorm.Models → Gorm.Models) × (Gorm.Models → Gorm.Models)}
    {models : Gorm.Models} (hc : CleanCase sc) (hp : PlainGorm o s) (ho : Schedules ords) (hm : Registered models) :
    ∃ f, readGo (Gorm.generate sc ords models o s).1 = some f ∧ List.Forall₂ (fun t d => ∀ c ∈ t.columns,
      (∀ m ∈ Gorm.register models o.embed, c.name ∉ m.2) → ∃ x ∈ d.fields, x.name = goFieldName sc c.name ∧
        ((∃ v, ("type"ₛ, v) ∈ x.tags) ↔ 0 < c.size ∧ (c.type ∈ ["bit"ₛ, "char"ₛ, "varchar"ₛ] ∨
          c.type ∈ ["double"ₛ, "float"ₛ, "decimal"ₛ] ∧ 0 < c.scale))) (GormSelected o s) f.structs := by
  obtain ⟨f, hr, hd⟩ := C60_tags hc hp ho hm
  refine ⟨f, hr, hd.imp fun t d h c hcm hno => ?_⟩
  rcases h c hcm with ⟨m, hmm, _, hn⟩ | ⟨x, hx, hn, _, htags⟩
  · exact absurd hn (hno m hmm)
  · refine ⟨x, hx, hn, ?_⟩
    constructor
    · rintro ⟨v, hv⟩
      rcases (htags.type v).1 hv with ⟨h1, h2, _⟩ | ⟨h1, h2, h3, _⟩
      · exact ⟨h2, Or.inl h1⟩
      · exact ⟨h2, Or.inr ⟨h1, h3⟩⟩
    · rintro ⟨h2, h1 | ⟨h1, h3⟩⟩
      · exact ⟨_, (htags.type _).2 (.inl ⟨h1, h2, rfl⟩)⟩
      · exact ⟨_, (htags.type _).2 (.inr ⟨h1, h2, h3, rfl⟩)⟩

/-- C94, exactly: every file goes to a place under the output directory iff the entities have a package, or
nothing is written. -/
theorem C94_exact {sc : Strcase} {o : Jpa.KtOption} {s : Schema} {out : Str} (ho : out ≠ [])
    (hout : ∀ w ∈ (Jpa.generate sc o s out).writes, w.1 ≠ [out]) :
    (∀ w ∈ (Jpa.generate sc o s out).writes, [out] <+: w.1) ↔
      o.package ≠ [] ∨ (Jpa.generate sc o s out).writes = [] := by
  constructor
  · intro h
    by_contra hcon
    obtain ⟨hp, hne⟩ := not_or.1 hcon
    rw [not_not] at hp
    have hent : ∀ w ∈ (Jpa.generateEntities sc o (Jpa.newClasses sc o s) out).writes, w.1.length = 1 := by
      intro w hw
      obtain ⟨k, _, _, e⟩ := Jpa.writeAll_mem hw
      rw [e, hp]
      show (Jpa.pathJoin ([] ++ [k.name ++ ".kt"ₛ])).length = 1
      unfold Jpa.pathJoin
      rw [List.nil_append, List.filter_cons_of_pos (by simp)]
      rfl
    have hsub : ∀ w ∈ (Jpa.generateEntities sc o (Jpa.newClasses sc o s) out).writes, w ∈ (Jpa.generate sc o s out).writes := by
      intro w hw
      unfold Jpa.generate
      dsimp only
      split
      · split
        · exact hw
        · exact List.mem_append_left _ hw
      · exact hw
    have hnone : (Jpa.generateEntities sc o (Jpa.newClasses sc o s) out).writes = [] := by
      rw [List.eq_nil_iff_forall_not_mem]
      intro w hw
      have h1 := hent w hw
      have h2 := h w (hsub w hw)
      exact hout w (hsub w hw) (h2.eq_of_length (by rw [h1]; rfl)).symm
    apply hne
    unfold Jpa.generate
    dsimp only
    split
    · rename_i hdone
      split
      · exact hnone
      · have hcl : Jpa.newClasses sc o s = [] := by
          cases hk : Jpa.newClasses sc o s with
          | nil => rfl
          | cons k ks =>
            rw [hk] at hnone hdone
            unfold Jpa.generateEntities Jpa.writeAll at hnone hdone
            cases ht : Jpa.entityText sc o (k :: ks) k with
            | none => rw [ht] at hdone; cases hdone
            | some t => rw [ht] at hnone; cases hnone
        rw [hcl] at hnone ⊢
        rfl
    · exact hnone
  · rintro (h | h) w hw
    · exact C94_directory_partial ho h hw
    · rw [h] at hw; cases hw

example : ∀ w ∈ (Jpa.generate strcase jpaOption jpaSchema "out"ₛ).writes, w.1 ≠ ["out"ₛ] := by decide +kernel

example : "text8"ₛ ∈ quotedLiteralTypes ∧ "varchar"ₛ ∈ quotedLiteralTypes := by decide +kernel

/-- C67: a text column with a default value. -/
example := C67_exact { name := "a"ₛ, type := "varchar"ₛ, size := 9, defaultValue := "x y"ₛ } (by decide +kernel)
  ⟨by unfold Word; decide, by decide, by simp, by unfold Unescaped; decide,
    Or.inr (Or.inr ⟨by decide, by rw [if_pos (by decide)]; unfold Unescaped; decide⟩), Or.inl rfl⟩ (by decide) (by decide)

/-- C23: a column that is unique by a constraint, and one that is unique by itself. -/
example := C23_exact [] "me"ₛ "1"ₛ
  [.createTable "a"ₛ [{ name := "x"ₛ, tp := { tp := .long }, options := [.uniqKey] }, { name := "y"ₛ, tp := { tp := .long } }]
    [{ tp := .uniq, keys := [some "y"ₛ] }]] _ rfl

/-- C36: switching auto-increment on, and off. -/
example := (C36_exact "_UQ"ₛ (by unfold UnescapedName; decide) { name := "user"ₛ } { name := "id"ₛ, type := "int64"ₛ, autoIncremental := true }
  ⟨by unfold Word; decide, ⟨by unfold Word; decide, by decide, by simp, by unfold Unescaped; decide, Or.inl rfl, Or.inl rfl⟩, by decide⟩).2 rfl

example := mt (C36_exact "_UQ"ₛ (by unfold UnescapedName; decide) { name := "user"ₛ } { name := "id"ₛ, type := "int64"ₛ }
  ⟨by unfold Word; decide, ⟨by unfold Word; decide, by decide, by simp, by unfold Unescaped; decide, Or.inl rfl, Or.inl rfl⟩, by decide⟩).1
  Bool.false_ne_true

/-- C46: a column with both values. -/
example := C46_exact true { name := "at"ₛ, type := "datetime"ₛ, defaultValue := "fn::NOW"ₛ, onUpdate := "fn::NOW"ₛ }
  (by unfold AttrText; decide)

/-- C52: one of two tables is selected. -/
example := C52_exact (some fun t => t.name == "user"ₛ) dbmlDemo dbmlDemo_plain

/-- C63: the second file of the demo. -/
example : ¬ SingleFile "models"ₛ ∧ (∀ t ∈ SaSelected saOption saSchema, NoClash strcase saOption t) ∧
    ((Sqlalchemy.generate strcase saOption saSchema "models"ₛ).map fun w => (readPy w.2).isSome) = [true, true] :=
  ⟨several_example, by decide +kernel, by decide +kernel⟩

/-- C87: the demo. -/
example := C87_exact (o := gormOption) strcase_clean (gormSchema_plain rfl rfl rfl rfl) gormOrds_schedules defaultModels_registered

end Octo
