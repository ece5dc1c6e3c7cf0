import Verif.Props.Mapped

/-! C149 for structs, exactly. -/

namespace Octo
open Spec

/-- **C149** for structs, exactly: the database columns of the struct of a table are those of the embedded structs and then, in order, the
other columns of the table, if and only if the naming strategy leads from the field of each of these to its column, unless the column is
given. -/
theorem C149_gorm_exact {sc : Strcase} {o : Gorm.GormOption} {s : Schema} {models : Gorm.Models} {t : Table} {d : GoStructDecl} (nm : Str → Str)
    (hn : (models.map Prod.fst).Nodup) (h : GormDescribes sc o s models t d) :
    ∃ chosen, Embeds models (t.columns.map (·.name)) chosen ∧ d.embedded = chosen.map Prod.fst ∧
      (goColumnsOf nm models d = chosen.flatMap (·.2) ++ (ownColumns chosen t).map (·.name) ↔
        ∀ c ∈ ownColumns chosen t, NeedsColumn sc c.name ∨ nm (goFieldName sc c.name) = c.name) := by
  obtain ⟨_, chosen, he, hem, hf, hl⟩ := h
  refine ⟨chosen, he, hem, ?_⟩
  have h1 : d.embedded.flatMap (fun e => (models.lookup e).getD []) = chosen.flatMap (·.2) := by
    rw [hem, List.flatMap_map]
    refine List.flatMap_congr fun m hm => ?_
    rw [(mem_iff_lookup hn).1 (he.known m hm)]
    rfl
  unfold goColumnsOf
  rw [goFields hf hl, h1, List.append_cancel_left_eq]
  generalize d.fields.take (ownColumns chosen t).length = xs at hf
  generalize ownColumns chosen t = cs at hf
  induction hf with
  | nil => exact ⟨fun _ c hc => absurd hc List.not_mem_nil, fun _ => rfl⟩
  | @cons c x cs xs hx _ ih =>
    rw [List.map_cons, List.map_cons, List.cons.injEq, List.forall_mem_cons, goColumn_exact nm hx.1 hx.2.2]
    exact and_congr Iff.rfl ih

/-- C149: for the text that is written: it can be read, and for each selected table in turn, the struct has the columns of the table exactly
under this condition. -/
theorem C149_gorm_text {sc : Strcase} {o : Gorm.GormOption} {s : Schema} {ords : Nat → (Gorm.Models → Gorm.Models) × (Gorm.Models → Gorm.Models)}
    {models : Gorm.Models} (nm : Str → Str) (hc : CleanCase sc) (hp : PlainGorm o s) (ho : Schedules ords) (hm : Registered models) :
    ∃ f, readGo (Gorm.generate sc ords models o s).1 = some f ∧
      List.Forall₂ (fun (t : Table) (d : GoStructDecl) => ∃ chosen, Embeds (Gorm.register models o.embed) (t.columns.map (·.name)) chosen ∧
        d.embedded = chosen.map Prod.fst ∧
        (goColumnsOf nm (Gorm.register models o.embed) d = chosen.flatMap (·.2) ++ (ownColumns chosen t).map (·.name) ↔
          ∀ c ∈ ownColumns chosen t, NeedsColumn sc c.name ∨ nm (goFieldName sc c.name) = c.name)) (GormSelected o s) f.structs := by
  obtain ⟨f, h1, h2, _⟩ := C59_columns (sc := sc) (ords := ords) hc hp ho hm
  exact ⟨f, h1, h2.imp fun t d h => C149_gorm_exact nm (Gorm.register_nodup hm.1 o.embed) h⟩

/-- C149: the schemas above, with snake case as naming strategy. -/
example := C149_gorm_text (o := gormOption) (s := mappedSchema) strcase.toSnake strcase_clean
  (gormOption_plain rfl rfl rfl rfl (by decide +kernel) (by decide +kernel) (by decide +kernel)) gormOrds_schedules defaultModels_registered

/-- C149: the condition holds for the columns of the first schema and not for that of the second. -/
example : (∀ t ∈ mappedSchema.tables, ∀ c ∈ t.columns, NeedsColumn strcase c.name ∨ strcase.toSnake (goFieldName strcase c.name) = c.name) ∧
    ¬∀ t ∈ initialsSchema.tables, ∀ c ∈ t.columns, NeedsColumn strcase c.name ∨ strcase.toSnake (goFieldName strcase c.name) = c.name := by
  unfold NeedsColumn; decide +kernel

end Octo
