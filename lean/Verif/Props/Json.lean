import Verif.Lemmas.Json
import Verif.Props.Octopus

/-! Property C07: saving and loading schemas. -/

namespace Octo
open Spec

/-- C07: the saved text is a JSON document, and reading it yields exactly the normalised schema. -/
theorem C07_round_trip (sorter : List Table → List Table) (s : Schema) (text : Str) (h : s.toJson sorter = some text) :
    ∃ j, readJson text = some j ∧ Json.toSchema j = some (s.normalize sorter).1 := by
  unfold Schema.toJson at h
  split at h
  · rename_i s' hs
    rw [← Option.some.inj h, hs]
    exact ⟨_, Json.readJson_print _, Json.toSchema_of _⟩
  · cases h

/-- C07: every schema that passes the normalisation can be saved. -/
theorem C07_saves (sorter : List Table → List Table) (hs : SortSpec sorter) (s : Schema) (h : ∀ t ∈ s.tables, ValidTable t) :
    ∃ text, s.toJson sorter = some text := by
  have hn := (C04_accepts_iff sorter hs s).2 h
  unfold Schema.toJson
  split
  · exact ⟨_, rfl⟩
  · rename_i e; rw [e] at hn; cases hn

/-- C07: loading a saved schema yields what was saved, whatever the sorting algorithms. -/
theorem C07_load (sorter sorter' : List Table → List Table) (hs : SortSpec sorter) (hs' : SortSpec sorter') (s : Schema)
    (hd : DistinctTables s) (text : Str) (h : s.toJson sorter = some text) :
    loadSchema sorter' true ((readJson text).bind Json.toSchema) = some (s.normalize sorter).1 := by
  obtain ⟨j, h1, h2⟩ := C07_round_trip sorter s text h
  have hn : (s.normalize sorter).2 = none := by
    unfold Schema.toJson at h
    split at h
    · rename_i e; rw [e]
    · cases h
  rw [h1, Option.bind_some, h2]
  show some ((s.normalize sorter).1.normalize sorter').1 = _
  rw [C03_idempotent sorter sorter' hs hs' s hd hn]

/-- A schema with every kind of field, and text that must be escaped. -/
def jsonDemo : Schema :=
  { author := "a \"b\" <c> & \\ d\n"ₛ
    tables := [
      { name := "user"ₛ, group := "g"ₛ, description := "tab\t, bell\x07, line "ₛ, className := "User"ₛ,
        columns := [
          { name := "id"ₛ, type := "long"ₛ, primaryKey := true, autoIncremental := true, notNull := true },
          { name := "kind"ₛ, type := "enum"ₛ, values := ["x"ₛ, "y"ₛ], defaultValue := "x"ₛ },
          { name := "price"ₛ, type := "decimal"ₛ, size := 20, scale := 5, uniqueKey := true, onUpdate := "fn::NOW"ₛ,
            ref := some ⟨"t"ₛ, "c"ₛ, "n:1"ₛ⟩ }],
        indices := [⟨"i"ₛ, ["id"ₛ, "kind"ₛ]⟩, ⟨"empty"ₛ, []⟩] },
      { name := "t"ₛ, columns := [] }] }

example : ∃ text, jsonDemo.toJson tableSort = some text ∧
    (readJson text).bind Json.toSchema = some (jsonDemo.normalize tableSort).1 ∧ DistinctTables jsonDemo ∧
    (jsonDemo.normalize tableSort).1 ≠ jsonDemo := by
  obtain ⟨text, h⟩ := C07_saves tableSort tableSort_spec jsonDemo
    ((C04_accepts_iff tableSort tableSort_spec jsonDemo).1 (by decide +kernel))
  obtain ⟨j, h1, h2⟩ := C07_round_trip tableSort jsonDemo text h
  refine ⟨text, h, by rw [h1]; exact h2, by unfold DistinctTables; decide +kernel, by decide +kernel⟩

/-- What a document looks like. -/
example : ({ name := "s"ₛ, tables := [{ name := "t"ₛ, columns := [{ name := "a"ₛ, type := "int"ₛ, size := 3 }] }] } : Schema).toJson
      tableSort =
    some "{\n  \"name\": \"s\",\n  \"tables\": [\n    {\n      \"name\": \"t\",\n      \"columns\": [\n        {\n          \"name\": \"a\",\n          \"type\": \"int32\",\n          \"size\": 3\n        }\n      ]\n    }\n  ]\n}"ₛ := by
  decide +kernel

end Octo
