import Verif.Spec.RelationTags
import Verif.Props.Protobuf

/-! Property C78: the numbers of relations, exactly. -/

namespace Octo
open Spec Protobuf

theorem relTagStart_eq (o : PbOption) (n k : Nat) (hk : 0 < k) :
    (relTagStart o n k).toNat = firstTag o.relationTagDecr o.relationTagStart n k := by
  unfold relTagStart firstTag
  cases o.relationTagDecr with
  | true =>
    rw [if_pos rfl, if_pos rfl]
    split <;> omega
  | false =>
    rw [if_neg Bool.false_ne_true, if_neg Bool.false_ne_true]
    split <;> omega

/-- **C78**, exactly: the numbers of the relations go up from the number that the options say, for both directions, and so are those of the
documentation if and only if the direction is up or the table has at most one reference. -/
theorem C78_exact {sc : Strcase} {o : PbOption} {s : Schema} {text : Str} (hc : CleanCase sc) (hp : PlainProto o s)
    (h : generate sc o s = some text) :
    ∃ f, readProto text = some f ∧ List.Forall₂ (fun t m =>
      (numbers m).drop t.columns.length = (List.range (tableRefs t).length).map
        (firstTag o.relationTagDecr o.relationTagStart t.columns.length (tableRefs t).length + ·) ∧
      ((numbers m).drop t.columns.length = relationTags o.relationTagDecr o.relationTagStart t.columns.length (tableRefs t).length ↔
        o.relationTagDecr = false ∨ (tableRefs t).length ≤ 1)) (Selected o s) f.messages := by
  obtain ⟨ms, hm, hr'⟩ := read_proto hc hp h
  refine ⟨_, hr', ?_⟩
  show List.Forall₂ _ _ (ms.map readMessage)
  rw [List.forall₂_map_right_iff]
  refine hm.imp fun t m hf => ?_
  have e : (numbers (readMessage m)).drop t.columns.length = (List.range (tableRefs t).length).map
      (firstTag o.relationTagDecr o.relationTagStart t.columns.length (tableRefs t).length + ·) := by
    rw [numbers_eq hf, List.drop_append_of_le_length (by simp), List.drop_of_length_le (by simp), List.nil_append]
    refine List.map_congr_left fun i hi => ?_
    rw [relTagStart_eq o _ _ (by rw [List.mem_range] at hi; omega)]
  refine ⟨e, ?_⟩
  rw [e]
  unfold relationTags
  generalize firstTag o.relationTagDecr o.relationTagStart t.columns.length (tableRefs t).length = k
  cases o.relationTagDecr with
  | false => exact ⟨fun _ => .inl rfl, fun _ => rfl⟩
  | true =>
    constructor
    · intro h
      right
      by_contra hn
      have := (List.map_inj_left.1 h) 1 (by rw [List.mem_range]; omega)
      rw [if_pos rfl] at this
      omega
    · rintro (h | h)
      · cases h
      · refine List.map_congr_left fun i hi => ?_
        rw [List.mem_range] at hi
        rw [if_pos rfl]
        omega

/-- C78: a start that is too low is shifted by the number of references when the direction is down. -/
example : ∃ text, generate strcase { protoOption with relationTagDecr := true, relationTagStart := 5 } protoSchema = some text ∧
    (readProto text).map (fun f => f.messages.map numbers) = some [[1, 2], [1, 2, 3, 4, 6, 7]] ∧
    firstTag true 5 4 2 = 6 ∧ relationTags true 5 4 2 = [6, 5] ∧ CleanCase strcase ∧
    PlainProto { protoOption with relationTagDecr := true, relationTagStart := 5 } protoSchema :=
  ⟨_, rfl, by decide +kernel, by decide +kernel, by decide +kernel, strcase_clean, protoSchema_plain _ rfl rfl rfl rfl⟩

end Octo
