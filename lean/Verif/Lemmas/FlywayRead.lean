import Verif.Lemmas.DiffOut
import Verif.Spec.Flyway

/-! What the statements of a flyway script say, for all changes that are reported. -/

namespace Octo
open Spec

/-- The names of the primary key as the statement lists them. -/
def keyList (t : Table) : List Str := sortStrings ((t.columns.filter (·.primaryKey)).map (·.name)).dedup

/-- The statements written for a change, as they are read. -/
def said (suffix : Str) : Change → List SqlAction
  | .createTable t => [.createTable (ddlTable Mysql.toMysqlColumnType suffix t)]
  | .dropTable t => [.dropTable t.name]
  | .renameTable o n => [.renameTable o.name n.name]
  | .updatePrimaryKey _ n =>
    .dropPrimaryKey n.name :: (if n.columns.any (·.primaryKey) then [.addPrimaryKey n.name (keyList n)] else [])
  | .setNotNull t c => [.modifyColumn t.name (ddlColumn Mysql.toMysqlColumnType (bareColumn c)) false]
  | .setAutoIncrement t c =>
    if c.autoIncremental then [.modifyColumn t.name (ddlColumn Mysql.toMysqlColumnType c) false]
    else [.modifyColumn t.name { name := c.name, type := Mysql.toMysqlColumnType c, autoIncrement := true } true]
  | _ => []

theorem change_says {suffix : Str} (hsuf : UnescapedName suffix) {c : Change} (hp : PlainChange c)
    (hne : ∀ t x, c ≠ .addColumn t x) : Reads ((toSQL suffix c).flatMap (· ++ "\n"ₛ)) (said suffix c) := by
  cases c with
  | createTable t => exact one_line (createTable_reads hsuf hp)
  | dropTable t => exact one_line (dropTable_reads hp)
  | renameTable o n => exact one_line (renameTable_reads hp.1 hp.2)
  | updatePrimaryKey o n =>
    obtain ⟨hn, hc⟩ := hp
    rw [toSQL, said, primaryKey_slice, List.flatMap_append]
    refine (one_line (dropPrimaryKey_reads hn)).append (b := if n.columns.any (·.primaryKey) then [.addPrimaryKey n.name (keyList n)] else []) ?_
    by_cases hk : n.columns.any (·.primaryKey) = true
    · rw [if_pos hk, if_pos]
      · refine one_line (addPrimaryKey_reads hn ?_)
        intro m hm
        rw [mem_sortStrings, List.mem_dedup] at hm
        obtain ⟨c, hcm, rfl⟩ := List.mem_map.1 hm
        exact hc c (List.mem_filter.1 hcm).1
      · obtain ⟨c, hcm, hcp⟩ := List.any_eq_true.1 hk
        have : c.name ∈ sortStrings ((n.columns.filter (·.primaryKey)).map (·.name)).dedup := by
          rw [mem_sortStrings, List.mem_dedup]
          exact List.mem_map_of_mem (List.mem_filter.2 ⟨hcm, hcp⟩)
        exact List.length_pos_of_mem this
    · rw [if_neg hk, if_neg]
      · exact Reads.nil
      · intro hlen
        obtain ⟨m, hm⟩ := List.exists_mem_of_length_pos hlen
        rw [mem_sortStrings, List.mem_dedup] at hm
        obtain ⟨c, hcm, rfl⟩ := List.mem_map.1 hm
        exact hk (List.any_eq_true.2 ⟨c, (List.mem_filter.1 hcm).1, (List.mem_filter.1 hcm).2⟩)
  | setNotNull t c =>
    obtain ⟨hn, hc, hne⟩ := hp
    obtain ⟨s, hs, hr⟩ := setNotNull_reads hn hc hne (t := t) rfl suffix
    rw [hs]
    exact one_line hr
  | setAutoIncrement t c =>
    obtain ⟨hn, hc, hne⟩ := hp
    rw [said]
    cases ha : c.autoIncremental with
    | true =>
      obtain ⟨s, hs, hr⟩ := setAutoIncrement_on_reads hn hc hne ha suffix
      rw [hs, if_pos rfl]
      exact one_line hr
    | false =>
      obtain ⟨s, hs, hr⟩ := setAutoIncrement_off_reads hn hc hne ha suffix
      rw [hs, if_neg (by decide)]
      exact one_line hr
  | addColumn t x => exact absurd rfl (hne t x)
  | _ => exact Reads.nil

theorem flyway_says {suffix : Str} (hsuf : UnescapedName suffix) {cs : List ChangeSet}
    (h : ∀ s ∈ cs, ∀ c ∈ s.changes, PlainChange c ∧ ∀ t x, c ≠ .addColumn t x) :
    readScript (flyway suffix cs) = some ((cs.flatMap (·.changes)).flatMap (said suffix)) := by
  refine Reads.script ?_
  rw [List.flatMap_assoc]
  refine Reads.flatMap fun s hs => ?_
  have := (Reads.flatMap (f := fun c => (toSQL suffix c).flatMap (· ++ "\n"ₛ)) (g := said suffix) (l := s.changes)
    fun c hc => change_says hsuf (h s hs c hc).1 (h s hs c hc).2).append (Reads.blank (s := "\n"ₛ) (by decide))
  rw [List.append_nil] at this
  exact this

end Octo
