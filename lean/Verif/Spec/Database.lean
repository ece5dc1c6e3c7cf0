import Verif.Basic.Str
import Mathlib.Logic.Basic

/-!
# A small database

The structure of a relational database and the effect of schema-changing statements on it, written
independently of the code under verification.  `γ` is the type of the column attributes that are
tracked.  A statement is a relation between the state before and after; a statement that a database
would reject is related to nothing.  Column order is not part of the state.
-/

namespace Octo.Spec

/-- Structure of a table: its columns with their attributes, the primary key columns and the named
unique constraints. -/
structure DbTable (γ : Type) where
  cols : Str → Option γ
  pk : Str → Prop
  uniques : Str → Option (Str → Prop)

/-- A database: the tables by name. -/
abbrev Db (γ : Type) := Str → Option (DbTable γ)

/-- Point update of a partial map. -/
def upd {α : Type} (f : Str → Option α) (n : Str) (v : Option α) : Str → Option α :=
  fun m => if m = n then v else f m

/-- The image of a set of columns under the renaming of column `a` to `b`. -/
def renameIn (a b : Str) (s : Str → Prop) : Str → Prop :=
  fun n => (n = b ∧ s a) ∨ (n ≠ a ∧ s n)

/-- Statements on an existing table. -/
inductive TOp (γ : Type)
  | setPrimaryKey (cols : Str → Prop)
  | dropPrimaryKey
  | addPrimaryKey (cols : Str → Prop)
  | dropUnique (name : Str)
  | createUnique (name : Str) (cols : Str → Prop)
  | addColumn (name : Str) (attr : γ)
  | dropColumn (name : Str)
  | renameColumn (old new : Str)
  | modify (name : Str) (f : γ → γ)
  | outsideKey (name : Str)
  | remark

/-- Effect of a statement on a table. -/
def TStep {γ : Type} : TOp γ → DbTable γ → DbTable γ → Prop
  /- the columns must exist -/
  | .setPrimaryKey s, t, t' => (∀ c, s c → (t.cols c).isSome) ∧ t' = { t with pk := s }
  /- the table must have a primary key -/
  | .dropPrimaryKey, t, t' => (∃ c, t.pk c) ∧ t' = { t with pk := fun _ => False }
  /- the table must have no primary key, and the columns must exist -/
  | .addPrimaryKey s, t, t' => (∀ c, ¬t.pk c) ∧ (∀ c, s c → (t.cols c).isSome) ∧ t' = { t with pk := s }
  /- the constraint must exist -/
  | .dropUnique k, t, t' => (t.uniques k).isSome ∧ t' = { t with uniques := upd t.uniques k none }
  /- the name must be free and the columns must exist -/
  | .createUnique k s, t, t' => t.uniques k = none ∧ (∀ c, s c → (t.cols c).isSome) ∧
      t' = { t with uniques := upd t.uniques k (some s) }
  /- the name must be free -/
  | .addColumn c g, t, t' => t.cols c = none ∧ t' = { t with cols := upd t.cols c (some g) }
  /- the column must exist and must not belong to a unique constraint; it leaves the primary key -/
  | .dropColumn c, t, t' => (t.cols c).isSome ∧ (∀ k s, t.uniques k = some s → ¬s c) ∧
      t' = { t with cols := upd t.cols c none, pk := fun n => n ≠ c ∧ t.pk n }
  /- the column must exist and the new name must be free; keys follow the column -/
  | .renameColumn a b, t, t' => (t.cols a).isSome ∧ t.cols b = none ∧
      t' = { cols := upd (upd t.cols a none) b (t.cols a), pk := renameIn a b t.pk,
             uniques := fun k => (t.uniques k).map (renameIn a b) }
  /- the column must exist -/
  | .modify c f, t, t' => ∃ g, t.cols c = some g ∧ t' = { t with cols := upd t.cols c (some (f g)) }
  /- no effect, but the column must not belong to the primary key -/
  | .outsideKey c, t, t' => ¬t.pk c ∧ t' = t
  | .remark, t, t' => t' = t

/-- Statements on the database. -/
inductive DbOp (γ : Type)
  | createTable (name : Str) (table : DbTable γ)
  | dropTable (name : Str)
  | renameTable (old new : Str)
  | alter (name : Str) (op : TOp γ)

/-- Effect of a statement on the database. -/
def Step {γ : Type} : DbOp γ → Db γ → Db γ → Prop
  | .createTable n t, d, d' => d n = none ∧ d' = upd d n (some t)
  | .dropTable n, d, d' => (d n).isSome ∧ d' = upd d n none
  | .renameTable a b, d, d' => (d a).isSome ∧ d b = none ∧ d' = upd (upd d a none) b (d a)
  | .alter n op, d, d' => ∃ t t', d n = some t ∧ TStep op t t' ∧ d' = upd d n (some t')

/-- Executing statements one after the other, all of them accepted. -/
def Runs {γ : Type} : List (DbOp γ) → Db γ → Db γ → Prop
  | [], d, d' => d' = d
  | op :: ops, d, d'' => ∃ d', Step op d d' ∧ Runs ops d' d''

/-- The same for statements on one table. -/
def TRuns {γ : Type} : List (TOp γ) → DbTable γ → DbTable γ → Prop
  | [], t, t' => t' = t
  | op :: ops, t, t'' => ∃ t', TStep op t t' ∧ TRuns ops t' t''

end Octo.Spec
