import Verif.Model.Cli

/-! Which file a path names: walking through directories. -/

namespace Octo.Spec

/-- From a directory, given by the names from the root, one step along a path. -/
def walkStep (d : List Str) (e : Str) : List Str :=
  if e = [] ∨ e = "."ₛ then d else if e = ".."ₛ then d.dropLast else d ++ [e]

/-- Where a path leads from a working directory. -/
def walk (cwd : List Str) (s : Str) : List Str := (split '/' s).foldl walkStep (if s.head? = some '/' then [] else cwd)

/-- The names of directories. -/
def DirName (e : Str) : Prop := e ≠ [] ∧ e ≠ "."ₛ ∧ e ≠ ".."ₛ ∧ '/' ∉ e

/-- Two texts name the same file, from every working directory. -/
def SameFile (a b : Str) : Prop := ∀ cwd, (∀ e ∈ cwd, DirName e) → walk cwd a = walk cwd b

/-- Two spellings of a path: the same file, with the same extension; and both or none are given. -/
def SameSpelling (a b : Str) : Prop := (a = [] ↔ b = []) ∧ fileExt a = fileExt b ∧ SameFile a b

/-- The options that are paths. -/
def pathOptions : List Str := ["input"ₛ, "output"ₛ, "from"ₛ, "to"ₛ]

end Octo.Spec
