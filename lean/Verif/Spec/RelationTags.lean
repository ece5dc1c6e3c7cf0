import Verif.Spec.Protobuf

/-!
# The numbers of relations in protobuf messages

Written after the usage texts of the flags `relationTagStart` ("set relation tags start index") and `relationTagDecr` ("set relation tags
decremental from relationTagStart"), format/protobuf/cli.go 96-106, with the comment "shift tag start if tag range is overlapped" of the
generator.
-/

namespace Octo.Spec

/-- The number to start from: the given one, unless the numbers of the relations would then reach those of the fields; it is shifted no
further than needed. -/
def firstTag (decr : Bool) (start : Int) (fields relations : Nat) : Nat :=
  max start.toNat (fields + if decr then relations else 1)

/-- The numbers of the relations, up or down. -/
def relationTags (decr : Bool) (start : Int) (fields relations : Nat) : List Nat :=
  (List.range relations).map fun i => if decr then firstTag decr start fields relations - i else firstTag decr start fields relations + i

end Octo.Spec
