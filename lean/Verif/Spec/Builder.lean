/-!
# Specification vocabulary: last write wins
-/

namespace Cyphus.Spec

/-- The value given by the last call in `calls` that concerns the option selected by `pick`
(`pick c = some v` iff the call `c` gives the value `v` to that option); `none` if there is no such call. -/
def lastGiven {α β : Type} (pick : α → Option β) (calls : List α) : Option β :=
  calls.reverse.findSome? pick

end Cyphus.Spec
