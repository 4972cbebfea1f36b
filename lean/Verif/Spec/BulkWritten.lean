import Verif.Spec.Bulk
import Verif.Spec.Shown

/-
Objects for which the output of the tools is bounded.
-/

namespace Corda.Spec
open Corda

/-- Different classes in the object have different fingerprints. -/
def OwnFingerprints (o : Obj) : Prop := ∀ a ∈ classes o, ∀ b ∈ classes o, a.1.2 = b.1.2 → a = b

/-- There is no map in the object. -/
def WithoutMaps (o : Obj) : Prop := ∀ a ∈ classes o, a.2 ≠ some "map".toList

end Corda.Spec
