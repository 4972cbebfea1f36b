import Verif.Spec.AnyInspect
import Verif.Spec.Shown

/-
What the inspection of an object of primitive values shows, in whatever order it writes them.
-/

namespace Corda.Spec
open Corda

/-- The type of a property that is a primitive value or a pointer to one. -/
def memberType : Member → Option PrimType
  | .prim _ _ v => some v.type
  | .nullPrim _ t => some t
  | _ => none

/-- All properties are primitive values or pointers to them, but none is a character. -/
def OnlyPrimitives (ms : List Member) : Prop := ∀ m ∈ ms, ∃ t, memberType m = some t ∧ t ≠ .char

/-- The properties of a class in alphabetical order; of several with the same name the first counts. -/
structure Alphabet (ms : List Member) (qs : List PropDesc) : Prop where
  sorted : qs.Pairwise fun a b => strLt a.name b.name = true
  first : ∀ q, q ∈ qs ↔ (ms.map memberDesc).find? (fun p => p.name == q.name) = some q

/-- A value read as a value of the type of that name. -/
def valueAs (t : Str) (v : Node) : Res Str :=
  match primNamed t with
  | some p => primText p (some v)
  | none => .throw "THIS IS BAD"

/-- The first property with the first value, the second with the second, and so on. -/
def pairUp (qs : List PropDesc) (vs : List Node) : Res (List Str) :=
  all ((qs.zip vs).map fun x => colon x.1.name <$> valueAs x.1.type x.2)

/-- What is shown of the object: the alphabetical list of its properties paired with the list of its values in the order of writing. -/
def flatInspection (qs : List PropDesc) (ms : List Member) : Res Str :=
  (fun ts => "{ Parsed : ".toList ++ braces ts ++ " }".toList) <$> pairUp qs (memberTrees ms)

end Corda.Spec
