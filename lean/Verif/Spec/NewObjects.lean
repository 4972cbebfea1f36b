import Verif.Model.NewObjects

/-
What deserialising makes with `new`, and what of that is lost when it fails at a given place.
-/

namespace Corda.Spec
open Corda

/-- What a property is when it has been read: a new primitive or a new object if it is a pointer. -/
def pointee : PropShape → List Made
  | .prim true t => [.prim t]
  | .obj true _ => [.obj]
  | _ => []

def pointees : List PropShape → List Made
  | [] => []
  | p :: ps => pointee p ++ pointees ps

/-- Reading fails at a place, given by the number of the property in each class on the way there; what is lost are the pointers already read for each of these classes,
and the new primitive if the place is a pointer to one. -/
def lost : List Nat → PropShape → List Made
  | [], .prim true t => [.prim t]
  | i :: path, .obj _ (.mk ps) => pointees (ps.take i) ++ (match ps[i]? with
    | some p => lost path p
    | none => [])
  | _, _ => []

/-- Reading a property with the cursor there throws at that place: all properties before it are read, in each class on the way. -/
def FailsAt : List Nat → PropShape → Cursor → Prop
  | [], .obj _ _, c => ∃ m c', Prog.startRead c = (.throw m, c')
  | [], p, c => ∃ m c', Prog.readProp p c = (.throw m, c')
  | i :: path, .obj _ (.mk ps), c => ∃ u c1 vs c2 p, Prog.startRead c = (.ok u, c1) ∧ Prog.readProps (ps.take i) c1 = (.ok vs, c2) ∧ ps[i]? = some p
      ∧ FailsAt path p c2
  | _ :: _, _, _ => False

mutual

/-- No pointers anywhere. -/
def PropShape.ByValue : PropShape → Prop
  | .prim ptr _ => ptr = false
  | .obj ptr s => ptr = false ∧ Shape.ByValue s
  | .vector => True

def Shape.ByValue : Shape → Prop
  | .mk ps => AllByValue ps

def AllByValue : List PropShape → Prop
  | [] => True
  | p :: ps => PropShape.ByValue p ∧ AllByValue ps

end

end Corda.Spec
