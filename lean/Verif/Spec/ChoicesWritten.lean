import Verif.Spec.Choices
import Verif.Spec.Writer
import Verif.Model.Tools

/-
What the compiler may choose, of processes and of objects.
-/

namespace Corda.Spec
open Corda

/-- The same exit code and output, both aborted, or both undefined. -/
structure SameProcess (e e' : Ended) : Prop where
  exit : ∀ code out, e = .exit code out ↔ e' = .exit code out
  aborted : e = .terminated ↔ e' = .terminated
  undefined : (∃ w, e = .ub w) ↔ ∃ w, e' = .ub w

mutual

/-- No map in the object has entries. -/
def EmptyMaps : Obj → Prop
  | .comp _ _ ms => EmptyMapsMembers ms
  | .list _ _ es => EmptyMapsElems es
  | .map _ _ es => es = []

def EmptyMapsMember : Member → Prop
  | .obj _ _ _ o => EmptyMaps o
  | _ => True

def EmptyMapsElem : Elem → Prop
  | .obj o => EmptyMaps o
  | _ => True

def EmptyMapsMembers : List Member → Prop
  | [] => True
  | m :: ms => EmptyMapsMember m ∧ EmptyMapsMembers ms

def EmptyMapsElems : List Elem → Prop
  | [] => True
  | e :: es => EmptyMapsElem e ∧ EmptyMapsElems es

end

end Corda.Spec
