import Verif.Spec.Shown

/-
What the inspection of an object graph shows, in whatever order its classes write their properties: the same objects under other names.
-/

namespace Corda.Spec
open Corda

mutual

/-- The object graph with other names for the properties: the property at place `i` of an object of the class `k` is called `names k i`. -/
def renamed (names : Str × Str → Nat → Str) : Obj → Obj
  | .comp n f ms => .comp n f (renamedMembers names (n, f) 0 ms)
  | .list n f es => .list n f (renamedElems names es)
  | .map n f es => .map n f (renamedEntries names es)

def renamedMembers (names : Str × Str → Nat → Str) (k : Str × Str) (i : Nat) : List Member → List Member
  | [] => []
  | m :: ms => renamedMember names (names k i) m :: renamedMembers names k (i + 1) ms

def renamedMember (names : Str × Str → Nat → Str) (n : Str) : Member → Member
  | .prim _ ptr v => .prim n ptr v
  | .nullPrim _ t => .nullPrim n t
  | .obj _ t ptr o => .obj n t ptr (renamed names o)
  | .nullObj _ t => .nullObj n t

def renamedElems (names : Str × Str → Nat → Str) : List Elem → List Elem
  | [] => []
  | e :: es => renamedElem names e :: renamedElems names es

def renamedElem (names : Str × Str → Nat → Str) : Elem → Elem
  | .prim v => .prim v
  | .nullPrim t => .nullPrim t
  | .obj o => .obj (renamed names o)

def renamedEntries (names : Str × Str → Nat → Str) : List Entry → List Entry
  | [] => []
  | .mk k v :: es => .mk (renamedElem names k) (renamedElem names v) :: renamedEntries names es

end

/-- The properties under other names, place by place. -/
def underNames (name : Nat → Str) (i : Nat) : List PropDesc → List PropDesc
  | [] => []
  | p :: ps => { p with name := name i } :: underNames name (i + 1) ps

/-- `names` gives the names of the properties of each class in alphabetical order, and the property of that name is of the type of the one
written at that place. -/
def NamedInOrder (names : Str × Str → Nat → Str) (o : Obj) : Prop := ∀ a ∈ shapes o,
  (underNames (names a.1) 0 a.2).Pairwise (fun p q => strLt p.name q.name = true) ∧ (underNames (names a.1) 0 a.2).Perm a.2

end Corda.Spec
