import Verif.Model.Writer

/-
An object without its values: classes, names and types of properties, and which objects it is made of.
-/

namespace Corda.Spec
open Corda

mutual

/-- An object without its values.  Of lists and maps only the objects in them are left, in order. -/
inductive Form where
  | comp (name fp : Str) (properties : List FormProp)
  | list (name fp : Str) (objects : List Form)
  | map (name fp : Str) (objects : List Form)

/-- A property without its value: of a pointer to a primitive it is not said whether it is null. -/
inductive FormProp where
  | prim (name : Str) (type : PrimType) (ptr : Bool)
  | obj (name type : Str) (ptr : Bool) (o : Form)
  | null (name type : Str)

end

mutual

/-- The form of an object. -/
def form : Obj → Form
  | .comp n f ms => .comp n f (formMembers ms)
  | .list n f es => .list n f (formElems es)
  | .map n f es => .map n f (formEntries es)

def formMember : Member → FormProp
  | .prim n ptr v => .prim n v.type ptr
  | .nullPrim n t => .prim n t true
  | .obj n t ptr o => .obj n t ptr (form o)
  | .nullObj n t => .null n t

def formMembers : List Member → List FormProp
  | [] => []
  | m :: ms => formMember m :: formMembers ms

def formElem : Elem → List Form
  | .obj o => [form o]
  | .prim _ => []
  | .nullPrim _ => []

def formElems : List Elem → List Form
  | [] => []
  | e :: es => formElem e ++ formElems es

def formEntries : List Entry → List Form
  | [] => []
  | .mk k v :: es => formElem k ++ formElem v ++ formEntries es

end

end Corda.Spec
