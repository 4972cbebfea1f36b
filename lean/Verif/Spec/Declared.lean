import Verif.Model.Writer

/-
The C++ classes of a program, and which objects are of them.
-/

namespace Corda.Spec
open Corda

/-- One `sf_.write<T> (…)` of a class: the name, and what `T` is. -/
inductive PropDecl where
  | prim (name : Str) (type : PrimType) (ptr : Bool)
  | obj (name type : Str) (ptr : Bool)

/-- What the elements of a container are. -/
inductive ElemDecl where
  | prim (type : PrimType)
  | obj

/-- A class with its name. -/
inductive ClassDecl where
  | comp (name : Str) (properties : List PropDecl)
  | list (name : Str) (elem : ElemDecl)
  | map (name : Str) (key value : ElemDecl)

/-- The classes of a program, each with a fingerprint of its own. -/
abbrev Declarations := Str → Option ClassDecl

/-- A value of that type; a `char` is a number from -128 to 127. -/
def OfType (t : PrimType) (v : Prim) : Prop := v.type = t ∧ ∀ c, v = .char c → -128 ≤ c ∧ c ≤ 127

mutual

/-- An object of one of these classes, made of such objects; pointers may be null. -/
def Declared (T : Declarations) : Obj → Prop
  | .comp n f ms => ∃ ds, T f = some (.comp n ds) ∧ DeclaredMembers T ds ms
  | .list n f es => ∃ d, T f = some (.list n d) ∧ DeclaredElems T d es
  | .map n f es => ∃ k v, T f = some (.map n k v) ∧ DeclaredEntries T k v es

def DeclaredMember (T : Declarations) : PropDecl → Member → Prop
  | .prim n t ptr, .prim n' ptr' v => n = n' ∧ ptr = ptr' ∧ OfType t v
  | .prim n t ptr, .nullPrim n' t' => n = n' ∧ t = t' ∧ ptr = true
  | .obj n t ptr, .obj n' t' ptr' o => n = n' ∧ t = t' ∧ ptr = ptr' ∧ Declared T o
  | .obj n t ptr, .nullObj n' t' => n = n' ∧ t = t' ∧ ptr = true
  | _, _ => False

def DeclaredMembers (T : Declarations) : List PropDecl → List Member → Prop
  | [], [] => True
  | d :: ds, m :: ms => DeclaredMember T d m ∧ DeclaredMembers T ds ms
  | _, _ => False

def DeclaredElem (T : Declarations) : ElemDecl → Elem → Prop
  | .prim t, .prim v => OfType t v
  | .prim t, .nullPrim t' => t = t'
  | .obj, .obj o => Declared T o
  | _, _ => False

def DeclaredElems (T : Declarations) (d : ElemDecl) : List Elem → Prop
  | [] => True
  | e :: es => DeclaredElem T d e ∧ DeclaredElems T d es

def DeclaredEntries (T : Declarations) (k v : ElemDecl) : List Entry → Prop
  | [] => True
  | .mk a b :: es => DeclaredElem T k a ∧ DeclaredElem T v b ∧ DeclaredEntries T k v es

end

end Corda.Spec
