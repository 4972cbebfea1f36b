import Verif.Spec.Writer
import Verif.Spec.Readers

/-
What inspecting a serialised object should show.
-/

namespace Corda.Spec
open Corda

/-- A primitive as a value to be shown.  There is no text for floats and characters; see `Showable`. -/
def primVal : Prim → PVal
  | .int n => .int n
  | .string s => .str s
  | .bool b => .bool b
  | .double b => .double b
  | .long n => .long n
  | .float _ => .null
  | .char _ => .null

def memberName : Member → Str
  | .prim n _ _ => n
  | .nullPrim n _ => n
  | .obj n _ _ _ => n
  | .nullObj n _ => n

mutual

/-- An object as a value to be shown: each property's name with that property's value, in the order of writing. -/
def objVal : Obj → PVal
  | .comp _ f ms => .obj f (ms.map memberName) (memberVals ms)
  | .list _ f es => .list f (elemVals es)
  | .map _ f es => .map f (entryVals es)

def memberVal : Member → PVal
  | .prim _ _ v => primVal v
  | .nullPrim _ _ => .null
  | .obj _ _ _ o => objVal o
  | .nullObj _ _ => .null

def memberVals : List Member → List PVal
  | [] => []
  | m :: ms => memberVal m :: memberVals ms

def elemVal : Elem → PVal
  | .prim v => primVal v
  | .nullPrim _ => .null
  | .obj o => objVal o

def elemVals : List Elem → List PVal
  | [] => []
  | e :: es => elemVal e :: elemVals es

def entryVals : List Entry → List PEntry
  | [] => []
  | .mk k v :: es => .mk (elemVal k) (elemVal v) :: entryVals es

end

mutual

/-- Every composite object in the graph: its class, and its properties as they should be described. -/
def shapes : Obj → List ((Str × Str) × List PropDesc)
  | .comp n f ms => ((n, f), ms.map memberDesc) :: shapesMembers ms
  | .list _ _ es => shapesElems es
  | .map _ _ es => shapesEntries es

def shapesMember : Member → List ((Str × Str) × List PropDesc)
  | .obj _ _ _ o => shapes o
  | _ => []

def shapesMembers : List Member → List ((Str × Str) × List PropDesc)
  | [] => []
  | m :: ms => shapesMember m ++ shapesMembers ms

def shapesElem : Elem → List ((Str × Str) × List PropDesc)
  | .obj o => shapes o
  | _ => []

def shapesElems : List Elem → List ((Str × Str) × List PropDesc)
  | [] => []
  | e :: es => shapesElem e ++ shapesElems es

def shapesEntries : List Entry → List ((Str × Str) × List PropDesc)
  | [] => []
  | .mk k v :: es => shapesElem k ++ shapesElem v ++ shapesEntries es

end

/-- All objects of a class have the same properties. -/
def Uniform (o : Obj) : Prop := ∀ a ∈ shapes o, ∀ b ∈ shapes o, a.1 = b.1 → a.2 = b.2

/-- Every object writes its properties in ascending order of their names. -/
def Alphabetical (o : Obj) : Prop := ∀ a ∈ shapes o, a.2.Pairwise fun p q => strLt p.name q.name = true

/-- There is a text for it. -/
def Prim.shows : Prim → Prop
  | .float _ => False
  | .char _ => False
  | _ => True

mutual

/-- Every part of the object has a text and is of the type it is declared as; `ts` are the types of the schema. -/
def Showable (ts : List TypeNotation) : Obj → Prop
  | .comp _ _ ms => ShowableMembers ts ms
  | .list n f es => ∃ (r : Restricted) (l : Str), .restr r ∈ ts ∧ r.name = n ∧ r.descriptor = f
      ∧ (r.kind = .list l ∨ r.kind = .array l) ∧ ShowableElems ts l es
  | .map n f es => ∃ (r : Restricted) (k v : Str), .restr r ∈ ts ∧ r.name = n ∧ r.descriptor = f
      ∧ r.kind = .map k v ∧ ShowableEntries ts k v es

def ShowableMember (ts : List TypeNotation) : Member → Prop
  | .prim _ _ v => Prim.shows v
  | .nullPrim _ _ => False
  | .obj _ t _ o => t = o.name ∧ Showable ts o
  | .nullObj _ t => ∃ c : Composite, .comp c ∈ ts ∧ c.name = t

def ShowableMembers (ts : List TypeNotation) : List Member → Prop
  | [] => True
  | m :: ms => ShowableMember ts m ∧ ShowableMembers ts ms

def ShowableElem (ts : List TypeNotation) (l : Str) : Elem → Prop
  | .prim v => v.type.typeName = l ∧ Prim.shows v
  | .nullPrim _ => False
  | .obj o => o.name = l ∧ Showable ts o

def ShowableElems (ts : List TypeNotation) (l : Str) : List Elem → Prop
  | [] => True
  | e :: es => ShowableElem ts l e ∧ ShowableElems ts l es

def ShowableEntries (ts : List TypeNotation) (k v : Str) : List Entry → Prop
  | [] => True
  | .mk a b :: es => ShowableElem ts k a ∧ ShowableElem ts v b ∧ ShowableEntries ts k v es

end

/-- The type a property is declared with: the only requirement of a `*`. -/
def PropDesc.declared (p : PropDesc) : Option Str := if p.type = "*".toList then p.requires.head? else some p.type

end Corda.Spec
