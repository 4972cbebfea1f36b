import Verif.Spec.Writer

/-
What writing any objects into a blob makes, also when some of them fail: a description that knows only what was written so
far, in order.  No maps, no cursor.
-/

namespace Corda.Spec
open Corda

/-- What a blob has seen so far, in order: the objects, as the classes they are of, and the properties that were described. -/
structure Ledger where
  classes : List ClassUse
  props : List ((Str × Str) × PropDesc)
  deriving DecidableEq, Repr

/-- Nothing. -/
def newLedger : Ledger := ⟨[], []⟩

/-- Something that is written: how it ends, the values written until then, and what has been seen. -/
abbrev Pen : Type := Ledger → Res Unit × List Node × Ledger

namespace Pen

/-- One after the other. What the first has written stays when the second fails. -/
def «then» (a b : Pen) : Pen := fun L =>
  match a L with
  | (.ok _, ns, L') => ((b L').1, ns ++ (b L').2.1, (b L').2.2)
  | x => x

def nothing : Pen := fun L => (.ok (), [], L)

/-- One value. -/
def put (n : Node) : Pen := fun L => (.ok (), [n], L)

/-- The trace prints what is written. -/
def print (can : Bool) : Pen := fun L => (if can then .ok () else .ub "char pointer", [], L)

/-- A property: a class that was first seen as a container cannot have one. -/
def property (key : Str × Str) (d : PropDesc) : Pen := fun L =>
  match L.classes.lookup key with
  | some none => (.ok (), [], { L with props := L.props ++ [(key, d)] })
  | some (some _) => (.throw "bad_cast", [], L)
  | none => (.ub "assert", [], L)

/-- An object: one value, whatever becomes of its parts. -/
def object (key : Str × Str) (kind : Option Str) (v : Atom) (body : Pen) : Pen := fun L =>
  let x := body { L with classes := L.classes ++ [(key, kind)] }
  (x.1, [describedNode key.2 v x.2.1], x.2.2)

end Pen

mutual

/-- An object and all it consists of. -/
def penObj : Obj → Pen
  | .comp n f ms => Pen.object (n, f) none .list (penMembers (n, f) ms)
  | .list n f es => Pen.object (n, f) (some "list".toList) .list (penElems es)
  | .map n f es => Pen.object (n, f) (some "map".toList) .map (penEntries es)

def penMembers (key : Str × Str) : List Member → Pen
  | [] => Pen.nothing
  | m :: ms => (penMember key m).then (penMembers key ms)

def penMember (key : Str × Str) : Member → Pen
  | .prim n ptr v => (Pen.print (!ptr || v.pointerPrints)).then ((Pen.property key (memberDesc (.prim n ptr v))).then (Pen.put (primNode v)))
  | .nullPrim n t => (Pen.print t.nullPrints).then ((Pen.property key (memberDesc (.nullPrim n t))).then (Pen.put (.mk .null [])))
  | .obj n t ptr o => (Pen.property key (memberDesc (.obj n t ptr o))).then (penObj o)
  | .nullObj n t => (Pen.property key (memberDesc (.nullObj n t))).then (Pen.put (.mk .null []))

def penElems : List Elem → Pen
  | [] => Pen.nothing
  | e :: es => (penElem e).then (penElems es)

def penElem : Elem → Pen
  | .prim v => Pen.put (primNode v)
  | .nullPrim t => (Pen.print t.nullPrints).then (Pen.put (.mk .null []))
  | .obj o => penObj o

def penEntries : List Entry → Pen
  | [] => Pen.nothing
  | .mk k v :: es => ((penElem k).then (penElem v)).then (penEntries es)

end

/-- Put something in its place in an ordered list, unless it is there. -/
def placed {α : Type} [DecidableEq α] (lt : α → α → Bool) (x : α) : List α → List α
  | [] => [x]
  | y :: ys => if x = y then y :: ys else if lt x y then x :: y :: ys else y :: placed lt x ys

/-- All that is in a list, once and in order. -/
def orderly {α : Type} [DecidableEq α] (lt : α → α → Bool) (l : List α) : List α := l.foldr (placed lt) []

/-- The description of a class that was seen: of its properties, each as it was first described, or of where its contents come
from. -/
def Ledger.describe (L : Ledger) (key : Str × Str) : ClassDesc :=
  match L.classes.lookup key with
  | some (some source) => ⟨key, .inr source⟩
  | _ => ⟨key, .inl ((orderly strLt ((L.props.filter (·.1 = key)).map (·.2.name))).filterMap (firstProp L.props key))⟩

/-- The descriptions of all classes that were seen. -/
def Ledger.descriptions (L : Ledger) : List ClassDesc := (orderly keyLt (L.classes.map Prod.fst)).map L.describe

/-- The blob that is made: all values written, the schema, and nothing for the transforms. -/
def blobOf (ns : List Node) (L : Ledger) : List Node :=
  [element 1 (ns ++ [schemaTree (L.descriptions.map ClassDesc.tree), .mk .null []])]

/-- What serialising an object makes. -/
def writtenOf (o : Obj) : Res (List Node) :=
  match penObj o newLedger with
  | (.ok _, ns, L) => .ok (blobOf ns L)
  | (.throw m, _) => .throw m
  | (.ub w, _) => .ub w

/-- What should come of it. -/
def blobUses : List Node × Ledger → List Act → List (Res (List Node))
  | _, [] => []
  | x, .make :: as => .ok (blobOf x.1 x.2) :: blobUses x as
  | x, .write o :: as =>
    match penObj o x.2 with
    | (.ok _, ns, L) => .ok [] :: blobUses (x.1 ++ ns, L) as
    | (.throw m, ns, L) => .throw m :: blobUses (x.1 ++ ns, L) as
    | (.ub w, _) => [.ub w]

end Corda.Spec
