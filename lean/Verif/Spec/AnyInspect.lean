import Verif.Spec.AnySchema

/-
What an inspection makes of any tree: the text, the exception, or undefined behaviour.  This is said about trees and
types; there are no cursors, reader objects or factories here.
-/

namespace Corda.Spec
open Corda

/-! ### Which types can be read -/

/-- How the values of a type are read: as keys, as values of a primitive type, or as a type of the schema says. -/
inductive How where
  | key
  | prim (p : PrimReader)
  | type (t : TypeNotation)
  deriving DecidableEq, Repr

/-- How the types known so far are read; of two entries for a name the first counts. -/
abbrev Table : Type := List (Str × How)

/-- What is known beforehand. -/
def onlyKeys : Table := [(keyType, .key)]

/-- The names that are taken for those of primitive types. -/
def primitiveNames : List Str := "bool".toList :: readable

/-- A primitive type becomes known when it is first needed; but an unknown one cannot be read. -/
def needPrimitive (T : Table) (t : Str) : Res Table :=
  match T.lookup t with
  | some _ => .ok T
  | none =>
    match primNamed t with
    | some p => .ok ((t, .prim p) :: T)
    | none => .throw "THIS IS BAD"

/-- Any other type has to be known. -/
def needKnown (T : Table) (t : Str) (otherwise : String) : Res Table :=
  match T.lookup t with
  | some _ => .ok T
  | none => .throw otherwise

/-- What is needed for a field of the class named `self`, which may have fields of its own type. -/
def needField (self : Str) (T : Table) (f : Field) : Res Table :=
  match fieldTypeName f with
  | none => .ub "front of an empty list"
  | some t =>
    match f.kind with
    | .primitive => needPrimitive T t
    | .custom => needKnown T t "Can't find"
    | _ => if t = self then .ok T else needKnown T t "Can't find"

/-- What is needed for all its fields. -/
def needFields (self : Str) : Table → List Field → Res Table
  | T, [] => .ok T
  | T, f :: fs => do
    let T' ← needField self T f
    needFields self T' fs

/-- What is needed for the elements of a list, or the keys or values of a map. -/
def needElement (T : Table) (t : Str) : Res Table :=
  if t ∈ primitiveNames then needPrimitive T t else needKnown T t "Missing type in serialisers map"

/-- What is needed for a type.  The compiler decides whether that for the keys or that for the values comes first. -/
def needType (leftFirst : Bool) (T : Table) (t : TypeNotation) : Res Table :=
  match t with
  | .comp c => needFields c.name T c.fields
  | .restr r =>
    match r.kind with
    | .enum _ => .ok T
    | .list l => needElement T l
    | .array l => needElement T l
    | .map k v =>
      if leftFirst then do
        let T' ← needElement T k
        needElement T' v
      else do
        let T' ← needElement T v
        needElement T' k

/-- One more type; if one of that name is known, that is not changed. -/
def learn (leftFirst : Bool) (T : Table) (t : TypeNotation) : Res Table :=
  match T.lookup t.name with
  | some _ => .ok T
  | none => do
    let T' ← needType leftFirst T t
    pure ((t.name, .type t) :: T')

/-- One type after the other. -/
def learnAll (leftFirst : Bool) : Table → List TypeNotation → Res Table
  | T, [] => .ok T
  | T, t :: ts => do
    let T' ← learn leftFirst T t
    learnAll leftFirst T' ts

/-! ### What the values are shown as -/

/-- The name under which the values of a field are read.  If the class has the name of a primitive type, and a field is
of that primitive type, there is none: the reader for the primitive type is lost when that for the class takes its place. -/
def fieldRef (c : Composite) (f : Field) : Option Str :=
  match fieldTypeName f with
  | none => none
  | some t => if t = c.name ∧ (f.kind = .primitive ∨ f.kind = .custom) then none else some t

/-- The name under which elements, keys or values are read; likewise. -/
def elementRef (r : Restricted) (t : Str) : Option Str := if t = r.name then none else some t

/-- The text for what is read under a name; where there is none, a named property cannot be read and anything else is
undefined. -/
def textUnder (texts : Texts) (named : Bool) (ref : Option Str) (n : Option Node) : Res Str :=
  match ref with
  | some t => texts named t n
  | none => if named then .throw "null field reader" else .ub "null reader"

/-- The properties of an object of class `c`, which may have the descriptor of another class with as many properties. -/
def propertyTexts (ts : List TypeNotation) (texts : Texts) (c : Composite) (n : Option Node) : Res (List Str) := do
  let ks ← describedParts n
  let d ← symbolOf (nth ks 0)
  let u ← typeWith ts d
  match u with
  | .restr _ => .throw "std::bad_cast"
  | .comp c' =>
    if c'.fields.length = c.fields.length then do
      let ns ← listParts (nth ks 1)
      all ((c'.fields.zip c.fields).zipIdx.map fun x =>
        (colon x.1.1.name) <$> textUnder texts true (fieldRef c x.1.2) (nth ns x.2))
    else .ub "assert"

/-- The elements of a list or array. -/
def elementTexts (ts : List TypeNotation) (texts : Texts) (l : Option Str) (n : Option Node) : Res (List Str) := do
  let b ← body ts n
  all ((listElements b).map fun e => textUnder texts false l (some e))

/-- The keys and values of a map by turns.  If there is one left over, it is taken for both.  The compiler decides whether
the first of each two is read as the key or as the value. -/
def entryTexts (leftFirst : Bool) (ts : List TypeNotation) (texts : Texts) (k v : Option Str) (n : Option Node) :
    Res (List Str) := do
  let b ← body ts n
  let ns := mapParts b
  all ((List.range ((ns.length + 1) / 2)).map fun i =>
    if leftFirst then do
      let a ← textUnder texts false k (nth ns (2 * i))
      let b ← textUnder texts false v (nth ns (2 * i + 1))
      pure (colon a b)
    else do
      let b ← textUnder texts false v (nth ns (2 * i))
      let a ← textUnder texts false k (nth ns (2 * i + 1))
      pure (colon a b))

/-- The text for a value read under the name `t`, where `n` is what stands in its place (perhaps nothing).  `ts` are the types
of the schema, `T` says how the values of a type are read.  `depth` bounds how deep the value may be. -/
def textIn (leftFirst : Bool) (ts : List TypeNotation) (T : Table) : Nat → Texts
  | 0, _, _, _ => .ub "fuel"
  | depth + 1, named, t, n =>
    match T.lookup t with
    | none => .ub "no such type"
    | some .key => keyText named n
    | some (.prim p) => primText p n
    | some (.type (.comp c)) =>
      if valueOf n = some .null then .ok absent
      else braces <$> propertyTexts ts (textIn leftFirst ts T depth) c n
    | some (.type (.restr r)) =>
      match r.kind with
      | .enum _ => enumText n
      | .list l => brackets <$> elementTexts ts (textIn leftFirst ts T depth) (elementRef r l) n
      | .array l => brackets <$> elementTexts ts (textIn leftFirst ts T depth) (elementRef r l) n
      | .map k v => braces <$> entryTexts leftFirst ts (textIn leftFirst ts T depth) (elementRef r k) (elementRef r v) n

/-- The payload of a blob is the first of three parts of a list. -/
def payloadIn (n : Node) : Res (Option Node) := do
  let ps ← listParts (nth n.kids 1)
  if ps.length = 3 then .ok (nth ps 0) else .ub "assert"

/-- What inspecting a blob makes of it.  Of several types with the descriptor of the payload the last counts. -/
def inspectionOf (leftFirst : Bool) (n : Node) : Res Str := do
  let (s, d) ← envelopeFrom n
  let ts := s.types.flatten
  let T ← learnAll leftFirst onlyKeys ts
  match ts.reverse.find? (fun u => u.descriptor == d) with
  | none => .ub "assert"
  | some u => do
    let p ← payloadIn n
    let s ← textIn leftFirst ts T (depthOf p) true u.name p
    pure ("{ Parsed : ".toList ++ s ++ " }".toList)

end Corda.Spec
