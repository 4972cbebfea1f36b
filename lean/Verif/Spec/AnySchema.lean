import Verif.Spec.Meaning

/-
What reading a schema makes of any tree: the schema, the exception, or undefined behaviour.  This is said about trees;
there are no cursors here.
-/

namespace Corda.Spec
open Corda

/-- A string; sometimes a null may stand for the empty one. -/
def stringAt (nullToo : Bool) (n : Option Node) : Res Str :=
  match valueOf n with
  | some (.string s) => .ok s
  | some .null => if nullToo then .ok [] else .throw "Expected a String"
  | _ => .throw "Expected a String"

/-- A string or a symbol; sometimes a null may stand for the empty one. -/
def wordAt (nullToo : Bool) (n : Option Node) : Res Str :=
  match valueOf n with
  | some (.string s) => .ok s
  | some (.symbol s) => .ok s
  | some .null => if nullToo then .ok [] else .throw "Expected a String but found"
  | _ => .throw "Expected a String but found"

/-- A truth value. -/
def flagAt (n : Option Node) : Res Bool :=
  match valueOf n with
  | some (.bool b) => .ok b
  | _ => .throw "Expected a boolean"

/-- An unsigned long. -/
def numberAt (n : Option Node) : Res Nat :=
  match valueOf n with
  | some (.ulong i) => .ok i
  | _ => .throw "Expected an unsigned long"

/-- Everything inside a node. -/
def eachOf {α : Type} (f : Option Node → Res α) (n : Option Node) : Res (List α) :=
  all ((kidsOf n).map fun m => f (some m))

/-- The fingerprint, if that is what the element is; likewise for the others. -/
def theFingerprint : Element → Option Str
  | .descriptor s => some s
  | _ => none

def theField : Element → Option Field
  | .field f => some f
  | _ => none

def theChoice : Element → Option Str
  | .choice s => some s
  | _ => none

def theType : Element → Option TypeNotation
  | .notation t => some t
  | _ => none

def theSchema : Element → Option Schema
  | .schema s => some s
  | _ => none

/-- An element used as one of a certain kind: if it is of another kind, that is undefined. -/
def asKind {α : Type} (f : Element → Option α) (e : Element) : Res α :=
  match f e with
  | some a => .ok a
  | none => .ub (if e = .null then "null element" else "wrong element class")

/-- A field, from its parts. -/
def fieldOf (ps : List Node) : Res Element := do
  let name ← stringAt false (nth ps 0)
  let type ← stringAt false (nth ps 1)
  let requires ← eachOf (stringAt false) (nth ps 2)
  let default ← stringAt true (nth ps 3)
  let label ← stringAt true (nth ps 4)
  let mandatory ← flagAt (nth ps 5)
  let multiple ← flagAt (nth ps 6)
  let f ← Field.make name type requires default label mandatory multiple
  pure (.field f)

/-- The part that is the fingerprint. -/
def fingerprintOf (rec : Option Node → Res Element) (n : Option Node) : Res Str := do
  let e ← rec n
  asKind theFingerprint e

/-- A class, from its parts; `rec` reads an element. -/
def compositeOf (rec : Option Node → Res Element) (ps : List Node) : Res Element := do
  let name ← stringAt false (nth ps 0)
  let label ← stringAt true (nth ps 1)
  let provides ← eachOf (stringAt false) (nth ps 2)
  let fingerprint ← fingerprintOf rec (nth ps 3)
  let fields ← eachOf (fun m => do
    let e ← rec m
    asKind theField e) (nth ps 4)
  pure (.notation (.comp ⟨name, label, provides, fingerprint, fields⟩))

/-- A restricted type, from its parts. -/
def restrictedOf (rec : Option Node → Res Element) (ps : List Node) : Res Element := do
  let name ← wordAt false (nth ps 0)
  let label ← wordAt true (nth ps 1)
  let provides ← eachOf (stringAt false) (nth ps 2)
  let source ← wordAt false (nth ps 3)
  let fingerprint ← fingerprintOf rec (nth ps 4)
  let choices ← eachOf (fun m => do
    let e ← rec m
    asKind theChoice e) (nth ps 5)
  let r ← Restricted.make fingerprint (makePrim name) label provides source choices
  pure (.notation (.restr r))

/-- Types read one after the other, each put in order before the next is read. -/
def typesOf (rec : Option Node → Res Element) : List (List TypeNotation) → List Node → Res (List (List TypeNotation))
  | ls, [] => .ok ls
  | ls, m :: ms => do
    let e ← rec (some m)
    let t ← asKind theType e
    let ls' ← insertR TypeNotation.dependsOn ls t
    typesOf rec ls' ms

/-- A schema, from its parts, which are collections of types. -/
def schemaOf (rec : Option Node → Res Element) (ps : List Node) : Res Element := do
  let ls ← typesOf rec [] (ps.flatMap Node.kids)
  pure (.schema (Schema.make ls))

/-- An envelope, from its parts. -/
def envelopeOf (rec : Option Node → Res Element) (ps : List Node) : Res Element := do
  let ks ← describedParts (nth ps 0)
  let outer ← symbolOf (nth ks 0)
  let e ← rec (nth ps 1)
  let s ← asKind theSchema e
  pure (.envelope s outer)

/-- An element with a certain number, from its parts. -/
def elementOf (rec : Option Node → Res Element) (id : Nat) (ps : List Node) : Res Element :=
  if id = 22 then .throw "Should never be called"
  else if id = cordaId 1 then envelopeOf rec ps
  else if id = cordaId 2 then schemaOf rec ps
  else if id = cordaId 3 then do
    let s ← symbolOf (nth ps 0)
    pure (.descriptor s)
  else if id = cordaId 4 then fieldOf ps
  else if id = cordaId 5 then compositeOf rec ps
  else if id = cordaId 6 then restrictedOf rec ps
  else if id = cordaId 7 then do
    let s ← stringAt false (nth ps 0)
    pure (.choice s)
  else if id = cordaId 8 ∨ id = cordaId 9 ∨ id = cordaId 10 ∨ id = cordaId 11 then .ok .null
  else .ub "null registry entry"

/-- An element: a described value whose descriptor is its number and whose second part (or only one) has its parts.
`depth` bounds the nesting; the height of the tree is enough. -/
def elementIn : (depth : Nat) → Option Node → Res Element
  | 0, _ => .ub "fuel"
  | depth + 1, n => do
    let ks ← describedParts n
    let id ← numberAt (nth ks 0)
    elementOf (elementIn depth) id (kidsOf (nth ks 1))

/-- An unsigned long; anything else counts as zero. -/
def numberOrZero (n : Option Node) : Nat :=
  match valueOf n with
  | some (.ulong i) => i
  | _ => 0

/-- The envelope of a blob: what is not described, or described by anything but an envelope's number, is undefined,
unless there is an exception first. -/
def envelopeFrom (n : Node) : Res (Schema × Str) :=
  match n.val with
  | .described => do
    let e ← elementOf (elementIn n.height) (numberOrZero (nth n.kids 0)) (kidsOf (nth n.kids 1))
    match e with
    | .envelope s o => .ok (s, o)
    | _ => .ub "null envelope"
  | _ => .ub "null envelope"

end Corda.Spec
