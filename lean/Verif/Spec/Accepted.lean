import Verif.Spec.Malformed

/-
Which AMQP trees stand for a schema, and for which one.  A reader steps over the parts of an element; where there is
no further part it stays on the last one (`nth`).
-/

namespace Corda.Spec
open Corda

/-- A string. -/
def aString : Option Node → Option Str
  | some (.mk (.string s) _) => some s
  | _ => none

/-- A string, or a null standing for the empty one. -/
def aStringOrNull : Option Node → Option Str
  | some (.mk (.string s) _) => some s
  | some (.mk .null _) => some []
  | _ => none

/-- A string or a symbol. -/
def aWord : Option Node → Option Str
  | some (.mk (.string s) _) => some s
  | some (.mk (.symbol s) _) => some s
  | _ => none

/-- A string or a symbol, or a null standing for the empty one. -/
def aWordOrNull : Option Node → Option Str
  | some (.mk (.string s) _) => some s
  | some (.mk (.symbol s) _) => some s
  | some (.mk .null _) => some []
  | _ => none

/-- A symbol. -/
def aSymbol : Option Node → Option Str
  | some (.mk (.symbol s) _) => some s
  | _ => none

/-- A truth value. -/
def aFlag : Option Node → Option Bool
  | some (.mk (.bool b) _) => some b
  | _ => none

/-- All of a list of nodes. -/
def every {α : Type} (f : Node → Option α) : List Node → Option (List α)
  | [] => some []
  | n :: ns =>
    match f n, every f ns with
    | some a, some as => some (a :: as)
    | _, _ => none

/-- What is inside a node. -/
def within {α : Type} (f : Node → Option α) : Option Node → Option (List α)
  | some n => every f n.kids
  | none => none

/-- The parts of a described value with the identifier of element `k`. -/
def elementParts (k : Nat) (n : Node) : Option (List Node) :=
  match n.val, nth n.kids 0 with
  | .described, some (.mk (.ulong id) _) => if id = cordaId k then some (parts n) else none
  | _, _ => none

/-- What is said about a field. -/
structure FieldPart where
  name : Str
  type : Str
  requires : List Str
  default : Str
  label : Str
  mandatory : Bool
  multiple : Bool
  deriving DecidableEq

/-- A field. -/
def aField (n : Node) : Option FieldPart := do
  let ps ← elementParts 4 n
  let name ← aString (nth ps 0)
  let type ← aString (nth ps 1)
  let requires ← within (fun m => aString (some m)) (nth ps 2)
  let default ← aStringOrNull (nth ps 3)
  let label ← aStringOrNull (nth ps 4)
  let mandatory ← aFlag (nth ps 5)
  let multiple ← aFlag (nth ps 6)
  some ⟨name, type, requires, default, label, mandatory, multiple⟩

/-- The fingerprint of a type. -/
def aFingerprint (n : Node) : Option Str := do
  let ps ← elementParts 3 n
  aSymbol (nth ps 0)

/-- A constant of an enumeration. -/
def aChoice (n : Node) : Option Str := do
  let ps ← elementParts 7 n
  aString (nth ps 0)

/-- What is said about a type. -/
inductive TypePart where
  | comp (name label : Str) (provides : List Str) (fingerprint : Str) (fields : List FieldPart)
  | restr (name label : Str) (provides : List Str) (source fingerprint : Str) (choices : List Str)
  deriving DecidableEq

/-- A class. -/
def aComposite (n : Node) : Option TypePart := do
  let ps ← elementParts 5 n
  let name ← aString (nth ps 0)
  let label ← aStringOrNull (nth ps 1)
  let provides ← within (fun m => aString (some m)) (nth ps 2)
  let fingerprint ← (nth ps 3).bind aFingerprint
  let fields ← within aField (nth ps 4)
  some (.comp name label provides fingerprint fields)

/-- A restricted type. -/
def aRestricted (n : Node) : Option TypePart := do
  let ps ← elementParts 6 n
  let name ← aWord (nth ps 0)
  let label ← aWordOrNull (nth ps 1)
  let provides ← within (fun m => aString (some m)) (nth ps 2)
  let source ← aWord (nth ps 3)
  let fingerprint ← (nth ps 4).bind aFingerprint
  let choices ← within aChoice (nth ps 5)
  some (.restr name label provides source fingerprint choices)

/-- A type. -/
def aType (n : Node) : Option TypePart :=
  match aComposite n with
  | some p => some p
  | none => aRestricted n

/-- A schema: any number of lists of types. -/
def aSchema (n : Node) : Option (List TypePart) := do
  let ps ← elementParts 2 n
  every aType (ps.flatMap Node.kids)

/-- The descriptor of the payload. -/
def aPayload (n : Node) : Option Str :=
  if n.val = .described then aSymbol (nth n.kids 0) else none

/-- An envelope: the types of its schema and the descriptor of its payload. -/
def anEnvelope (n : Node) : Option (List TypePart × Str) := do
  let ps ← elementParts 1 n
  let outer ← (nth ps 0).bind aPayload
  let types ← (nth ps 1).bind aSchema
  some (types, outer)

end Corda.Spec
