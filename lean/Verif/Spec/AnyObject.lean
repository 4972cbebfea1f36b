import Verif.Model.RoundTrip
import Verif.Spec.Meaning
import Verif.Spec.RoundTrip

/-
What reading an object makes of any tree.
-/

namespace Corda.Spec
open Corda

/-- A byte as a signed number. -/
def signedByte (n : Nat) : Int := if n % 256 < 128 then (n % 256 : Nat) else (n % 256 : Nat) - 256

/-- A value read as a C++ primitive: it has to be of the matching type; a string is cut at its first NUL, and asking for
one where there is none is undefined. -/
def primAt (t : PrimType) (n : Option Node) : Res Prim :=
  match t, valueOf n with
  | .int, some (.int v) => .ok (.int v)
  | .int, _ => .throw "Expected an Integer type"
  | .bool, some (.bool v) => .ok (.bool v)
  | .bool, _ => .throw "Expected a boolean type"
  | .float, some (.float v) => .ok (.float v)
  | .float, _ => .throw "Expected a float type"
  | .double, some (.double v) => .ok (.double v)
  | .double, _ => .throw "Expected a double type"
  | .long, some (.long v) => .ok (.long v)
  | .long, _ => .throw "Expected a long type"
  | .char, some (.char v) => .ok (.char (signedByte v))
  | .char, _ => .throw "Expected a char type"
  | .string, some (.string v) => .ok (.string (v.takeWhile (· ≠ '\x00')))
  | .string, _ => .ub "std::string from a null pointer"

/-- The parts of an object: those of the list that is the second part of a described value, or its only part. -/
def objectParts (n : Option Node) : Res (List Node) := do
  let ks ← describedParts n
  listParts (nth ks 1)

mutual

/-- A property read from a node. -/
def valueRead : PropShape → Option Node → Res RVal
  | .prim _ t, n => do
    let v ← primAt t n
    pure (.prim v)
  | .obj _ s, n => do
    let ks ← objectParts n
    classAs s ks
  | .vector, n => do
    let ks ← objectParts n
    let _ ← listParts (nth ks 0)
    .ub "missing return"

/-- A class read from the parts of an object: the properties in order, each from the next part; when there are no more
parts, from the last one. -/
def classAs : Shape → List Node → Res RVal
  | .mk ps, ks => do
    let vs ← propsAs ps ks 0
    pure (.obj vs)

def propsAs : List PropShape → List Node → Nat → Res (List RVal)
  | [], _, _ => .ok []
  | p :: ps, ks, i => do
    let v ← valueRead p (nth ks i)
    let vs ← propsAs ps ks (i + 1)
    pure (v :: vs)

end

/-- The payload: the first part of an envelope's parts, which has to be a described value. -/
def payloadPart (n : Option Node) : Res (Option Node) := do
  let ks ← objectParts n
  let _ ← describedParts (nth ks 0)
  pure (nth ks 0)

/-- An object read from a blob. -/
def objectFrom (p : PropShape) (n : Option Node) : Res RVal := do
  let m ← payloadPart n
  valueRead p m

mutual

/-- What a property can be read from: a value of the matching type; a described list whose parts suit the properties of
the class; nothing suits a vector. -/
def Suits : PropShape → Option Node → Prop
  | .prim _ t, n => ∃ a, valueOf n = some a ∧ a.type = amqpType t
  | .obj _ s, n => ∃ ks ls, n = some (.mk .described ks) ∧ nth ks 1 = some (.mk .list ls) ∧ SuitsClass s ls
  | .vector, _ => False

def SuitsClass : Shape → List Node → Prop
  | .mk ps, ls => SuitsFrom ps ls 0

def SuitsFrom : List PropShape → List Node → Nat → Prop
  | [], _, _ => True
  | p :: ps, ls, i => Suits p (nth ls i) ∧ SuitsFrom ps ls (i + 1)

end

mutual

/-- A value a property of that kind can have. -/
def Fitting : PropShape → RVal → Prop
  | .prim _ t, v => ∃ w, v = .prim w ∧ w.type = t
  | .obj _ s, v => FittingClass s v
  | .vector, _ => False

def FittingClass : Shape → RVal → Prop
  | .mk ps, v => ∃ vs, v = .obj vs ∧ FittingAll ps vs

def FittingAll : List PropShape → List RVal → Prop
  | [], vs => vs = []
  | p :: ps, vs => ∃ w ws, vs = w :: ws ∧ Fitting p w ∧ FittingAll ps ws

end

end Corda.Spec
