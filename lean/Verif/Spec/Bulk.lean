import Verif.Spec.AnyInspect
import Verif.Spec.AnyAvro
import Verif.Spec.AnyData

/-
How big a tree is, as a measure for how much text it can make.
-/

namespace Corda.Spec
open Corda

/-- How many characters it takes to write a value once; values that are never written count nothing. -/
def ink : Atom → Nat
  | .string s => s.length
  | .symbol s => s.length
  | .binary s => s.length
  | .int n => (decimal n).length
  | .long n => (decimal n).length
  | .uint n => (decimalNat n).length
  | .ulong n => (decimalNat n).length
  | .float b => (floatStr b).length
  | .double b => (doubleStr b).length
  | _ => 0

/-- A value that takes bytes even in an array: a text or something with parts.  An array of nulls, say, takes as many bytes
as an empty one. -/
def solid (n : Node) : Bool :=
  match n.val with
  | .string _ => true
  | .symbol _ => true
  | .binary _ => true
  | _ => !n.kids.isEmpty

mutual

/-- The size of a tree: one for each node and the characters of the values.  In arrays only what takes bytes counts. -/
def mass : Node → Nat
  | .mk a ks => 1 + ink a + (if a = .array then solids ks else masses ks)

def masses : List Node → Nat
  | [] => 0
  | k :: ks => mass k + masses ks

def solids : List Node → Nat
  | [] => 0
  | k :: ks => (if solid k then mass k else 0) + solids ks

end

/-- The size of what is there. -/
def massOf (n : Option Node) : Nat :=
  match n with
  | some m => mass m
  | none => 0

/-- Every object has at least as many parts as its class has properties, every map has an even number of parts. -/
def Complete (ts : List TypeNotation) (n : Node) : Prop :=
  (∀ ks ns d c, Inside (.mk .described ks) n → symbolOf (nth ks 0) = .ok d → typeWith ts d = .ok (.comp c) →
      listParts (nth ks 1) = .ok ns → c.fields.length ≤ ns.length)
    ∧ ∀ ks, Inside (.mk .map ks) n → ks.length % 2 = 0

/-- No envelope in the tree (nor a list that could be taken for one) has a single part. -/
def NoLoneParts (n : Node) : Prop := ∀ a ks is p, Inside (.mk a ks) n → nth ks 1 = some (.mk .list [p]) →
  nth ks 0 ≠ some (.mk (.ulong (cordaId 1)) is)

/-- There is no map in the tree. -/
def NoMaps (n : Node) : Prop := ∀ ks, ¬ Inside (.mk .map ks) n

/-- In the payload of the blob nothing is missing. -/
def Filled (n : Node) : Prop := ∀ s d p, envelopeFrom n = .ok (s, d) → payloadIn n = .ok (some p) → Complete s.types.flatten p

end Corda.Spec
