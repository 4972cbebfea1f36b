import Verif.Model.RoundTrip
import Verif.Spec.Writer

/-
Round trips: which class reads which object, and what should come back.
-/

namespace Corda.Spec
open Corda

mutual

/-- The class reads what the object writes: the same properties, in the same order, with the same C++ types. -/
def Matches (s : Shape) : Obj → Prop
  | .comp _ _ ms => ∃ ps, s = .mk ps ∧ MatchesAll ps ms
  | _ => False

def MatchesProp (p : PropShape) : Member → Prop
  | .prim _ ptr v => p = .prim ptr v.type
  | .nullPrim _ t => p = .prim true t
  | .obj _ _ ptr o => ∃ s, p = .obj ptr s ∧ Matches s o
  | .nullObj _ _ => ∃ s, p = .obj true s

def MatchesAll (ps : List PropShape) : List Member → Prop
  | [] => ps = []
  | m :: ms => ∃ q qs, ps = q :: qs ∧ MatchesProp q m ∧ MatchesAll qs ms

end

mutual

/-- The contents of an object, each primitive changed by `f`; none if there is a null pointer (or a container)
somewhere. -/
def valueWith (f : Prim → Prim) : Obj → Option RVal
  | .comp _ _ ms => (valuesWith f ms).map RVal.obj
  | _ => none

def memberWith (f : Prim → Prim) : Member → Option RVal
  | .prim _ _ v => some (.prim (f v))
  | .nullPrim _ _ => none
  | .obj _ _ _ o => valueWith f o
  | .nullObj _ _ => none

def valuesWith (f : Prim → Prim) : List Member → Option (List RVal)
  | [] => some []
  | m :: ms =>
    match memberWith f m, valuesWith f ms with
    | some v, some vs => some (v :: vs)
    | _, _ => none

end

/-- The contents of an object. -/
def value (o : Obj) : Option RVal := valueWith id o

/-- A primitive that is not damaged on the way: no NUL in a string; a `char` is one. -/
def Clean : Prim → Prop
  | .string s => '\x00' ∉ s
  | .char n => -128 ≤ n ∧ n < 128
  | _ => True

mutual

/-- All primitives in the object. -/
def prims : Obj → List Prim
  | .comp _ _ ms => primsMembers ms
  | .list _ _ es => primsElems es
  | .map _ _ es => primsEntries es

def primsMember : Member → List Prim
  | .prim _ _ v => [v]
  | .nullPrim _ _ => []
  | .obj _ _ _ o => prims o
  | .nullObj _ _ => []

def primsElem : Elem → List Prim
  | .prim v => [v]
  | .nullPrim _ => []
  | .obj o => prims o

def primsMembers : List Member → List Prim
  | [] => []
  | m :: ms => primsMember m ++ primsMembers ms

def primsElems : List Elem → List Prim
  | [] => []
  | e :: es => primsElem e ++ primsElems es

def primsEntries : List Entry → List Prim
  | [] => []
  | .mk k v :: es => primsElem k ++ primsElem v ++ primsEntries es

end

/-- A string as it comes back. -/
def received : Prim → Prim
  | .string s => .string (s.takeWhile (· ≠ '\x00'))
  | .char n => .char ((n + 128) % 256 - 128)
  | v => v

/-- The AMQP type a C++ type is written as. -/
def amqpType : PrimType → PnType
  | .int => .int
  | .string => .string
  | .bool => .bool
  | .float => .float
  | .double => .double
  | .long => .long
  | .char => .char

end Corda.Spec
