import Verif.Spec.AnyInspect

/-
What the compiler may choose, and when it does not matter.
-/

namespace Corda.Spec
open Corda

/-- The same text, both an exception, or both undefined. -/
structure SameResult (r r' : Res Str) : Prop where
  text : ∀ s, r = .ok s ↔ r' = .ok s
  exception : r.Throws ↔ r'.Throws
  undefined : r.IsUB ↔ r'.IsUB

/-- No map in it has any entries. -/
def NoEntries (n : Node) : Prop := ∀ m, Inside m n → m.val = .map → m.kids = []

/-- None of the types is a map. -/
def NoMapTypes (ts : List TypeNotation) : Prop := ∀ r k v, .restr r ∈ ts → r.kind ≠ .map k v

mutual

/-- The value with keys and values exchanged in all the maps in it. -/
def exchanged : PVal → PVal
  | .int n => .int n
  | .long n => .long n
  | .double b => .double b
  | .bool b => .bool b
  | .str s => .str s
  | .bin s => .bin s
  | .null => .null
  | .enum d c o => .enum d c o
  | .obj d ns vs => .obj d ns (exchangedAll vs)
  | .list d es => .list d (exchangedAll es)
  | .map d es => .map d (exchangedEntries es)

def exchangedAll : List PVal → List PVal
  | [] => []
  | v :: vs => exchanged v :: exchangedAll vs

def exchangedEntries : List PEntry → List PEntry
  | [] => []
  | .mk k v :: es => .mk (exchanged v) (exchanged k) :: exchangedEntries es

end

end Corda.Spec
