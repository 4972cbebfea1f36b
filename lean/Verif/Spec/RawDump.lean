import Verif.Spec.Readers
import Verif.Spec.Descriptors
import Verif.Model.Wrapper
import Verif.Spec.Words

/-
What a dump of a payload without its schema should show.
-/

namespace Corda.Spec
open Corda

/-- A payload: lists, maps and described lists and maps, down to other values.  The elements of a map are its keys
and values in turn. -/
inductive Raw where
  | leaf (n : Node)
  | list (es : List Raw)
  | map (es : List Raw)
  | describedList (d : Str) (es : List Raw)
  | describedMap (d : Str) (es : List Raw)

mutual

/-- The tree of a payload. -/
def rawTree : Raw → Node
  | .leaf n => n
  | .list es => .mk .list (rawTrees es)
  | .map es => .mk .map (rawTrees es)
  | .describedList d es => described d (.mk .list (rawTrees es))
  | .describedMap d es => described d (.mk .map (rawTrees es))

def rawTrees : List Raw → List Node
  | [] => []
  | e :: es => rawTree e :: rawTrees es

end

def yes : Str := "true".toList
def no : Str := "false".toList
def someSymbol : Str := "<<SYMBOL>>".toList

/-- The text of a value that is no list, map or described value: numbers, truth values and strings are shown, of the
others the type. -/
def leafText : Atom → Str
  | .int n => decimal n
  | .long n => decimal n
  | .uint n => decimalNat n
  | .ulong n => decimalNat n
  | .float b => floatStr b
  | .double b => doubleStr b
  | .string s => s
  | .bool b => if b then yes else no
  | .symbol _ => someSymbol
  | a => typeWord a.type

/-- The elements of a list. -/
def elements (l : List Str) : List Str := if l = [] then ["<<<Empty List>>>".toList] else l

/-- Every key with its value. -/
def pairs : List Str → List Str
  | k :: v :: l => colon k v :: pairs l
  | _ => []

/-- The entries of a map. -/
def entries (l : List Str) : List Str := if l = [] then ["<<<Empty Map>>>".toList] else pairs l

mutual

/-- The text of a payload, with `f` for the entries of a map. -/
def rawText (f : List Str → List Str) : Raw → Str
  | .leaf n => leafText n.val
  | .list es => brackets (elements (rawTexts f es))
  | .map es => brackets (f (rawTexts f es))
  | .describedList d es => colon d (brackets (elements (rawTexts f es)))
  | .describedMap d es => colon d (brackets (f (rawTexts f es)))

def rawTexts (f : List Str → List Str) : List Raw → List Str
  | [] => []
  | e :: es => rawText f e :: rawTexts f es

end

/-- What a cursor sees that goes on to place `i`: it stops at the last one. -/
def upTo (l : List Str) (i : Nat) : Str := (l[min i (l.length - 1)]?).getD []

/-- The entries of a map as they are shown: the `i`-th has the elements `3 i + 1` and `3 i + 2`, or the last one. -/
def slipped (l : List Str) : List Str :=
  if l = [] then ["<<<Empty Map>>>".toList]
  else (List.range ((l.length + 1) / 2)).map fun i => colon (upTo l (3 * i + 1)) (upTo l (3 * i + 2))

/-- A described payload. -/
def Raw.IsDescribed : Raw → Prop
  | .describedList _ _ => True
  | .describedMap _ _ => True
  | _ => False

/-- The four kinds of payload the dump tells apart. -/
def Raw.kind : Raw → Nat
  | .leaf _ => 0
  | .list _ => 1
  | .map _ => 2
  | .describedList _ _ => 3
  | .describedMap _ _ => 3

mutual

/-- The leaves are no lists, maps or described values; the keys and values of a map are of the same kind. -/
def Even : Raw → Prop
  | .leaf n => n.val.type ≠ .list ∧ n.val.type ≠ .map ∧ n.val.type ≠ .described
  | .list es => Evens es
  | .map es => Evens es ∧ ∃ k, ∀ e ∈ es, e.kind = k
  | .describedList _ es => Evens es
  | .describedMap _ es => Evens es ∧ ∃ k, ∀ e ∈ es, e.kind = k

def Evens : List Raw → Prop
  | [] => True
  | e :: es => Even e ∧ Evens es

end

mutual

/-- The leaves are no lists, maps or described values; there are no maps. -/
def OnlyLists : Raw → Prop
  | .leaf n => n.val.type ≠ .list ∧ n.val.type ≠ .map ∧ n.val.type ≠ .described
  | .list es => AllOnlyLists es
  | .map _ => False
  | .describedList _ es => AllOnlyLists es
  | .describedMap _ _ => False

def AllOnlyLists : List Raw → Prop
  | [] => True
  | e :: es => OnlyLists e ∧ AllOnlyLists es

end

end Corda.Spec
