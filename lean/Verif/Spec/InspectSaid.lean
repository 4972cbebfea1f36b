import Verif.Spec.Readers

/-
What the blob inspector says on the way while it goes through a value, before it shows the value itself.
-/

namespace Corda.Spec
open Corda

/-- The source files that have something to say about a value. -/
structure Voices where
  int : Str
  text : Str
  object : Str
  map : Str
  wrapper : Str

/-- A line of a source file. -/
def remark (file line text : Str) : Str := "[".toList ++ file ++ "::".toList ++ line ++ "] ".toList ++ text ++ "\n".toList

/-- Said for every text that is read. -/
def textRead : Str := "STRING\n".toList

/-- An int: only in a field is it given away. -/
def intRemarks (s : Voices) (n : Int) : Option Str → List Str
  | some f => [remark s.int "37".toList ("IntPropertyReader::dump - ".toList ++ f), remark s.int "39".toList "FUCK 1".toList,
      remark s.int "43".toList ("    -> ".toList ++ decimal n)]
  | none => [remark s.int "63".toList "IntPropertyReader::dump - no-name".toList]

/-- Said before a text, whatever it is. -/
def textRemark (s : Voices) : Option Str → Str
  | some f => remark s.text "36".toList ("StringPropertyReader::dump - ".toList ++ f)
  | none => remark s.text "50".toList "StringPropertyReader::dump - no-name".toList

/-- Said before a map. -/
def mapRemark (s : Voices) : Option Str → Str
  | some f => remark s.map "78".toList ("MapReader::dump ".toList ++ f)
  | none => remark s.map "94".toList "MapReader::dump no-name".toList

/-- The keys and the values of a map are counted together. -/
def countRemark (s : Voices) (n : Nat) : Str := remark s.map "44".toList ("  ".toList ++ decimalNat (2 * n))

/-- Said before an object. -/
def objectRemarks (s : Voices) : List Str :=
  [remark s.object "46".toList "Read Composite: ".toList, remark s.wrapper "299".toList "YEP! it's a list".toList]

/-- Said before each field. -/
def fieldRemark (s : Voices) (name : Str) : Str := remark s.object "73".toList (name ++ " true".toList)

mutual

/-- All that is said about a value, under the name of a field or under none. -/
def remarks (s : Voices) (name : Option Str) : PVal → List Str
  | .int n => intRemarks s n name
  | .str _ => [textRemark s name, textRead]
  | .enum _ _ _ => [textRead, textRead]
  | .obj _ ns vs => objectRemarks s ++ remarksNamed s ns vs
  | .list _ es => textRead :: remarksAll s es
  | .map _ es => mapRemark s name :: textRead :: countRemark s es.length :: remarksEntries s es
  | .long _ => []
  | .double _ => []
  | .bool _ => []
  | .bin _ => []
  | .null => []

def remarksNamed (s : Voices) : List Str → List PVal → List Str
  | n :: ns, v :: vs => fieldRemark s n :: (remarks s (some n) v ++ remarksNamed s ns vs)
  | _, _ => []

def remarksAll (s : Voices) : List PVal → List Str
  | [] => []
  | v :: vs => remarks s none v ++ remarksAll s vs

def remarksEntries (s : Voices) : List PEntry → List Str
  | [] => []
  | .mk k v :: es => remarks s none k ++ remarks s none v ++ remarksEntries s es

end

/-- The int, if the value is one. -/
def intItself : PVal → List Int
  | .int n => [n]
  | _ => []

mutual

/-- The ints in the fields of the objects of a value, from left to right. -/
def fieldInts : PVal → List Int
  | .obj _ ns vs => fieldIntsNamed ns vs
  | .list _ es => fieldIntsAll es
  | .map _ es => fieldIntsEntries es
  | .int _ => []
  | .long _ => []
  | .double _ => []
  | .bool _ => []
  | .str _ => []
  | .bin _ => []
  | .null => []
  | .enum _ _ _ => []

def fieldIntsNamed : List Str → List PVal → List Int
  | _ :: ns, v :: vs => intItself v ++ fieldInts v ++ fieldIntsNamed ns vs
  | _, _ => []

def fieldIntsAll : List PVal → List Int
  | [] => []
  | v :: vs => fieldInts v ++ fieldIntsAll vs

def fieldIntsEntries : List PEntry → List Int
  | [] => []
  | .mk k v :: es => fieldInts k ++ fieldInts v ++ fieldIntsEntries es

end

mutual

/-- A value without what is kept to itself: texts, longs, doubles, truth values, binaries, constants of enumerations, and ints that are not in a
field. -/
def veil (inField : Bool) : PVal → PVal
  | .int n => .int (if inField then n else 0)
  | .long _ => .long 0
  | .double _ => .double 0
  | .bool _ => .bool true
  | .str _ => .str []
  | .bin _ => .bin []
  | .null => .null
  | .enum d _ _ => .enum d [] 0
  | .obj d ns vs => .obj d ns (veilAll true vs)
  | .list d es => .list d (veilAll false es)
  | .map d es => .map d (veilEntries es)

def veilAll (inField : Bool) : List PVal → List PVal
  | [] => []
  | v :: vs => veil inField v :: veilAll inField vs

def veilEntries : List PEntry → List PEntry
  | [] => []
  | .mk k v :: es => .mk (veil false k) (veil false v) :: veilEntries es

end

end Corda.Spec
