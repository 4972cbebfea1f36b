import Verif.Spec.Writer

/-
How many bytes a saved object takes: what AMQP says about the length of each kind of value in its shortest form, except that lists and maps are written with four bytes for size
and count, and what Corda says about the parts of an envelope.
-/

namespace Corda.Spec
open Corda

/-- A text with one byte of kind and one or four of length. -/
def textSize (s : Str) : Nat := (if s.length < 256 then 2 else 5) + s.length

/-- A value without parts. -/
def primSize : Prim → Nat
  | .int n => if -128 ≤ n ∧ n ≤ 127 then 2 else 5
  | .long n => if -128 ≤ n ∧ n ≤ 127 then 2 else 9
  | .bool _ => 1
  | .char _ => 5
  | .float _ => 5
  | .double _ => 9
  | .string s => textSize s

/-- A list of that many parts that take that many bytes. -/
def listSize (count bytes : Nat) : Nat := if count = 0 then 1 else 9 + bytes

mutual

/-- An object: one byte that says it is described, its fingerprint and its parts. -/
def objSize : Obj → Nat
  | .comp _ f ms => 1 + textSize f + listSize ms.length (membersSize ms)
  | .list _ f es => 1 + textSize f + listSize es.length (elemsSize es)
  | .map _ f es => 1 + textSize f + (9 + entriesSize es)

/-- A property.  What is null takes one byte. -/
def memberSize : Member → Nat
  | .prim _ _ v => primSize v
  | .nullPrim _ _ => 1
  | .obj _ _ _ o => objSize o
  | .nullObj _ _ => 1

def elemSize : Elem → Nat
  | .prim v => primSize v
  | .nullPrim _ => 1
  | .obj o => objSize o

def membersSize : List Member → Nat
  | [] => 0
  | m :: ms => memberSize m + membersSize ms

def elemsSize : List Elem → Nat
  | [] => 0
  | e :: es => elemSize e + elemsSize es

def entriesSize : List Entry → Nat
  | [] => 0
  | .mk k v :: es => elemSize k + elemSize v + entriesSize es

end

/-- A schema element of at least one part: one byte, nine for its number, nine for the list. -/
def elementSize (bytes : Nat) : Nat := 19 + bytes

/-- The description of a property: name, type, what is required, two empty texts, two truth values. -/
def propSize (d : PropDesc) : Nat :=
  elementSize (textSize d.name + textSize d.type + listSize d.requires.length (d.requires.map textSize).sum + 6)

/-- The description of a class without its properties: name, an empty label, an empty list, the fingerprint in an element of its own with a null; for a container also its kind and
an empty list. -/
def headSize (key : Str × Str) : Option Str → Nat
  | none => elementSize (textSize key.1 + 3 + elementSize (textSize key.2 + 1))
  | some source => elementSize (textSize key.1 + 3 + textSize source + elementSize (textSize key.2 + 1) + 1)

/-- The description of a class. -/
def classSize (d : ClassDesc) : Nat :=
  match d.body with
  | .inl ps => headSize d.key none + listSize ps.length (ps.map propSize).sum
  | .inr source => headSize d.key (some source)

/-- The file: eight bytes before the envelope, and the envelope with the object, the descriptions of the classes, and a null. -/
def fileSize (o : Obj) (ds : List ClassDesc) : Nat :=
  8 + elementSize (objSize o + elementSize (listSize ds.length (ds.map classSize).sum) + 1)

/-- What one gets if each object and each property had to be described again wherever it is used. -/
def fileBound (o : Obj) : Nat :=
  8 + elementSize (objSize o + elementSize (9 + ((classes o).map fun u => headSize u.1 u.2 + 9).sum + ((props o).map fun u => propSize u.2).sum) + 1)

mutual

/-- The objects, properties and elements there are. -/
def valueCount : Obj → Nat
  | .comp _ _ ms => 1 + memberCount ms
  | .list _ _ es => 1 + elemCount es
  | .map _ _ es => 1 + entryCount es

def valueCountIn : Elem → Nat
  | .obj o => valueCount o
  | _ => 1

def memberCount : List Member → Nat
  | [] => 0
  | .obj _ _ _ o :: ms => valueCount o + memberCount ms
  | _ :: ms => 1 + memberCount ms

def elemCount : List Elem → Nat
  | [] => 0
  | e :: es => valueCountIn e + elemCount es

def entryCount : List Entry → Nat
  | [] => 0
  | .mk k v :: es => valueCountIn k + valueCountIn v + entryCount es

end

/-- The letters of a text value. -/
def primLetters : Prim → Nat
  | .string s => s.length
  | _ => 0

mutual

/-- The letters of the texts and the fingerprints. -/
def letterCount : Obj → Nat
  | .comp _ f ms => f.length + memberLetters ms
  | .list _ f es => f.length + elemLetters es
  | .map _ f es => f.length + entryLetters es

def lettersIn : Elem → Nat
  | .obj o => letterCount o
  | .prim v => primLetters v
  | .nullPrim _ => 0

def memberLetters : List Member → Nat
  | [] => 0
  | .obj _ _ _ o :: ms => letterCount o + memberLetters ms
  | .prim _ _ v :: ms => primLetters v + memberLetters ms
  | _ :: ms => memberLetters ms

def elemLetters : List Elem → Nat
  | [] => 0
  | e :: es => lettersIn e + elemLetters es

def entryLetters : List Entry → Nat
  | [] => 0
  | .mk k v :: es => lettersIn k + lettersIn v + entryLetters es

end

end Corda.Spec
