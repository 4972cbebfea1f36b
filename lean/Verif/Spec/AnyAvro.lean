import Verif.Spec.AnySchemaDump
import Verif.Spec.Avro

/-
What dumping the schema of any tree in the Avro form makes: the text, the exception, or undefined behaviour.  This is said
about trees and names of types; there are no cursors here.
-/

namespace Corda.Spec
open Corda

/-! ### Any name of a type -/

/-- The name of what is in the array, if the name ends like that of an array; three names are too short to look. -/
def elementsOf (s : Str) : Res (Option Str) :=
  if s = [] ∨ s = "]".toList ∨ s = "p]".toList then .ub "read before the start of the string"
  else if "[]".toList.isSuffixOf s then .ok (some (s.take (s.length - 2)))
  else if "[p]".toList.isSuffixOf s then .ok (some (s.take (s.length - 3)))
  else .ok none

/-- What is behind the first angle bracket; everything if there is none. -/
def afterOpen (s : Str) : Str := if '<' ∈ s then (s.dropWhile (· != '<')).drop 1 else s

/-- What is behind the first comma outside brackets; `level` brackets are open. -/
def afterComma (level : Int) : Str → Option Str
  | [] => none
  | c :: cs =>
    if c = '<' then afterComma (level + 1) cs
    else if c = '>' then afterComma (level - 1) cs
    else if c = ',' ∧ level = 0 then some cs
    else afterComma level cs

def startsList (s : Str) : Bool := "java.util.List".toList.isPrefixOf s
def startsMap (s : Str) : Bool := "java.util.Map".toList.isPrefixOf s

/-- The name of what is in the list: the last character, usually a bracket, is left out. -/
def itemsOf (s : Str) : Str := unboxed (afterOpen s).dropLast

/-- The name of the values in the map; there has to be a comma. -/
def valuesOf (s : Str) : Res Str :=
  match afterComma 0 (afterOpen s) with
  | some r => .ok (unboxed (r.dropLast.dropWhile (· == ' ')))
  | none => .throw "basic_string::substr"

/-- Is it the name of a container? -/
def namesContainer (s : Str) : Res Bool := do
  let a ← elementsOf s
  pure (a.isSome || startsList s || startsMap s)

/-- The text for any name of a type.  `depth` bounds the nesting of containers; the length of the name is enough. -/
def typeShown : (depth : Nat) → (k : Nat) → Str → Res Str
  | 0, _, _ => .ub "fuel"
  | depth + 1, k, s => do
    let a ← elementsOf s
    match a with
    | some t => do
      let c ← namesContainer t
      if c then do
        let x ← typeShown depth (k + 1) t
        pure (indent k ++ tArray ++ indent k ++ tItems ++ ['{', ' ', '\n'] ++ x ++ indent k ++ ['}', '\n'])
      else pure (indent k ++ tArray ++ indent k ++ tItems ++ t ++ ['\n'])
    | none =>
      if startsList s then do
        let c ← namesContainer (itemsOf s)
        if c then do
          let x ← typeShown depth (k + 1) (itemsOf s)
          pure (indent k ++ tArray ++ indent k ++ tItems ++ ['{'] ++ x ++ indent k ++ ['}'])
        else pure (indent k ++ tArray ++ indent k ++ tItems ++ itemsOf s ++ ['\n'])
      else if startsMap s then do
        let v ← valuesOf s
        let c ← namesContainer v
        if c then do
          let x ← typeShown depth (k + 1) v
          pure (indent k ++ tMap ++ indent k ++ tValuesNested ++ x ++ indent k ++ ['}'])
        else pure (indent k ++ tMap ++ indent k ++ tValues ++ v ++ ['\n'])
      else pure (indent k ++ tType ++ s ++ tTypeEnd)

/-! ### Any tree -/

/-- How the text of an element is found: at which level, and the node. -/
abbrev Avros : Type := Nat → Option Node → Res Str

/-- The text of a part that has to be an element: anything but a described value is undefined. -/
def elementAvro (rec : Avros) : Avros := fun k n =>
  match valueOf n with
  | some .described => rec k n
  | _ => .ub "null registry entry"

/-- A fingerprint. -/
def objectAvro (k : Nat) (ps : List Node) : Res Str := do
  let s ← symbolOf (nth ps 0)
  pure (indent k ++ "\"aliases\" : [ \"".toList ++ s ++ "\" ],".toList ++ ['\n'])

/-- The first requirement of a field; it has to be a string if there is one, whether it is needed or not. -/
def requiredOf (n : Option Node) : Res Str :=
  if (listElements n).length = 0 then .ok [] else stringAt false (nth (kidsOf n) 0)

/-- The type of a field: what it says, or the first requirement if it says `*`. -/
def neededType (type required : Str) : Str := if type = "*".toList then required else type

/-- The text of a field with a name around that of its type. -/
def fieldAround (k : Nat) (name t : Str) : Str :=
  indent k ++ "{".toList ++ ['\n'] ++ indent (k + 1) ++ "\"name\" : \"".toList ++ name ++ "\", ".toList ++ ['\n']
    ++ t ++ indent k ++ "}".toList

/-- A field, from its parts. -/
def fieldAvro (k : Nat) (ps : List Node) : Res Str := do
  let name ← stringAt false (nth ps 0)
  let type ← stringAt false (nth ps 1)
  let required ← requiredOf (nth ps 2)
  let t ← typeShown ((neededType type required).length + 1) (k + 1) (neededType type required)
  pure (fieldAround k name t)

/-- The text of a class with a name around those of its fingerprint and its fields. -/
def recordAround (k : Nat) (name fingerprint fields : Str) : Str :=
  "{".toList ++ ['\n']
    ++ indent k ++ "\"type\" : \"record\",".toList ++ ['\n']
    ++ indent k ++ "\"name\" : \"".toList ++ simpleName name ++ "\",".toList ++ ['\n']
    ++ indent k ++ "\"namespace\" : \"".toList ++ packageName name ++ "\",".toList ++ ['\n']
    ++ fingerprint
    ++ indent k ++ "\"fields\" : [".toList ++ ['\n']
    ++ fields
    ++ indent k ++ "]".toList ++ ['\n']
    ++ "}".toList

/-- A part of `n` with number `i`: a comma follows unless it is the last. -/
def fieldLine (n i : Nat) (t : Str) : Str := t ++ (if i < n then ",".toList else []) ++ ['\n']

/-- The same, but nothing where nothing is written. -/
def typeLine (n i : Nat) (t : Str) : Str := if t = [] then [] else fieldLine n i t

/-- A class, from its parts. -/
def compositeAvro (rec : Avros) (k : Nat) (ps : List Node) : Res Str := do
  let name ← wordAt false (nth ps 0)
  let _ ← stringAt true (nth ps 1)
  let _ ← listParts (nth ps 2)
  let _ ← describedParts (nth ps 3)
  let fingerprint ← rec k (nth ps 3)
  let fields ← numberedOf (fun i m => do
    let t ← elementAvro rec (k + 1) m
    pure (fieldLine (listElements (nth ps 4)).length i t)) (nth ps 4)
  pure (recordAround k name fingerprint fields.flatten)

/-- A schema: it must have exactly one part, whose parts are the types. -/
def schemaAvro (rec : Avros) (k : Nat) (ps : List Node) : Res Str :=
  if ps.length = 1 then do
    let types ← numberedOf (fun j t => do
      let x ← elementAvro rec k t
      pure (typeLine (listElements (nth ps 0)).length j x)) (nth ps 0)
    pure types.flatten
  else .ub "assert"

/-- What is inside an element with a certain number.  Of an envelope only the second part, or the only one, is looked at;
nothing of a restricted type.  For choices, references and transforms, and for the number 22, the list itself is taken for
a described value. -/
def insideAvro (rec : Avros) (k id : Nat) (n : Option Node) : Res Str :=
  if id = cordaId 1 then elementAvro rec k (nth (kidsOf n) 1)
  else if id = cordaId 2 then schemaAvro rec k (kidsOf n)
  else if id = cordaId 3 then objectAvro k (kidsOf n)
  else if id = cordaId 4 then fieldAvro k (kidsOf n)
  else if id = cordaId 5 then compositeAvro rec (k + 1) (kidsOf n)
  else if id = cordaId 6 then .ok []
  else if id = 22 ∨ id = cordaId 7 ∨ id = cordaId 8 ∨ id = cordaId 9 ∨ id = cordaId 10 ∨ id = cordaId 11 then rec k n
  else .ub "null registry entry"

/-- The text of an element; `depth` bounds the nesting; the height of the tree is enough. -/
def avroIn : (depth : Nat) → Avros
  | 0, _, _ => .ub "fuel"
  | depth + 1, k, n =>
    match valueOf (nth (kidsOf n) 0) with
    | some (.ulong id) => do
      let _ ← listParts (nth (kidsOf n) 1)
      insideAvro (avroIn depth) k id (nth (kidsOf n) 1)
    | some (.symbol s) => .ok (indent k ++ "blob: bytes: ".toList ++ dec s.length ++ ['\n'])
    | _ => .throw "Unexpected Type"

/-- The Avro form for a blob. -/
def avroDump (n : Node) : Res Str :=
  match n.val with
  | .described => avroIn n.height 0 (some n)
  | _ => .throw "Can only dispatch described objects"

/-- The node itself, its parts, their parts and so on. -/
inductive Within : Node → Node → Prop
  | self (n : Node) : Within n n
  | part {m k n : Node} : k ∈ n.kids → Within m k → Within m n

/-- All strings and symbols of a tree have fewer than 2^63 characters, as those of any program have. -/
def SmallTexts (n : Node) : Prop :=
  ∀ m, Within m n → ∀ s, (m.val = .string s ∨ m.val = .symbol s) → s.Small

end Corda.Spec
