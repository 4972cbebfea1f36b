import Verif.Spec.SchemaDump
import Verif.Spec.SchemaTypes
import Verif.Spec.TypeNames

/-
What the Avro form of a schema looks like, and what a JSON text is.  Independent of the code.
-/

namespace Corda.Spec
open Corda

/-! ### Types as Avro sees them -/

/-- The type of a field: a name, or a Java container of such. -/
inductive AvroShape where
  | leaf (name : Str)
  | array (primitive : Bool) (elem : AvroShape)
  | list (elem : AvroShape)
  | map (blanks : Nat) (key value : AvroShape)
  deriving DecidableEq, Repr

/-- What is behind the name of an array type. -/
def arrayMark (primitive : Bool) : Str := if primitive then "[p]".toList else "[]".toList

/-- How Corda writes the type; some blanks may follow the comma. -/
def AvroShape.render : AvroShape → Str
  | .leaf n => n
  | .array p t => t.render ++ arrayMark p
  | .list t => listOpen ++ (t.render ++ ['>'])
  | .map b k v => mapOpen ++ (k.render ++ ',' :: (List.replicate b ' ' ++ v.render ++ ['>']))

/-- The leaves are names: brackets balanced, not empty, not starting like a list or a map, not ending like an array. -/
def AvroShape.Ok : AvroShape → Prop
  | .leaf n => LeafName n ∧ ¬ HasArraySuffix n ∧ n ≠ [] ∧ n ≠ "]".toList ∧ n ≠ "p]".toList
  | .array _ t => t.Ok
  | .list t => t.Ok
  | .map _ k v => k.Ok ∧ v.Ok

def AvroShape.isLeaf : AvroShape → Bool
  | .leaf _ => true
  | _ => false

/-- Spaces in front. -/
def indent (k : Nat) : Str := List.replicate (2 * k) ' '

def tType : Str := "\"type\" : \"".toList
def tTypeEnd : Str := "\"\n".toList
def tArray : Str := "\"type\" : \"array\",\n".toList
def tItems : Str := "\"items\" : ".toList
def tMap : Str := "\"type\" : \"map,\n".toList
def tValues : Str := "\"values: ".toList
def tValuesNested : Str := "\"values\" : {".toList

/-- The text of a type: a name is quoted, the name of what a container holds is not; boxed types in lists and maps are replaced by
primitives; the line ends before and after nested items are there only for arrays. -/
def AvroShape.text (k : Nat) : AvroShape → Str
  | .leaf n => indent k ++ tType ++ n ++ tTypeEnd
  | .array _ (.leaf n) => indent k ++ tArray ++ indent k ++ tItems ++ n ++ ['\n']
  | .array _ t => indent k ++ tArray ++ indent k ++ tItems ++ ['{', ' ', '\n'] ++ t.text (k + 1) ++ indent k ++ ['}', '\n']
  | .list (.leaf n) => indent k ++ tArray ++ indent k ++ tItems ++ unboxed n ++ ['\n']
  | .list t => indent k ++ tArray ++ indent k ++ tItems ++ ['{'] ++ t.text (k + 1) ++ indent k ++ ['}']
  | .map _ _ (.leaf n) => indent k ++ tMap ++ indent k ++ tValues ++ unboxed n ++ ['\n']
  | .map _ _ t => indent k ++ tMap ++ indent k ++ tValuesNested ++ t.text (k + 1) ++ indent k ++ ['}']

/-- The type of a field: what `type` says, or the first requirement if that is `*`. -/
def FieldInfo.Has (f : FieldInfo) (t : AvroShape) : Prop :=
  (f.type = "*".toList ∧ f.requires.head? = some t.render) ∨ (f.type ≠ "*".toList ∧ f.type = t.render)

/-- The text of a field. -/
def fieldText (k : Nat) (name : Str) (t : AvroShape) : Str :=
  indent k ++ "{".toList ++ ['\n'] ++ indent (k + 1) ++ "\"name\" : \"".toList ++ name ++ "\", ".toList ++ ['\n']
    ++ t.text (k + 1) ++ indent k ++ "}".toList

/-- What is behind the last dot. -/
def simpleName (s : Str) : Str := (s.reverse.takeWhile (· != '.')).reverse

/-- What is in front of the last dot; the whole name if there is none. -/
def packageName (s : Str) : Str := if '.' ∈ s then s.take (s.length - (simpleName s).length - 1) else s

/-- The text of a class with its fields. -/
def recordText (name fp : Str) (fields : List (Str × AvroShape)) : Str :=
  "{".toList ++ ['\n']
    ++ indent 1 ++ "\"type\" : \"record\",".toList ++ ['\n']
    ++ indent 1 ++ "\"name\" : \"".toList ++ simpleName name ++ "\",".toList ++ ['\n']
    ++ indent 1 ++ "\"namespace\" : \"".toList ++ packageName name ++ "\",".toList ++ ['\n']
    ++ indent 1 ++ "\"aliases\" : [ \"".toList ++ fp ++ "\" ],".toList ++ ['\n']
    ++ indent 1 ++ "\"fields\" : [".toList ++ ['\n']
    ++ (fields.zipIdx 1).flatMap (fun f => fieldText 2 f.1.1 f.1.2 ++ (if f.2 < fields.length then ",".toList else []) ++ ['\n'])
    ++ indent 1 ++ "]".toList ++ ['\n']
    ++ "}".toList

/-- A type of the schema as far as Avro sees it: a class, or something that is left out. -/
inductive AvroType where
  | record (name fp : Str) (fields : List (Str × AvroShape))
  | other

/-- The type description says this to Avro. -/
inductive Says : TypeInfo → AvroType → Prop
  | composite {name : Str} {label : Option Str} {provides : List Str} {fp : Str} {fields : List FieldInfo}
      {shapes : List AvroShape} : fields.length = shapes.length → (∀ p ∈ fields.zip shapes, p.1.Has p.2 ∧ p.2.Ok ∧ p.2.render.Small) →
      name.Small → Says (.composite name label provides fp fields) (.record name fp ((fields.map (·.name)).zip shapes))
  | restricted {name : Str} {label : Option Str} {provides : List Str} {source fp : Str} {choices : List Node} :
      Says (.restricted name label provides source fp choices) .other

/-- The text of a schema: the classes, a comma behind each unless it is the last of all types. -/
def avroText (ts : List AvroType) : Str :=
  (ts.zipIdx 1).flatMap fun t =>
    match t.1 with
    | .record name fp fields => recordText name fp fields ++ (if t.2 < ts.length then ",".toList else []) ++ ['\n']
    | .other => []

/-! ### JSON (RFC 8259) -/

inductive Json where
  | str (s : Str)
  | other (s : Str)
  | arr (js : List Json)
  | obj (ms : List (Str × Json))

/-- White space. -/
def Blank (c : Char) : Prop := c = ' ' ∨ c = '\n' ∨ c = '\t' ∨ c = '\r'

instance (c : Char) : Decidable (Blank c) := by unfold Blank; infer_instance

/-- A character that stands for itself inside a string. -/
def PlainChar (c : Char) : Prop := c ≠ '"' ∧ c ≠ '\\' ∧ 32 ≤ c.toNat

instance (c : Char) : Decidable (PlainChar c) := by unfold PlainChar; infer_instance

/-- The escapes of one letter and what they stand for. -/
def escapes : List (Char × Char) :=
  [('"', '"'), ('\\', '\\'), ('/', '/'), ('b', '\x08'), ('f', '\x0c'), ('n', '\n'), ('r', '\r'), ('t', '\t')]

def HexDigit (c : Char) : Prop := c.isDigit ∨ c ∈ "abcdefABCDEF".toList

/-- `Quotes s t`: between quotes, `t` stands for the string `s`.  (Which character four hexadecimal digits stand for is left
open.) -/
inductive Quotes : Str → Str → Prop
  | nil : Quotes [] []
  | raw (c : Char) {s t : Str} : PlainChar c → Quotes s t → Quotes (c :: s) (c :: t)
  | escape (e c : Char) {s t : Str} : (e, c) ∈ escapes → Quotes s t → Quotes (c :: s) ('\\' :: e :: t)
  | code (a b c d x : Char) {s t : Str} : HexDigit a → HexDigit b → HexDigit c → HexDigit d → Quotes s t →
      Quotes (x :: s) ('\\' :: 'u' :: a :: b :: c :: d :: t)

/-- A text of digits. -/
def Digits (s : Str) : Prop := s ≠ [] ∧ ∀ c ∈ s, c.isDigit

/-- A number (leading zeros are not excluded here). -/
inductive Number : Str → Prop
  | int {s : Str} : Digits s → Number s
  | neg {s : Str} : Digits s → Number ('-' :: s)
  | frac {s t : Str} : Number s → Digits t → Number (s ++ '.' :: t)
  | exp {s t : Str} (e : Char) : e ∈ "eE".toList → Number s → Digits t → Number (s ++ e :: t)
  | signedExp {s t : Str} (e f : Char) : e ∈ "eE".toList → f ∈ "+-".toList → Number s → Digits t → Number (s ++ e :: f :: t)

/-- What a text can be: a value, the inside of an array, the inside of an object. -/
inductive What where
  | value (j : Json)
  | items (js : List Json)
  | members (ms : List (Str × Json))

/-- `JsonText w t`: the text `t` stands for `w`. -/
inductive JsonText : What → Str → Prop
  | str {s t : Str} : Quotes s t → JsonText (.value (.str s)) ('"' :: (t ++ ['"']))
  | lit {s : Str} : s ∈ ["true".toList, "false".toList, "null".toList] → JsonText (.value (.other s)) s
  | num {s : Str} : Number s → JsonText (.value (.other s)) s
  | arr {js : List Json} {t : Str} : JsonText (.items js) t → JsonText (.value (.arr js)) ('[' :: (t ++ [']']))
  | obj {ms : List (Str × Json)} {t : Str} : JsonText (.members ms) t → JsonText (.value (.obj ms)) ('{' :: (t ++ ['}']))
  | before {j : Json} {t : Str} (c : Char) : Blank c → JsonText (.value j) t → JsonText (.value j) (c :: t)
  | after {j : Json} {t : Str} (c : Char) : Blank c → JsonText (.value j) t → JsonText (.value j) (t ++ [c])
  | noItems {t : Str} : (∀ c ∈ t, Blank c) → JsonText (.items []) t
  | item {j : Json} {t : Str} : JsonText (.value j) t → JsonText (.items [j]) t
  | items {j k : Json} {js : List Json} {t u : Str} : JsonText (.value j) t → JsonText (.items (k :: js)) u →
      JsonText (.items (j :: k :: js)) (t ++ ',' :: u)
  | noMembers {t : Str} : (∀ c ∈ t, Blank c) → JsonText (.members []) t
  | member {n : Str} {j : Json} {t u : Str} : JsonText (.value (.str n)) t → JsonText (.value j) u →
      JsonText (.members [(n, j)]) (t ++ ':' :: u)
  | members {n : Str} {j : Json} {m : Str × Json} {ms : List (Str × Json)} {t u v : Str} : JsonText (.value (.str n)) t →
      JsonText (.value j) u → JsonText (.members (m :: ms)) v → JsonText (.members ((n, j) :: m :: ms)) (t ++ ':' :: (u ++ ',' :: v))

/-- A JSON text. -/
def IsJson (t : Str) : Prop := ∃ j, JsonText (.value j) t

/-- The Avro record a class should become. -/
def record (name fp : Str) (fields : List (Str × Str)) : Json :=
  .obj [("type".toList, .str "record".toList), ("name".toList, .str (simpleName name)),
    ("namespace".toList, .str (packageName name)), ("aliases".toList, .arr [.str fp]),
    ("fields".toList, .arr (fields.map fun f => .obj [("name".toList, .str f.1), ("type".toList, .str f.2)]))]

/-- The Avro schema the types should become, if all fields have names as types. -/
def avroJson (ts : List AvroType) : Json :=
  .arr (ts.filterMap fun t =>
    match t with
    | .record name fp fields => some (record name fp (fields.map fun f => (f.1, f.2.render)))
    | .other => none)

/-! ### Names -/

/-- A name that stands for itself inside quotes. -/
def Quotable (s : Str) : Prop := ∀ c ∈ s, PlainChar c

/-- The letters that occur in JSON outside quotes. -/
def bareChars : List Char := "truefalsnE0123456789+-.[]{}:,".toList

/-- A name that needs quotes: it has some other character. -/
def NeedsQuotes (s : Str) : Prop := ∃ c ∈ s, c ∉ bareChars ∧ ¬ Blank c

/-- The leaves of a type can be quoted, and need to be. -/
def AvroShape.Named : AvroShape → Prop
  | .leaf n => Quotable n ∧ NeedsQuotes n
  | .array _ t => t.Named
  | .list t => t.Named
  | .map _ k v => k.Named ∧ v.Named

/-- All names can be quoted. -/
def AvroType.Named : AvroType → Prop
  | .record name fp fields => Quotable name ∧ Quotable fp ∧ ∀ f ∈ fields, Quotable f.1 ∧ f.2.Named
  | .other => True

def AvroType.isRecord : AvroType → Bool
  | .record .. => true
  | .other => false

/-- No field has a container type. -/
def AvroType.Simple : AvroType → Prop
  | .record _ _ fields => ∀ f ∈ fields, f.2.isLeaf = true
  | .other => True

/-- Commas are between the classes only: there are no classes, or the last of all types is a class. -/
def CommasOk (ts : List AvroType) : Prop := (∀ t ∈ ts, t.isRecord = false) ∨ ∃ t, ts.getLast? = some t ∧ t.isRecord = true

end Corda.Spec
