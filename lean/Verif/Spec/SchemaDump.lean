import Verif.Spec.Descriptors

/-
What a schema looks like when it is dumped, written down independently of the code: type descriptions, their AMQP trees, and
their text as a list of indented lines.
-/

namespace Corda.Spec
open Corda

/-- A string, or nothing. -/
def optStr : Option Str → Node
  | some s => str s
  | none => .mk .null []

/-- A field as Corda describes it. -/
structure FieldInfo where
  name : Str
  type : Str
  requires : List Str
  default : Option Str
  label : Option Str
  mandatory : Bool
  multiple : Bool

/-- A type as Corda describes it; the choices of a restricted type may be anything. -/
inductive TypeInfo where
  | composite (name : Str) (label : Option Str) (provides : List Str) (fingerprint : Str) (fields : List FieldInfo)
  | restricted (name : Str) (label : Option Str) (provides : List Str) (source fingerprint : Str) (choices : List Node)

def FieldInfo.node (f : FieldInfo) : Node :=
  element 4 [str f.name, str f.type, strList f.requires, optStr f.default, optStr f.label, .mk (.bool f.mandatory) [],
    .mk (.bool f.multiple) []]

def TypeInfo.node : TypeInfo → Node
  | .composite name label provides fp fields =>
    element 5 [str name, optStr label, strList provides, objectTree fp, .mk .list (fields.map FieldInfo.node)]
  | .restricted name label provides source fp choices =>
    element 6 [str name, optStr label, strList provides, str source, objectTree fp, .mk .list choices]

/-- A schema: Corda writes one list of types, the format allows several. -/
def schemaNode (lists : List (List TypeInfo)) : Node :=
  element 2 (lists.map fun ts => .mk .list (ts.map TypeInfo.node))

/-- An envelope: payload with a fingerprint, schema, and whatever follows (transforms). -/
def envelopeNode (fp : Str) (payload : List Node) (lists : List (List TypeInfo)) (more : List Node) : Node :=
  element 1 (.mk .described (sym fp :: payload) :: schemaNode lists :: more)

/-! ### The raw text -/

/-- A line of text, indented. -/
structure Line where
  level : Nat
  text : Str

def Line.show (l : Line) : Str := List.replicate (2 * l.level) ' ' ++ l.text ++ ['\n']

/-- The lines one below the other. -/
def page (ls : List Line) : Str := ls.flatMap Line.show

/-- Decimal. -/
def dec (n : Nat) : Str := Nat.toDigits 10 n

def bit (b : Bool) : Str := if b then ['1'] else ['0']

/-- `a/b]` -/
def outOf (a b : Nat) : Str := dec a ++ "/".toList ++ dec b ++ "]".toList

/-- The head of an element: its identifier in full, its number, its name, and how many parts it has. -/
def headLines (k : Nat) (number : Nat) (name : Str) (parts : Nat) : List Line :=
  [⟨k, "DESCRIBED: ".toList⟩,
   ⟨k + 1, "key  : ".toList ++ dec (cordaId number) ++ " :: ".toList ++ dec number ++ " -> ".toList ++ name⟩,
   ⟨k + 1, "list : entries: ".toList ++ dec parts⟩]

/-- Number and name of a type. -/
def briefType : PnType → Str
  | .null => " 1 PN_NULL".toList
  | .bool => " 2 PN_BOOL".toList
  | .ubyte => " 3 PN_UBYTE".toList
  | .byte => " 4 PN_BYTE".toList
  | .ushort => " 5 PN_USHORT".toList
  | .short => " 6 PN_SHORT".toList
  | .uint => " 7 PN_UINT".toList
  | .int => " 8 PN_INT".toList
  | .char => " 9 PN_CHAR".toList
  | .ulong => "10 PN_ULONG".toList
  | .long => "11 PN_LONG".toList
  | .timestamp => "12 PN_TIMESTAMP".toList
  | .float => "13 PN_FLOAT".toList
  | .double => "14 PN_DOUBLE".toList
  | .decimal32 => "15 PN_DECIMAL32".toList
  | .decimal64 => "16 PN_DECIMAL64".toList
  | .decimal128 => "17 PN_DECIMAL128".toList
  | .uuid => "18 PN_UUID".toList
  | .binary => "19 PN_BINARY".toList
  | .string => "20 PN_STRING".toList
  | .symbol => "21 PN_SYMBOL".toList
  | .described => "22 PN_DESCRIBED".toList
  | .array => "23 PN_ARRAY".toList
  | .list => "24 PN_LIST".toList
  | .map => "25 PN_MAP".toList
  | .invalid => "-1 <UNKNOWN>".toList

def briefArrow : Str := "\n   -> ".toList
def briefEntries : Str := " #entries: ".toList
def briefTrue : Str := " true".toList
def briefFalse : Str := " false".toList

/-- The value, for some types. -/
def briefValue (parts : Nat) : Atom → Str
  | .bool b => if b then briefTrue else briefFalse
  | .int n => ' ' :: ((if n < 0 then ['-'] else []) ++ dec n.natAbs)
  | .ulong n => ' ' :: dec n
  | .string s => ' ' :: s
  | .symbol s => ' ' :: (dec s.length ++ briefArrow ++ s.flatMap fun c => [c, ' '])
  | .list => briefEntries ++ dec parts
  | _ => []

/-- A datum in brief: the number and name of its type and, for some types, the value. -/
def brief (n : Node) : Str := briefType n.val.type ++ briefValue n.kids.length n.val

/-- A fingerprint; the second part is always null, which is type number 1. -/
def objectLines (k : Nat) (fp : Str) : List Line :=
  headLines k 3 "OBJECT_DESCRIPTOR".toList 2
    ++ [⟨k + 2, "1/2] ".toList ++ fp⟩, ⟨k + 2, "2/2]  1 PN_NULL".toList⟩]

def fieldLines (k : Nat) (f : FieldInfo) : List Line :=
  headLines k 4 "FIELD".toList 7
    ++ [⟨k + 2, "1/7] String: Name: ".toList ++ f.name⟩, ⟨k + 2, "2/7] String: Type: ".toList ++ f.type⟩,
        ⟨k + 2, "3/7] List: Requires: elements ".toList ++ dec f.requires.length⟩]
    ++ f.requires.map (fun r => ⟨k + 3, r⟩)
    ++ [⟨k + 2, "4/7] String: Default: ".toList ++ f.default.getD []⟩,
        ⟨k + 2, "5/7] String: Label: ".toList ++ f.label.getD []⟩,
        ⟨k + 2, "6/7] Boolean: Mandatory: ".toList ++ bit f.mandatory⟩,
        ⟨k + 2, "7/7] Boolean: Multiple: ".toList ++ bit f.multiple⟩]

/-- The fields with their numbers. -/
def fieldsLines (k : Nat) (n : Nat) (fs : List FieldInfo) : List Line :=
  (fs.zipIdx 1).flatMap fun f => ⟨k, outOf f.2 n⟩ :: fieldLines (k + 1) f.1

def typeLines (k : Nat) : TypeInfo → List Line
  | .composite name label provides fp fields =>
    headLines k 5 "COMPOSITE_TYPE".toList 5
      ++ [⟨k + 2, "1] String: ClassName: ".toList ++ name⟩,
          ⟨k + 2, "2] String: Label: \"".toList ++ label.getD [] ++ "\"".toList⟩,
          ⟨k + 2, "3] List: Provides: [ ".toList
            ++ provides.flatMap (fun p => List.replicate (2 * (k + 2)) ' ' ++ p ++ " ".toList) ++ "]".toList⟩,
          ⟨k + 2, "4] Descriptor:".toList⟩]
      ++ objectLines (k + 3) fp
      ++ [⟨k + 2, "5] List: Fields: ".toList⟩]
      ++ fieldsLines (k + 3) fields.length fields
  | .restricted name label provides source fp _ =>
    headLines k 6 "RESTRICTED_TYPE".toList 6
      ++ [⟨k + 2, "1] String: Name: ".toList ++ name⟩, ⟨k + 2, "2] String: Label: ".toList ++ label.getD []⟩,
          ⟨k + 2, "3] List: Provides: [ ".toList ++ provides.flatMap (fun p => p ++ " ".toList) ++ "]".toList⟩,
          ⟨k + 2, "4] String: Source: ".toList ++ source⟩, ⟨k + 2, "5] Descriptor:".toList⟩]
      ++ objectLines (k + 3) fp

/-- The types of list number `i` with their numbers. -/
def typesLines (k : Nat) (i n : Nat) (ts : List TypeInfo) : List Line :=
  (ts.zipIdx 1).flatMap fun t => ⟨k, dec i ++ ":".toList ++ outOf t.2 n ++ " ".toList⟩ :: typeLines (k + 1) t.1

def listsLines (k : Nat) (n : Nat) (lists : List (List TypeInfo)) : List Line :=
  (lists.zipIdx 1).flatMap fun ts =>
    ⟨k, outOf ts.2 n ++ " list: entries: ".toList ++ dec ts.1.length⟩ :: typesLines (k + 1) ts.2 ts.1.length ts.1

def schemaLines (k : Nat) (lists : List (List TypeInfo)) : List Line :=
  headLines k 2 "SCHEMA".toList lists.length ++ listsLines (k + 2) lists.length lists

/-- The whole envelope: of the payload only the size of the fingerprint is shown. -/
def envelopeLines (fp : Str) (lists : List (List TypeInfo)) (parts : Nat) : List Line :=
  headLines 0 1 "ENVELOPE".toList parts
    ++ [⟨2, "1]".toList⟩, ⟨3, "DESCRIBED: ".toList⟩, ⟨4, "blob: bytes: ".toList ++ dec fp.length⟩, ⟨2, "2]".toList⟩]
    ++ schemaLines 3 lists

/-! ### What the raw text tells -/

/-- Fits on a line. -/
def OneLine (s : Str) : Prop := '\n' ∉ s

def FieldInfo.OneLine (f : FieldInfo) : Prop :=
  Spec.OneLine f.name ∧ Spec.OneLine f.type ∧ (∀ r ∈ f.requires, Spec.OneLine r) ∧ Spec.OneLine (f.default.getD [])
    ∧ Spec.OneLine (f.label.getD [])

/-- All texts fit on a line; the names of provided interfaces contain no blanks either. -/
def TypeInfo.OneLine : TypeInfo → Prop
  | .composite name label provides fp fields =>
    Spec.OneLine name ∧ Spec.OneLine (label.getD []) ∧ (∀ p ∈ provides, Spec.OneLine p ∧ ' ' ∉ p) ∧ Spec.OneLine fp
      ∧ ∀ f ∈ fields, f.OneLine
  | .restricted name label provides source fp _ =>
    Spec.OneLine name ∧ Spec.OneLine (label.getD []) ∧ (∀ p ∈ provides, Spec.OneLine p ∧ ' ' ∉ p) ∧ Spec.OneLine source
      ∧ Spec.OneLine fp

/-- The field without the difference between no text and the empty text. -/
def FieldInfo.bare (f : FieldInfo) : FieldInfo :=
  { f with default := some (f.default.getD []), label := some (f.label.getD []) }

/-- The type without its choices, and without the difference between no label and the empty label. -/
def TypeInfo.bare : TypeInfo → TypeInfo
  | .composite name label provides fp fields => .composite name (some (label.getD [])) provides fp (fields.map FieldInfo.bare)
  | .restricted name label provides source fp _ => .restricted name (some (label.getD [])) provides source fp []

end Corda.Spec
