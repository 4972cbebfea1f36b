import Verif.Model.Render
import Verif.Model.Proton
import Verif.Model.SchemaTypes

/-
What an inspection should show: values as a schema describes them, the AMQP tree that carries them, their text, and
which values belong to which type of a schema.
-/

namespace Corda.Spec
open Corda

mutual

/-- A value described by a schema. -/
inductive PVal where
  | int (n : Int)
  | long (n : Int)
  | double (bits : Nat)
  | bool (b : Bool)
  | str (s : Str)
  | bin (s : Str)
  /-- an object that is not there -/
  | null
  | enum (descriptor constant : Str) (ordinal : Int)
  /-- an object with the names and values of its properties -/
  | obj (descriptor : Str) (names : List Str) (values : List PVal)
  | list (descriptor : Str) (elems : List PVal)
  | map (descriptor : Str) (entries : List PEntry)

inductive PEntry where
  | mk (key value : PVal)

end

def PEntry.key : PEntry → PVal
  | .mk k _ => k

def PEntry.value : PEntry → PVal
  | .mk _ v => v

/-- A described value: the descriptor and the thing itself. -/
def described (descriptor : Str) (body : Node) : Node := .mk .described [.mk (.symbol descriptor) [], body]

mutual

/-- The tree of a value. -/
def valTree : PVal → Node
  | .int n => .mk (.int n) []
  | .long n => .mk (.long n) []
  | .double b => .mk (.double b) []
  | .bool b => .mk (.bool b) []
  | .str s => .mk (.string s) []
  | .bin s => .mk (.binary s) []
  | .null => .mk .null []
  | .enum d c o => described d (.mk .list [.mk (.string c) [], .mk (.int o) []])
  | .obj d _ vs => described d (.mk .list (valTrees vs))
  | .list d es => described d (.mk .list (valTrees es))
  | .map d es => described d (.mk .map (pairTrees es))

def valTrees : List PVal → List Node
  | [] => []
  | v :: vs => valTree v :: valTrees vs

def pairTrees : List PEntry → List Node
  | [] => []
  | .mk k v :: es => valTree k :: valTree v :: pairTrees es

end

/-- One decimal digit. -/
def digit (n : Nat) : Char := Char.ofNat (48 + n)

/-- A natural number in decimal. -/
def decimalNat (n : Nat) : Str :=
  if n < 10 then [digit n] else decimalNat (n / 10) ++ [digit (n % 10)]

/-- An integer in decimal. -/
def decimal (n : Int) : Str := if n < 0 then '-' :: decimalNat n.natAbs else decimalNat n.natAbs

/-- Texts separated by a comma and a blank. -/
def commas (l : List Str) : Str := List.intercalate ", ".toList l

/-- A truth value. -/
def boolText (b : Bool) : Str := if b then "1".toList else "0".toList

/-- A text in quotation marks. -/
def quoted (s : Str) : Str := "\"".toList ++ s ++ "\"".toList

/-- Bytes are only counted. -/
def binaryText (n : Nat) : Str := "<<<binary: ".toList ++ decimalNat n ++ " bytes>>>".toList

/-- Something that is not there. -/
def absent : Str := "<<NULL>>".toList

/-- In braces, separated by commas. -/
def braces (l : List Str) : Str := "{ ".toList ++ commas l ++ " }".toList

/-- In brackets, separated by commas. -/
def brackets (l : List Str) : Str := "[ ".toList ++ commas l ++ " ]".toList

/-- Two texts with a colon between. -/
def colon (a b : Str) : Str := a ++ " : ".toList ++ b

mutual

/-- The text of a value. -/
def shown : PVal → Str
  | .int n => decimal n
  | .long n => decimal n
  | .double b => doubleStr b
  | .bool b => boolText b
  | .str s => quoted s
  | .bin s => binaryText s.length
  | .null => absent
  | .enum _ c _ => c
  | .obj _ ns vs => braces (shownNamed ns vs)
  | .list _ es => brackets (shownAll es)
  | .map _ es => braces (shownEntries es)

/-- `name : value` for each property. -/
def shownNamed : List Str → List PVal → List Str
  | n :: ns, v :: vs => colon n (shown v) :: shownNamed ns vs
  | _, _ => []

def shownAll : List PVal → List Str
  | [] => []
  | v :: vs => shown v :: shownAll vs

/-- `key : value` for each entry. -/
def shownEntries : List PEntry → List Str
  | [] => []
  | .mk k v :: es => colon (shown k) (shown v) :: shownEntries es

end

/-- With a name in front, if there is one. -/
def labelled (name : Option Str) (s : Str) : Str :=
  match name with
  | some n => colon n s
  | none => s

/-- The value belongs to the type of that name, the types being those listed. -/
inductive Typed (ts : List TypeNotation) : Str → PVal → Prop
  | int (n : Int) : Typed ts "int".toList (.int n)
  | long (n : Int) : Typed ts "long".toList (.long n)
  | double (b : Nat) : Typed ts "double".toList (.double b)
  | bool (b : Bool) : Typed ts "boolean".toList (.bool b)
  | str (s : Str) : Typed ts "string".toList (.str s)
  | bin (s : Str) : Typed ts "binary".toList (.bin s)
  | null (c : Composite) : .comp c ∈ ts → Typed ts c.name .null
  | enum (r : Restricted) (cs : List Str) (k : Str) (o : Int) : .restr r ∈ ts → r.kind = .enum cs → k ∈ cs →
      Typed ts r.name (.enum r.descriptor k o)
  | list (r : Restricted) (l : Str) (es : List PVal) : .restr r ∈ ts → r.kind = .list l ∨ r.kind = .array l →
      (∀ e ∈ es, Typed ts l e) → Typed ts r.name (.list r.descriptor es)
  | map (r : Restricted) (k v : Str) (es : List PEntry) : .restr r ∈ ts → r.kind = .map k v →
      (∀ e ∈ es, Typed ts k e.key) → (∀ e ∈ es, Typed ts v e.value) → Typed ts r.name (.map r.descriptor es)
  | obj (c : Composite) (vs : List PVal) : .comp c ∈ ts → vs.length = c.fields.length →
      (∀ f v t, (f, v) ∈ c.fields.zip vs → f.resolvedType = .ok t → Typed ts t v) →
      (∀ f ∈ c.fields, ∃ t, f.resolvedType = .ok t) →
      Typed ts c.name (.obj c.descriptor (c.fields.map Field.name) vs)

end Corda.Spec
