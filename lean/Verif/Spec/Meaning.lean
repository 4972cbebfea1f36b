import Verif.Spec.Readers
import Verif.Spec.Factory
import Verif.Spec.Malformed
import Verif.Model.Descriptors

/-
What an inspection makes of any payload, well-formed or not: the text, the exception, or undefined behaviour.  This is
said about trees; there are no cursors, readers or factories here.
-/

namespace Corda.Spec
open Corda

/-- All of them, or the first that fails. -/
def all {α : Type} : List (Res α) → Res (List α)
  | [] => .ok []
  | r :: rs => do
    let a ← r
    let as ← all rs
    pure (a :: as)

/-- What the node holds. -/
def valueOf (n : Option Node) : Option Atom := n.map Node.val

/-- The parts of a node. -/
def kidsOf (n : Option Node) : List Node :=
  match n with
  | some m => m.kids
  | none => []

/-- The primitive types that can be read. -/
def primNamed (t : Str) : Option PrimReader :=
  if t = "int".toList then some .int
  else if t = "long".toList then some .long
  else if t = "double".toList then some .double
  else if t = "boolean".toList then some .boolean
  else if t = "string".toList then some .string
  else if t = "float".toList then some .float
  else if t = "binary".toList then some .binary
  else none

/-- A primitive value: something else in its place counts as zero, no bytes, or false; but not in place of a text. -/
def primText (p : PrimReader) (n : Option Node) : Res Str :=
  match p with
  | .int => .ok (decimal (match valueOf n with | some (.int k) => k | _ => 0))
  | .long => .ok (decimal (match valueOf n with | some (.long k) => k | _ => 0))
  | .double => .ok (doubleStr (match valueOf n with | some (.double b) => b | _ => 0))
  | .boolean => .ok (boolText (match valueOf n with | some (.bool b) => b | _ => false))
  | .binary => .ok (binaryText (match valueOf n with | some (.binary s) => s.length | _ => 0))
  | .float => .throw "This is very bad"
  | .string =>
    match valueOf n with
    | some (.string s) => .ok (quoted s)
    | some (.symbol s) => .ok (quoted s)
    | _ => .throw "Expected a String but found"

/-- The parts of a described value. -/
def describedParts (n : Option Node) : Res (List Node) :=
  match valueOf n with
  | some .described => .ok (kidsOf n)
  | _ => .throw "Expected a Described type"

/-- A symbol. -/
def symbolOf (n : Option Node) : Res Str :=
  match valueOf n with
  | some (.symbol s) => .ok s
  | _ => .throw "Expected an unsigned long"

/-- A text, which may be a symbol. -/
def textOf (n : Option Node) : Res Str :=
  match valueOf n with
  | some (.string s) => .ok s
  | some (.symbol s) => .ok s
  | _ => .throw "Expected a String but found"

/-- The parts of a list. -/
def listParts (n : Option Node) : Res (List Node) :=
  match valueOf n with
  | some .list => .ok (kidsOf n)
  | _ => .throw "Expected a List"

/-- The type of that name. -/
def typeNamed (ts : List TypeNotation) (t : Str) : Option TypeNotation := ts.find? (fun u => u.name == t)

/-- The type with that descriptor. -/
def typeWith (ts : List TypeNotation) (d : Str) : Res TypeNotation :=
  match ts.find? (fun u => u.descriptor == d) with
  | some u => .ok u
  | none => .throw "ARSE"

/-- The name of the type with the reader made for it specially. -/
def keyType : Str := "java.security.PublicKey".toList

/-- A public key: not shown; only possible for a named property. -/
def keyText (named : Bool) (n : Option Node) : Res Str :=
  if named then do
    let ks ← describedParts n
    match valueOf (nth ks 1) with
    | some (.binary _) => .ok "<<<Public Key>>>".toList
    | _ => .throw "Expected a binary type"
  else .throw "NOT IMPLEMENTED"

/-- An enumeration constant. -/
def enumText (n : Option Node) : Res Str := do
  let ks ← describedParts n
  match valueOf (nth ks 0) with
  | some (.ulong id) =>
    if id % 2 ^ 32 = 8 then .throw "Currently don't support referenced objects"
    else .throw "Expected a String but found"
  | _ => do
    let _ ← textOf (nth ks 0)
    textOf (nth (kidsOf (nth ks 1)) 0)

/-- The elements of a list; anything else has none. -/
def listElements (n : Option Node) : List Node :=
  match valueOf n with
  | some .list => kidsOf n
  | _ => []

/-- The keys and values of a map; anything else has none. -/
def mapParts (n : Option Node) : List Node :=
  match valueOf n with
  | some .map => kidsOf n
  | _ => []

/-- A described value of a list or map type: some known descriptor, whichever, and the thing itself. -/
def body (ts : List TypeNotation) (n : Option Node) : Res (Option Node) := do
  let ks ← describedParts n
  let d ← textOf (nth ks 0)
  let _ ← typeWith ts d
  pure (nth ks 1)

/-- How the text for a value is found: for a type name, and whether the value is a named property. -/
abbrev Texts : Type := Bool → Str → Option Node → Res Str

/-- The properties of an object of class `c`.  The descriptor may be that of another class with as many properties; then
the names are those of the other class, the types those of `c`. -/
def objectTexts (ts : List TypeNotation) (texts : Texts) (c : Composite) (n : Option Node) : Res (List Str) := do
  let ks ← describedParts n
  let d ← symbolOf (nth ks 0)
  let u ← typeWith ts d
  match u with
  | .restr _ => .throw "std::bad_cast"
  | .comp c' =>
    if c'.fields.length = c.fields.length then do
      let ns ← listParts (nth ks 1)
      all ((c'.fields.zip c.fields).zipIdx.map fun x =>
        match fieldTypeName x.1.2 with
        | some t => (colon x.1.1.name) <$> texts true t (nth ns x.2)
        | none => .ub "no type")
    else .ub "assert"

/-- The elements of a list or array. -/
def listTexts (ts : List TypeNotation) (texts : Texts) (l : Str) (n : Option Node) : Res (List Str) := do
  let b ← body ts n
  all ((listElements b).map fun e => texts false l (some e))

/-- The keys and values of a map by turns.  If there is one left over, it is taken for both.  The compiler decides whether
the first of each two is read as the key or as the value. -/
def mapTexts (leftFirst : Bool) (ts : List TypeNotation) (texts : Texts) (k v : Str) (n : Option Node) :
    Res (List Str) := do
  let b ← body ts n
  let ns := mapParts b
  all ((List.range ((ns.length + 1) / 2)).map fun i =>
    if leftFirst then do
      let a ← texts false k (nth ns (2 * i))
      let b ← texts false v (nth ns (2 * i + 1))
      pure (colon a b)
    else do
      let b ← texts false v (nth ns (2 * i))
      let a ← texts false k (nth ns (2 * i + 1))
      pure (colon a b))

/-- The text for a value of the type named `t`, where `n` is what stands in its place (perhaps nothing).  `depth` bounds
how deep the value may be. -/
def textAs (leftFirst : Bool) (ts : List TypeNotation) : Nat → Texts
  | 0, _, _, _ => .ub "fuel"
  | depth + 1, named, t, n =>
    if t = keyType then keyText named n
    else match primNamed t with
    | some p => primText p n
    | none =>
      match typeNamed ts t with
      | none => .ub "no such type"
      | some (.comp c) =>
        if valueOf n = some .null then .ok absent
        else braces <$> objectTexts ts (textAs leftFirst ts depth) c n
      | some (.restr r) =>
        match r.kind with
        | .enum _ => enumText n
        | .list l => brackets <$> listTexts ts (textAs leftFirst ts depth) l n
        | .array l => brackets <$> listTexts ts (textAs leftFirst ts depth) l n
        | .map k v => braces <$> mapTexts leftFirst ts (textAs leftFirst ts depth) k v n

/-- How deep a value is. -/
def depthOf (n : Option Node) : Nat :=
  match n with
  | some m => m.height
  | none => 1

/-- What an inspection makes of a payload with descriptor `d`: the text for a value of the type with that descriptor. -/
def payloadText (leftFirst : Bool) (ts : List TypeNotation) (d : Str) (payload : Node) : Res Str :=
  match ts.find? (fun u => u.descriptor == d) with
  | none => .ub "assert"
  | some u => do
    let s ← textAs leftFirst ts payload.height true u.name (some payload)
    pure ("{ Parsed : ".toList ++ s ++ " }".toList)

/-- A part of a tree. -/
inductive Inside : Node → Node → Prop
  | here (n : Node) : Inside n n
  | deeper {m : Node} (a : Atom) (ks : List Node) (k : Node) (hk : k ∈ ks) (h : Inside m k) : Inside m (.mk a ks)

/-- The name of a type that can be read. -/
def Known (ts : List TypeNotation) (t : Str) : Prop := t = keyType ∨ t ∈ readable ∨ ∃ u ∈ ts, u.name = t

/-- Somewhere there is an object with the descriptor of a class which has not as many properties as another class. -/
def Misfit (ts : List TypeNotation) (n : Node) : Prop :=
  ∃ m c c' ks, Inside m n ∧ m = .mk .described ks ∧ .comp c ∈ ts ∧ .comp c' ∈ ts ∧ c'.fields.length ≠ c.fields.length
    ∧ symbolOf (nth ks 0) = .ok c'.descriptor

end Corda.Spec
