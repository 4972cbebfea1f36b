import Verif.Spec.AnySchema
import Verif.Spec.SchemaDump

/-
What dumping the schema of any tree as raw text makes: the lines, the exception, or undefined behaviour.  This is said
about trees; there are no cursors here.
-/

namespace Corda.Spec
open Corda

/-- Everything inside a node, each with its number, from one. -/
def numberedOf {α : Type} (f : Nat → Option Node → Res α) (n : Option Node) : Res (List α) :=
  all (((kidsOf n).zipIdx 1).map fun x => f x.2 (some x.1))

/-- How the lines of an element are found: at which level, and the node. -/
abbrev Lines : Type := Nat → Option Node → Res (List Line)

/-- The lines of a part that has to be an element: anything but a described value is undefined. -/
def elementLines (rec : Lines) : Lines := fun k n =>
  match valueOf n with
  | some .described => rec k n
  | _ => .ub "null registry entry"

/-- The names of the elements by number; the number 22 alone has no name. -/
def elementName (id : Nat) : Str :=
  if id = cordaId 1 then "ENVELOPE".toList
  else if id = cordaId 2 then "SCHEMA".toList
  else if id = cordaId 3 then "OBJECT_DESCRIPTOR".toList
  else if id = cordaId 4 then "FIELD".toList
  else if id = cordaId 5 then "COMPOSITE_TYPE".toList
  else if id = cordaId 6 then "RESTRICTED_TYPE".toList
  else if id = cordaId 7 then "CHOICE".toList
  else if id = cordaId 8 then "REFERENCED_OBJECT".toList
  else if id = cordaId 9 then "TRANSFORM_SCHEMA".toList
  else if id = cordaId 10 then "TRANSFORM_ELEMENT".toList
  else if id = cordaId 11 then "TRANSFORM_ELEMENT_KEY".toList
  else "UNKNOWN".toList

/-- The first lines of an element. -/
def elementHead (k id parts : Nat) : List Line :=
  [⟨k, "DESCRIBED: ".toList⟩,
   ⟨k + 1, "key  : ".toList ++ dec id ++ " :: ".toList ++ dec (id % 2 ^ 32) ++ " -> ".toList ++ elementName id⟩,
   ⟨k + 1, "list : entries: ".toList ++ dec parts⟩]

/-- A datum in brief, if there is one. -/
def briefOf (n : Option Node) : Str :=
  match n with
  | some m => brief m
  | none => []

/-- A fingerprint, and in brief what follows it; if nothing does, the fingerprint again. -/
def objectShown (k : Nat) (ps : List Node) : Res (List Line) := do
  let s ← symbolOf (nth ps 0)
  pure [⟨k, "1/2] ".toList ++ s⟩, ⟨k, "2/2] ".toList ++ briefOf (nth ps 1)⟩]

/-- A field, from its parts. -/
def fieldShown (k : Nat) (ps : List Node) : Res (List Line) := do
  let name ← stringAt false (nth ps 0)
  let type ← stringAt false (nth ps 1)
  let requires ← eachOf (stringAt false) (nth ps 2)
  let default ← stringAt true (nth ps 3)
  let label ← stringAt true (nth ps 4)
  let mandatory ← flagAt (nth ps 5)
  let multiple ← flagAt (nth ps 6)
  pure ([⟨k, "1/7] String: Name: ".toList ++ name⟩, ⟨k, "2/7] String: Type: ".toList ++ type⟩,
      ⟨k, "3/7] List: Requires: elements ".toList ++ dec (listElements (nth ps 2)).length⟩]
    ++ requires.map (fun r => ⟨k + 1, r⟩)
    ++ [⟨k, "4/7] String: Default: ".toList ++ default⟩, ⟨k, "5/7] String: Label: ".toList ++ label⟩,
        ⟨k, "6/7] Boolean: Mandatory: ".toList ++ bit mandatory⟩, ⟨k, "7/7] Boolean: Multiple: ".toList ++ bit multiple⟩])

/-- A class, from its parts; `rec` finds the lines of an element. -/
def compositeShown (rec : Lines) (k : Nat) (ps : List Node) : Res (List Line) := do
  let name ← wordAt false (nth ps 0)
  let label ← wordAt true (nth ps 1)
  let _ ← listParts (nth ps 2)
  let provides ← eachOf (stringAt false) (nth ps 2)
  let _ ← describedParts (nth ps 3)
  let fingerprint ← rec (k + 1) (nth ps 3)
  let fields ← numberedOf (fun i m => do
    let ls ← elementLines rec (k + 2) m
    pure (⟨k + 1, outOf i (listElements (nth ps 4)).length⟩ :: ls)) (nth ps 4)
  pure ([⟨k, "1] String: ClassName: ".toList ++ name⟩, ⟨k, "2] String: Label: \"".toList ++ label ++ "\"".toList⟩,
      ⟨k, "3] List: Provides: [ ".toList
        ++ provides.flatMap (fun p => List.replicate (2 * k) ' ' ++ p ++ " ".toList) ++ "]".toList⟩,
      ⟨k, "4] Descriptor:".toList⟩]
    ++ fingerprint ++ [⟨k, "5] List: Fields: ".toList⟩] ++ fields.flatten)

/-- A restricted type, from its parts. -/
def restrictedShown (rec : Lines) (k : Nat) (ps : List Node) : Res (List Line) := do
  let name ← wordAt false (nth ps 0)
  let label ← wordAt true (nth ps 1)
  let provides ← eachOf (stringAt false) (nth ps 2)
  let source ← wordAt false (nth ps 3)
  let fingerprint ← elementLines rec (k + 1) (nth ps 4)
  pure ([⟨k, "1] String: Name: ".toList ++ name⟩, ⟨k, "2] String: Label: ".toList ++ label⟩,
      ⟨k, "3] List: Provides: [ ".toList ++ provides.flatMap (fun p => p ++ " ".toList) ++ "]".toList⟩,
      ⟨k, "4] String: Source: ".toList ++ source⟩, ⟨k, "5] Descriptor:".toList⟩]
    ++ fingerprint)

/-- A schema: its parts are lists of types. -/
def schemaShown (rec : Lines) (k : Nat) (n : Option Node) : Res (List Line) := do
  let lists ← numberedOf (fun i m => do
    let ts ← listParts m
    let types ← numberedOf (fun j t => do
      let ls ← elementLines rec (k + 2) t
      pure (⟨k + 1, dec i ++ ":".toList ++ outOf j ts.length ++ " ".toList⟩ :: ls)) m
    pure (⟨k, outOf i (kidsOf n).length ++ " list: entries: ".toList ++ dec ts.length⟩ :: types.flatten)) n
  pure lists.flatten

/-- An envelope, from its parts: the payload and the schema. -/
def envelopeShown (rec : Lines) (k : Nat) (ps : List Node) : Res (List Line) := do
  let payload ← elementLines rec (k + 1) (nth ps 0)
  let schema ← elementLines rec (k + 1) (nth ps 1)
  pure ([⟨k, "1]".toList⟩] ++ payload ++ [⟨k, "2]".toList⟩] ++ schema)

/-- What is inside an element with a certain number.  For choices, references and transforms, and for the number 22, the
list itself is taken for a described value. -/
def insideShown (rec : Lines) (k id : Nat) (n : Option Node) : Res (List Line) :=
  if id = cordaId 1 then envelopeShown rec (k + 2) (kidsOf n)
  else if id = cordaId 2 then schemaShown rec (k + 2) n
  else if id = cordaId 3 then objectShown (k + 2) (kidsOf n)
  else if id = cordaId 4 then fieldShown (k + 2) (kidsOf n)
  else if id = cordaId 5 then compositeShown rec (k + 2) (kidsOf n)
  else if id = cordaId 6 then restrictedShown rec (k + 2) (kidsOf n)
  else if id = 22 ∨ id = cordaId 7 ∨ id = cordaId 8 ∨ id = cordaId 9 ∨ id = cordaId 10 ∨ id = cordaId 11 then rec (k + 1) n
  else .ub "null registry entry"

/-- The lines of an element: its first part is its number, its second (or only) part a list; or the first part is a
symbol, of which only the length is shown.  `depth` bounds the nesting; the height of the tree is enough. -/
def linesIn : (depth : Nat) → Lines
  | 0, _, _ => .ub "fuel"
  | depth + 1, k, n =>
    match valueOf (nth (kidsOf n) 0) with
    | some (.ulong id) => do
      let ps ← listParts (nth (kidsOf n) 1)
      let ls ← insideShown (linesIn depth) k id (nth (kidsOf n) 1)
      pure (elementHead k id ps.length ++ ls)
    | some (.symbol s) => .ok [⟨k, "DESCRIBED: ".toList⟩, ⟨k + 1, "blob: bytes: ".toList ++ dec s.length⟩]
    | _ => .throw "Described type should only contain long or blob"

/-- The raw text for a blob. -/
def rawDump (n : Node) : Res Str :=
  match n.val with
  | .described => do
    let ls ← linesIn n.height 0 (some n)
    pure (page ls)
  | _ => .throw "Can only dispatch described objects"

end Corda.Spec
