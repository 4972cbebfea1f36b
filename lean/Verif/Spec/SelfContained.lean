import Verif.Spec.Shown
import Verif.Spec.AnyInspect

/-
Schemas that describe every type they name.
-/

namespace Corda.Spec
open Corda

/-- The primitive types: Corda's names for those the library writes, and Java's classes for them. -/
def basicNames : List Str := (["int", "long", "double", "boolean", "string", "float", "char", "java.lang.Integer", "java.lang.Long",
  "java.lang.Double", "java.lang.Boolean", "java.lang.String", "java.lang.Float", "java.lang.Character"]).map String.toList

/-- The name of the type of a property: for a container, that of the container. -/
def PropDesc.target (q : PropDesc) : Str := q.requires.headD q.type

/-- The text before and after the first comma that is not within brackets. -/
def splitComma : Nat → Str → Str × Str
  | _, [] => ([], [])
  | depth, c :: s =>
    if c = ',' ∧ depth = 0 then ([], s)
    else
      match splitComma (if c = '<' then depth + 1 else if c = '>' then depth - 1 else depth) s with
      | (a, b) => (c :: a, b)

/-- The types of what is in a container of that name: of the elements of a list, of the keys and values of a map. -/
def heldBy (n : Str) : List Str :=
  if "java.util.List<".toList.isPrefixOf n then [(n.drop 15).dropLast]
  else if "java.util.Map<".toList.isPrefixOf n then
    match splitComma 0 (n.drop 14).dropLast with
    | (k, v) => [k, v]
  else []

/-- The types that are named in the description of a class. -/
def ClassDesc.named (d : ClassDesc) : List Str :=
  match d.body with
  | .inl ps => ps.map PropDesc.target
  | .inr _ => heldBy d.key.1

/-- Every type that is named in one of the descriptions is a primitive type or described by one of them. -/
def SelfContained (ds : List ClassDesc) : Prop :=
  ∀ d ∈ ds, ∀ t ∈ d.named, t ∈ basicNames ∨ t ∈ ds.map fun e => e.key.1

instance (ds : List ClassDesc) : Decidable (SelfContained ds) := by unfold SelfContained; infer_instance

/-- The names of the classes of the objects in an object. -/
def classNames (o : Obj) : List Str := (classes o).map fun a => a.1.1

/-- An object of the class named so. -/
def elemOf (t : Str) : Elem → Bool
  | .obj o => o.name == t
  | _ => false

def entryHas (t : Str) : Entry → Bool
  | .mk k v => elemOf t k || elemOf t v

mutual

/-- The classes that are named somewhere in an object where there is no object of them: null pointers to objects, pointers to objects of other
classes than the declared one, and containers without an object of the class of the elements, keys or values. -/
def missing : Obj → List Str
  | .comp _ _ ms => missingMembers ms
  | .list n _ es => ((heldBy n).filter fun t => !es.any (elemOf t)) ++ missingElems es
  | .map n _ es => ((heldBy n).filter fun t => !es.any (entryHas t)) ++ missingEntries es

def missingMember : Member → List Str
  | .prim _ _ _ => []
  | .nullPrim _ _ => []
  | .obj _ t _ o => (if t = o.name then [] else [t]) ++ missing o
  | .nullObj _ t => [t]

def missingElem : Elem → List Str
  | .obj o => missing o
  | _ => []

def missingMembers : List Member → List Str
  | [] => []
  | m :: ms => missingMember m ++ missingMembers ms

def missingElems : List Elem → List Str
  | [] => []
  | e :: es => missingElem e ++ missingElems es

def missingEntries : List Entry → List Str
  | [] => []
  | .mk k v :: es => missingElem k ++ missingElem v ++ missingEntries es

end

/-- Whenever a property of a class is written it is declared with the same type. -/
def Steady (o : Obj) : Prop := ∀ a ∈ props o, ∀ b ∈ props o, a.1 = b.1 → a.2.name = b.2.name → a.2.target = b.2.target

/-- The types read from a schema have different names, which are not those of primitive types or public keys. -/
structure OwnNames (ts : List TypeNotation) : Prop where
  same : ∀ a ∈ ts, ∀ b ∈ ts, a.name = b.name → a = b
  other : ∀ a ∈ ts, a.name ∉ readable ∧ a.name ≠ keyType

/-- Every type that is named in one of the types is a primitive type that can be read, that of public keys, or one of them. -/
def AllKnown (ts : List TypeNotation) : Prop :=
  ∀ t ∈ ts, ∀ m, mentions t m = true → m ∈ readable ∨ m = keyType ∨ m ∈ ts.map TypeNotation.name

end Corda.Spec
