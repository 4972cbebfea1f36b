import Verif.Spec.Conforms
import Verif.Spec.Factory
import Verif.Model.Readers

/-
Classes that refer to each other by name.
-/

namespace Corda.Spec
open Corda

/-- The properties a class lists. -/
def ClassDesc.listed (d : ClassDesc) : List PropDesc :=
  match d.body with
  | .inl ps => ps
  | .inr _ => []

/-- `d` has a property of the class `e`. -/
def uses (d e : ClassDesc) : Prop := e.key.1 ∈ d.listed.map PropDesc.type

instance (d e : ClassDesc) : Decidable (uses d e) := by unfold uses; infer_instance

/-- A name for a class: none of a primitive type, an array or a wildcard, nor that of the one class the inspector knows already; and
none on which looking for the brackets of an array leaves the text. -/
structure ClassName (n : Str) : Prop where
  notPrimitive : n ∉ primNames
  notArray : ¬ HasArraySuffix n
  notStar : n ≠ "*".toList
  notKey : n ≠ publicKeyType
  longEnough : n ≠ [] ∧ n ≠ "]".toList ∧ n ≠ "p]".toList
  small : n.Small

/-- Classes without lists and maps: each property is of a primitive type that can be read or of one of the classes.  Neither
names nor fingerprints occur twice. -/
structure PlainClasses (ds : List ClassDesc) : Prop where
  composite : ∀ d ∈ ds, d.body = .inl d.listed
  types : ∀ d ∈ ds, ∀ p ∈ d.listed, p.requires = [] ∧ (p.type ∈ readable ∨ p.type ∈ ds.map fun e => e.key.1)
  names : ∀ d ∈ ds, ClassName d.key.1
  apart : ∀ d ∈ ds, ∀ e ∈ ds, d.key.1 = e.key.1 ∨ d.key.2 = e.key.2 → d = e

/-- No two classes use each other; a class may use itself. -/
def NotMutual (ds : List ClassDesc) : Prop := ∀ d ∈ ds, ∀ e ∈ ds, d ≠ e → ¬ (uses d e ∧ uses e d)

mutual

/-- Composites only, every part of which has a text and is of the class it is declared as. -/
def PlainObj (names : List Str) : Obj → Prop
  | .comp _ _ ms => PlainMembers names ms
  | .list _ _ _ => False
  | .map _ _ _ => False

def PlainMember (names : List Str) : Member → Prop
  | .prim _ _ v => Prim.shows v
  | .nullPrim _ _ => False
  | .obj _ t _ o => t = o.name ∧ PlainObj names o
  | .nullObj _ t => t ∈ names

def PlainMembers (names : List Str) : List Member → Prop
  | [] => True
  | m :: ms => PlainMember names m ∧ PlainMembers names ms

end

mutual

/-- The same object with other names for the classes. -/
def rename (f : Str → Str) : Obj → Obj
  | .comp n fp ms => .comp (f n) fp (renameMembers f ms)
  | .list n fp es => .list n fp es
  | .map n fp es => .map n fp es

def renameMember (f : Str → Str) : Member → Member
  | .prim n p v => .prim n p v
  | .nullPrim n t => .nullPrim n t
  | .obj n t p o => .obj n (f t) p (rename f o)
  | .nullObj n t => .nullObj n (f t)

def renameMembers (f : Str → Str) : List Member → List Member
  | [] => []
  | m :: ms => renameMember f m :: renameMembers f ms

end

/-- A composite names the other type as type of a field, or a container it names mentions it inside its brackets. -/
def reaches (a b : TypeNotation) : Bool :=
  match a, b with
  | .comp x, .comp y => x.fields.any fun f =>
      if f.AMQPType = .restricted_t then f.subTypes.contains y.name else fieldTypeName f == some y.name
  | _, _ => needs a b

end Corda.Spec
