import Verif.Spec.SchemaTypes
import Verif.Model.Factory

/-
Which schemas a set of known types can serve, stated without the algorithm.
-/

namespace Corda.Spec
open Corda

/-- The primitive types for which there is a reader. -/
def readable : List Str := ["int", "long", "double", "boolean", "string", "float", "binary"].map String.toList

/-- The type of a field of the type `self` is a primitive type that can be read, or known, or `self`. -/
def fieldServed (known : List Str) (self : Str) (f : Field) : Prop :=
  match f.kind with
  | .primitive => f.type ∈ readable ∨ f.type ∈ known
  | _ => ∃ t, fieldTypeName f = some t ∧ (t = self ∨ t ∈ known)

/-- An element, key or value type is a primitive type that can be read, or known. -/
def elemServed (known : List Str) (t : Str) : Prop := t ∈ readable ∨ t ∈ known

/-- All a type refers to is available. -/
def served (known : List Str) (t : TypeNotation) : Prop :=
  match t with
  | .comp c => ∀ f ∈ c.fields, fieldServed known c.name f
  | .restr r =>
    match r.kind with
    | .list l => elemServed known l
    | .array l => elemServed known l
    | .map k v => elemServed known k ∧ elemServed known v
    | .enum _ => True

instance (known : List Str) (self : Str) (f : Field) : Decidable (fieldServed known self f) := by
  unfold fieldServed
  cases f.kind with
  | primitive => exact inferInstanceAs (Decidable (_ ∨ _))
  | _ =>
    cases h : fieldTypeName f with
    | none => exact isFalse (by simp)
    | some t => exact decidable_of_iff (t = self ∨ t ∈ known) (by simp)

instance (known : List Str) (t : Str) : Decidable (elemServed known t) := by unfold elemServed; infer_instance

instance (known : List Str) (t : TypeNotation) : Decidable (served known t) := by
  unfold served
  cases t with
  | comp c => exact inferInstanceAs (Decidable (∀ f ∈ c.fields, fieldServed known c.name f))
  | restr r =>
    dsimp only
    cases r.kind with
    | list l => exact inferInstanceAs (Decidable (elemServed known l))
    | array l => exact inferInstanceAs (Decidable (elemServed known l))
    | map k v => exact inferInstanceAs (Decidable (elemServed known k ∧ elemServed known v))
    | enum c => exact inferInstanceAs (Decidable True)

/-- Every type is known already or finds what it needs among the known types and those before it. -/
def Ordered (known : List Str) : List TypeNotation → Prop
  | [] => True
  | t :: ts => (t.name ∈ known ∨ served known t) ∧ Ordered (t.name :: known) ts

instance : (known : List Str) → (ts : List TypeNotation) → Decidable (Ordered known ts)
  | _, [] => isTrue trivial
  | known, t :: ts => by
    unfold Ordered
    have := instDecidableOrdered (t.name :: known) ts
    infer_instance

/-- A field as `Field::make` makes it, with a type to look for: not a `*` without requirements. -/
structure PlainField (f : Field) : Prop where
  notCustom : f.kind ≠ .custom
  named : ∃ t, fieldTypeName f = some t
  notPrimitive : f.kind ≠ .primitive → ∀ t, fieldTypeName f = some t → t ∉ readable

/-- A type whose fields are plain and whose name is not that of a primitive type. -/
def PlainType (t : TypeNotation) : Prop :=
  t.name ∉ readable ∧ (∀ c, t = .comp c → ∀ f ∈ c.fields, PlainField f)

/-- No null entry, and every entry holds an object of the type it is entered for. -/
def Sane (F : Factory) : Prop :=
  ∀ k e, F.byType.lookup k = some e → ∃ (i : Nat) (o : Ser), e = some i ∧ F.objs[i]? = some o ∧ o.type = k

/-- The names for which the factory has a reader. -/
def names (F : Factory) : List Str := (F.byType.filter (fun e => e.2.isSome)).map Prod.fst

end Corda.Spec
