import Verif.Spec.Avro

/-
Boxed Java types inside type names.  Independent of the code.
-/

namespace Corda.Spec
open Corda

/-- Apply a function to the leaves of a type. -/
def AvroShape.mapLeaf (f : Str → Str) : AvroShape → AvroShape
  | .leaf n => .leaf (f n)
  | .array p t => .array p (t.mapLeaf f)
  | .list t => .list (t.mapLeaf f)
  | .map b k v => .map b (k.mapLeaf f) (v.mapLeaf f)

/-- All leaves satisfy this. -/
def AvroShape.AllLeaves (P : Str → Prop) : AvroShape → Prop
  | .leaf n => P n
  | .array _ t => t.AllLeaves P
  | .list t => t.AllLeaves P
  | .map _ k v => k.AllLeaves P ∧ v.AllLeaves P

/-- The boxed types without their package. -/
def boxedSimple : List Str :=
  ["Integer", "Boolean", "Byte", "Short", "Character", "Float", "Long", "Double"].map String.toList

/-- A name in which nothing looks like a boxed type: `java`, a character, `lang`, a character, a boxed type; and that does not
end in `java` or `lang`. -/
def Unrelated (n : Str) : Prop :=
  ¬ "java".toList <:+ n ∧ ¬ "lang".toList <:+ n
    ∧ ∀ b ∈ boxedSimple, ∀ p s c d, n ≠ p ++ ("java".toList ++ c :: ("lang".toList ++ d :: (b ++ s)))

/-- A leaf is a boxed type, or has nothing to do with them. -/
def BoxedOrUnrelated (n : Str) : Prop := n ∈ boxed.map (·.1.toList) ∨ Unrelated n

end Corda.Spec
