import Verif.Spec.Writer
import Verif.Model.Memory

/-
What memory is taken: how many descriptions a schema has, programs that serialise, and when a program has destroyed all it made.
-/

namespace Corda.Spec
open Corda

/-- The descriptions in a schema: of each class, and of each of its properties. -/
def descriptions : List ClassDesc → Nat
  | [] => 0
  | ⟨_, .inl ps⟩ :: ds => 1 + ps.length + descriptions ds
  | ⟨_, .inr _⟩ :: ds => 1 + descriptions ds

/-- The properties described so far. -/
def propertiesOf : List ((Str × Str) × Blob) → Nat
  | [] => 0
  | (_, .comp fields) :: m => fields.length + propertiesOf m
  | (_, .list _) :: m => propertiesOf m

/-- The schemas in the blobs of these objects. -/
def SchemasOf : List Obj → List (List ClassDesc) → Prop
  | [], [] => True
  | o :: os, ds :: dss => (Describes o ds ∧ serialise o = .ok [envelopeTree (objTree o) (schemaTree (ds.map ClassDesc.tree)) (.mk .null [])])
      ∧ SchemasOf os dss
  | _, _ => False

/-- No object of the library is left. -/
def AllEnded (s : Running) : Prop := (∀ w ∈ s.writers, w = none) ∧ (∀ b ∈ s.blobs, b = none) ∧ ∀ b ∈ s.bytes, b = none

/-- The numbers of the arrays that belong to objects that are left. -/
def owned : List (Option (Nat × CordaBytes)) → List Nat
  | [] => []
  | some (a, _) :: bs => a :: owned bs
  | none :: bs => owned bs

/-- Objects serialised one after the other: each as `serialise (sf_)` does it, and the result destroyed; `k` have been before. -/
def serialiseAll (k : Nat) : List Obj → List Step
  | [] => []
  | o :: os => .writer :: .write k o :: .make k :: .endWriter k :: .endBlob k :: serialiseAll (k + 1) os

end Corda.Spec
