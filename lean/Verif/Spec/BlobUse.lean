import Verif.Model.BlobUse
import Verif.Lemmas.Prog
import Verif.Spec.AnyAvro
import Verif.Spec.AnySchemaDump
import Verif.Spec.AnySchema
import Verif.Spec.Descriptors

/-
What becomes of a blob that has been used.
-/

namespace Corda.Spec
open Corda

/-- The trees a program has made blobs of, in order. -/
def treesMade : List BlobStep → List Node
  | [] => []
  | .blob n :: as => n :: treesMade as
  | _ :: as => treesMade as

/-- A program that reads no object from that tree, given which tree each blob points to. -/
def NotRead (as : List BlobStep) (blobs : List Nat) (k : Nat) : Prop := ∀ i p, .use i (.object p) ∈ as → blobs[i]? ≠ some k

/-- Custom serialisers leave the level they are in as it is. -/
def Use.Tidy : Use → Prop
  | .contents cu _ _ => ∀ k s n, Scoped (cu k s n)
  | _ => True

def BlobStep.Tidy : BlobStep → Prop
  | .use _ u => Use.Tidy u
  | _ => True

/-- Nothing undefined has happened. -/
def AllDefined (rs : List (Res Outcome)) : Prop := ∀ w, Res.ub w ∉ rs

/-- What can still be had of a blob after its object was read: its bytes, and the schema without the envelope around it (until reading is tried again); nothing else. -/
def Afterwards (whole : Node) (types : List Node) : Use → Res Outcome → Prop
  | .data, r => ∃ w, r = .ub w
  | .contents _ _ _, r => ∀ x, r ≠ .ok x
  | .object _, r => r = .throw "Expected a Described type"
  | .bytes, r => r = .ok (.trees [whole])
  | .schema .raw, r => r = (rawDump (schemaTree types)).as .text ∨ r = .throw "Can only dispatch described objects"
  | .schema .avro, r => SmallTexts (schemaTree types) →
      r = (avroDump (schemaTree types)).as .text ∨ r = .throw "Can only dispatch described objects"
  | .schema .amqp, r => r = .ok (.text []) ∨ r = .throw "Can only dispatch described objects"

end Corda.Spec
