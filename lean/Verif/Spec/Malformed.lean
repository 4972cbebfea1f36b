import Verif.Spec.Descriptors
import Verif.Model.SchemaTypes

/-
What an AMQP tree must satisfy so that reading it as an envelope has defined behaviour: the preconditions the schema
readers rely on without checking them.
-/

namespace Corda.Spec
open Corda

/-- The `i`-th part, or the last one if there are fewer: that is where a cursor stepping over the parts stops. -/
def nth (ns : List Node) (i : Nat) : Option Node := ns[min i (ns.length - 1)]?

/-- If the node is a described value with an unsigned long as descriptor, then it is that of element `k`. -/
def IdIs (k : Nat) (n : Node) : Prop :=
  n.val = .described → ∀ id ks, nth n.kids 0 = some (.mk (.ulong id) ks) → id = cordaId k

/-- The parts of a described element. -/
def parts (n : Node) : List Node :=
  match nth n.kids 1 with
  | some m => m.kids
  | none => []

/-- A type name on which looking for an array suffix stays inside the string. -/
def SafeName (s : Str) : Prop := s ≠ [] ∧ s ≠ "]".toList ∧ s ≠ "p]".toList ∧ s.Small

/-- A field: the type name is safe; if it is `*` there is a first requirement, and that is safe. -/
def FieldOk (n : Node) : Prop :=
  IdIs 4 n ∧ ∀ t ks, nth (parts n) 1 = some (.mk (.string t) ks) → SafeName t
    ∧ ∀ m, nth (parts n) 2 = some m → (∀ s ks, .mk (.string s) ks ∈ m.kids → s.Small)
      ∧ (t = "*".toList → m.kids ≠ [] ∧ ∀ s ks, m.kids.head? = some (.mk (.string s) ks) → SafeName s)

def CompositeOk (n : Node) : Prop :=
  IdIs 5 n ∧ (∀ m, nth (parts n) 3 = some m → IdIs 3 m)
    ∧ (∀ m, nth (parts n) 4 = some m → ∀ f ∈ m.kids, FieldOk f)

def RestrictedOk (n : Node) : Prop :=
  IdIs 6 n ∧ (∀ m, nth (parts n) 4 = some m → IdIs 3 m)
    ∧ (∀ m, nth (parts n) 5 = some m → ∀ f ∈ m.kids, IdIs 7 f)
    ∧ (∀ s ks, nth (parts n) 0 = some (.mk (.string s) ks) ∨ nth (parts n) 0 = some (.mk (.symbol s) ks) → SafeName s)

def SchemaOk (n : Node) : Prop :=
  IdIs 2 n ∧ ∀ l ∈ parts n, ∀ t ∈ l.kids, CompositeOk t ∨ RestrictedOk t

/-- The whole: a described value with the envelope identifier whose second part is a schema. -/
def EnvelopeOk (n : Node) : Prop :=
  n.val = .described ∧ (∃ ks, nth n.kids 0 = some (.mk (.ulong (cordaId 1)) ks))
    ∧ ∀ m, nth (parts n) 1 = some m → SchemaOk m

end Corda.Spec
