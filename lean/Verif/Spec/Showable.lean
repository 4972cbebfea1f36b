import Verif.Spec.Malformed
import Verif.Spec.Avro

/-
What an AMQP tree must satisfy so that the schema dumps of it have defined behaviour: what the dumps rely on without
checking it.
-/

namespace Corda.Spec
open Corda

/-- The identifier the node gives as descriptor. -/
def HasId (n : Node) (id : Nat) : Prop := ∃ ks, nth n.kids 0 = some (.mk (.ulong id) ks)

/-- The raw dump of the node, once entered, has defined behaviour: a node with an unsigned long as first child has one of the
known identifiers, and what the dump of that element dispatches on without checking is described and itself like that. -/
inductive RawShowable : Node → Prop
  /-- No unsigned long in front: shown as a blob, or rejected. -/
  | other {n : Node} : (∀ id, ¬ HasId n id) → RawShowable n
  /-- A descriptor or a field: nothing in it is dispatched on. -/
  | plain {n : Node} (id : Nat) : HasId n id → id = cordaId 3 ∨ id = cordaId 4 → RawShowable n
  /-- An envelope is not empty; the first two parts are described. -/
  | envelope {n : Node} : HasId n (cordaId 1) → parts n ≠ [] →
      (∀ i m, i < 2 → nth (parts n) i = some m → m.val = .described) →
      (∀ i m, i < 2 → nth (parts n) i = some m → RawShowable m) → RawShowable n
  /-- The types in the lists of a schema are described. -/
  | schema {n : Node} : HasId n (cordaId 2) → (∀ l ∈ parts n, ∀ m ∈ l.kids, m.val = .described) →
      (∀ l ∈ parts n, ∀ m ∈ l.kids, RawShowable m) → RawShowable n
  /-- The fields of a class are described (its descriptor is checked to be). -/
  | composite {n : Node} : HasId n (cordaId 5) → (∀ m, nth (parts n) 3 = some m → RawShowable m) →
      (∀ l, nth (parts n) 4 = some l → ∀ m ∈ l.kids, m.val = .described) →
      (∀ l, nth (parts n) 4 = some l → ∀ m ∈ l.kids, RawShowable m) → RawShowable n
  /-- The descriptor of a restricted type is described. -/
  | restricted {n : Node} : HasId n (cordaId 6) → (∀ m, nth (parts n) 4 = some m → m.val = .described) →
      (∀ m, nth (parts n) 4 = some m → RawShowable m) → RawShowable n
  /-- The other known elements (choices, transforms) are shown by looking at the value as if it were a described one; the same
  is done for 22. -/
  | again {n : Node} (id : Nat) : HasId n id → id ∈ [22, cordaId 7, cordaId 8, cordaId 9, cordaId 10, cordaId 11] →
      (∀ m, nth n.kids 1 = some m → RawShowable m) → RawShowable n

/-- The same for the Avro form. -/
inductive AvroShowable : Node → Prop
  | other {n : Node} : (∀ id, ¬ HasId n id) → AvroShowable n
  /-- Nothing in a descriptor is dispatched on; a restricted type is skipped. -/
  | plain {n : Node} (id : Nat) : HasId n id → id = cordaId 3 ∨ id = cordaId 6 → AvroShowable n
  /-- The type of a field (the first requirement, for `*`) is a well-formed type name. -/
  | field {n : Node} : HasId n (cordaId 4) →
      (∀ t ks m, nth (parts n) 1 = some (.mk (.string t) ks) → nth (parts n) 2 = some m →
        (t ≠ "*".toList → ∃ s : AvroShape, s.Ok ∧ s.render.Small ∧ s.render = t)
        ∧ (t = "*".toList → m.val = .list ∧ m.kids ≠ [] ∧
          ∀ r ks, nth m.kids 0 = some (.mk (.string r) ks) → ∃ s : AvroShape, s.Ok ∧ s.render.Small ∧ s.render = r)) →
      AvroShowable n
  /-- An envelope is not empty; the schema is described. -/
  | envelope {n : Node} : HasId n (cordaId 1) → parts n ≠ [] → (∀ m, nth (parts n) 1 = some m → m.val = .described) →
      (∀ m, nth (parts n) 1 = some m → AvroShowable m) → AvroShowable n
  /-- A schema has exactly one list; the types in it are described. -/
  | schema {n : Node} : HasId n (cordaId 2) → (parts n).length = 1 → (∀ l ∈ parts n, ∀ m ∈ l.kids, m.val = .described) →
      (∀ l ∈ parts n, ∀ m ∈ l.kids, AvroShowable m) → AvroShowable n
  | composite {n : Node} : HasId n (cordaId 5) → (∀ m, nth (parts n) 3 = some m → AvroShowable m) →
      (∀ l, nth (parts n) 4 = some l → ∀ m ∈ l.kids, m.val = .described) →
      (∀ l, nth (parts n) 4 = some l → ∀ m ∈ l.kids, AvroShowable m) → AvroShowable n
  | again {n : Node} (id : Nat) : HasId n id → id ∈ [22, cordaId 7, cordaId 8, cordaId 9, cordaId 10, cordaId 11] →
      (∀ m, nth n.kids 1 = some m → AvroShowable m) → AvroShowable n

end Corda.Spec
