import Verif.Spec.Words
import Verif.Model.Wrapper

/-
C83: names and kinds of the types of AMQP values.
-/

namespace Corda.Props
open Corda Corda.Prog Corda.Spec

/-- **C83, names.** The name given for the current value is the word for its type, wherever the cursor stands; asking
moves nothing. -/
theorem C83_name (c : Cursor) : typeToString c = (.ok (typeWord c.type), c) := by
  have h : ∀ t : PnType, t.str.toList = typeWord t := by
    intro t
    cases t <;> decide +kernel
  show (Res.ok (c.type.str.toList), c) = _
  rw [h]

/-- **C83, the name is that of the value.** On a value the name is the word for what the value is; on no value it is
"invalid". -/
theorem C83_value (c : Cursor) :
    typeToString c
      = (.ok (match c.cur with | some (.mk a _) => valueWord a | none => "invalid".toList), c) := by
  rw [C83_name]
  cases h : c.cur with
  | none => simp only [Cursor.type, h]; rfl
  | some n => cases n with | mk a ks => simp only [Cursor.type, h]; cases a <;> rfl

/-- **C83, different types, different names.** -/
theorem C83_names_distinct (c d : Cursor) : (typeToString c).1 = (typeToString d).1 ↔ c.type = d.type := by
  rw [C83_name, C83_name]
  have h : ∀ t u : PnType, typeWord t = typeWord u → t = u := by
    intro t u
    cases t <;> cases u <;> decide +kernel
  exact ⟨fun he => h _ _ (Res.ok.inj he), fun he => by rw [he]⟩

/-- **C83, kinds, what does hold.** A value counts as primitive exactly if it is of a scalar type other than null and
timestamp.  Missing: those two. -/
theorem C83_primitive_partial (c : Cursor) :
    ∃ b, isPrimitive c = (.ok b, c) ∧ (b = true ↔ Scalar c.type ∧ c.type ≠ .null ∧ c.type ≠ .timestamp) := by
  refine ⟨c.type.primitive, rfl, ?_⟩
  generalize c.type = t
  cases t <;> decide +kernel

/-- **C83, kinds, of values.** On a value the answer is the one for that value, on no value it is no.  Missing as
above. -/
theorem C83_primitive_value_partial (c : Cursor) :
    isPrimitive c = (.ok (match c.cur with | some (.mk a _) => singleValue a | none => false), c) := by
  show (Res.ok c.type.primitive, c) = _
  cases h : c.cur with
  | none => simp only [Cursor.type, h]; rfl
  | some n => cases n with | mk a ks => simp only [Cursor.type, h]; cases a <;> rfl

/-- **C83 fails for null and timestamps**: neither counts as primitive. -/
theorem C83_primitive_violated :
    ∀ a ∈ [Atom.null, Atom.timestamp 0], Scalar a.type ∧ (isPrimitive (Cursor.root (.mk a []))).1 = .ok false := by
  decide +kernel

example : (typeToString (Cursor.root (.mk (.ubyte 3) []))).1 = .ok "unsigned byte".toList := by decide +kernel
example : (isPrimitive (Cursor.root (.mk (.string []) []))).1 = .ok true := by decide +kernel
example : (isPrimitive (Cursor.root (.mk .list []))).1 = .ok false := by decide +kernel

#print axioms C83_name
#print axioms C83_value
#print axioms C83_primitive_value_partial
#print axioms C83_names_distinct
#print axioms C83_primitive_partial
#print axioms C83_primitive_violated

end Corda.Props
