import Verif.Spec.Shown

/-
When the objects of a graph are of the classes a schema describes.
-/

namespace Corda.Spec
open Corda

/-- The class a description is of. -/
def ClassDesc.use (d : ClassDesc) : ClassUse :=
  (d.key, match d.body with
    | .inl _ => none
    | .inr s => some s)

/-- Every object in the graph is of one of the classes; a composite writes just the properties its class lists, in that order; and
there is an object of every class. -/
structure Conforms (ds : List ClassDesc) (o : Obj) : Prop where
  known : ∀ u ∈ classes o, u ∈ ds.map ClassDesc.use
  used : ∀ d ∈ ds, d.use ∈ classes o
  props : ∀ a ∈ shapes o, (⟨a.1, .inl a.2⟩ : ClassDesc) ∈ ds

/-- The classes are in the order of their names and fingerprints, the properties of each in the order of their names. -/
structure InAlphabet (ds : List ClassDesc) : Prop where
  classes : ds.Pairwise fun a b => keyLt a.key b.key = true
  props : ∀ d ∈ ds, ∀ ps, d.body = .inl ps → ps.Pairwise fun a b => strLt a.name b.name = true

/-- `InAlphabet`, computed. -/
def inAlphabet (ds : List ClassDesc) : Bool :=
  decide (ds.Pairwise fun a b => keyLt a.key b.key = true) && ds.all fun d =>
    match d.body with
    | .inl ps => decide (ps.Pairwise fun a b => strLt a.name b.name = true)
    | .inr _ => true

theorem inAlphabet_iff (ds : List ClassDesc) : inAlphabet ds = true ↔ InAlphabet ds := by
  unfold inAlphabet
  rw [Bool.and_eq_true, decide_eq_true_eq, List.all_eq_true]
  constructor
  · rintro ⟨h1, h2⟩
    refine ⟨h1, fun d hd ps hb => ?_⟩
    have := h2 d hd
    rw [hb] at this
    exact decide_eq_true_eq.mp this
  · rintro ⟨h1, h2⟩
    refine ⟨h1, fun d hd => ?_⟩
    cases hb : d.body with
    | inl ps => exact decide_eq_true_eq.mpr (h2 d hd ps hb)
    | inr s => rfl

end Corda.Spec
