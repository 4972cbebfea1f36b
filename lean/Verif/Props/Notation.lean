import Verif.Model.Notation
import Verif.Props.Listing

/-
C79, continued: printing a type of which only the common base class is known.
-/

namespace Corda.Props
open Corda Corda.Spec

/-- All texts that are printed of a type are without line feeds. -/
def OneLineNotation : TypeNotation → Prop
  | .comp c => OneLineComposite c
  | .restr r => OneLine r.name ∧ OneLine r.label ∧ OneLine r.descriptor ∧ ∀ p ∈ r.provides, OneLine p

private theorem heads (t : TypeNotation) (h : OneLineNotation t) :
    (headings (printNotation t))[3]? = some (match t with | .comp _ => "fields     : ".toList | .restr _ => "source     : ".toList) := by
  cases t with
  | comp c =>
    rw [printNotation, C79_composite_headings_partial c h]
    rfl
  | restr r =>
    obtain ⟨h1, h2, h3, h4⟩ := h
    rw [printNotation, C79_restricted_headings_partial r h1 h2 h3 h4]
    rfl

private theorem starts (t : TypeNotation) (h : OneLineNotation t) :
    ∃ label rest, columns (printNotation t) = [t.name, label, t.descriptor] ++ rest := by
  cases t with
  | comp c =>
    rw [printNotation, C79_composite_partial c h]
    exact ⟨c.label, c.fields.map fieldLine ++ [[]], by rw [List.append_assoc]; rfl⟩
  | restr r =>
    obtain ⟨h1, h2, h3, h4⟩ := h
    rw [printNotation, C79_restricted_partial r h1 h2 h3 h4]
    exact ⟨r.label, _, by simp only [List.cons_append, List.nil_append]; rfl⟩

/-- **C79, any type**: two types that print alike have the same name and the same fingerprint, and both are classes or neither is. -/
theorem C79_notation_partial (s t : TypeNotation) (hs : OneLineNotation s) (ht : OneLineNotation t) (h : printNotation s = printNotation t) :
    s.name = t.name ∧ s.descriptor = t.descriptor ∧ ((∃ c, s = .comp c) ↔ ∃ c, t = .comp c) := by
  obtain ⟨l, r, e⟩ := starts s hs
  obtain ⟨l', r', e'⟩ := starts t ht
  rw [h, e'] at e
  have k := heads s hs
  rw [h, heads t ht] at k
  simp only [List.cons_append, List.nil_append, List.cons.injEq] at e
  refine ⟨e.1.symm, e.2.2.1.symm, ?_⟩
  have ne : "fields     : ".toList ≠ "source     : ".toList := by decide
  cases s with
  | comp c =>
    cases t with
    | comp c' => exact ⟨fun _ => ⟨c', rfl⟩, fun _ => ⟨c, rfl⟩⟩
    | restr r' => exact absurd (Option.some.inj k).symm ne
  | restr r =>
    cases t with
    | comp c' => exact absurd (Option.some.inj k) ne
    | restr r' => exact ⟨fun ⟨_, x⟩ => (by cases x), fun ⟨_, x⟩ => (by cases x)⟩

/-- **C79, any type**: what is printed is what the derived class prints. -/
theorem C79_notation (t : TypeNotation) :
    printNotation t = (match t with | .comp c => printComposite c | .restr r => printRestricted r)
      ∧ ∀ x : Str, printChoice x = x ∧ printDescriptor x = x := by
  refine ⟨by cases t <;> rfl, fun x => ⟨rfl, rfl⟩⟩

/-- A class and an enumeration of the same name and fingerprint. -/
example : printNotation (.restr ⟨"A".toList, [], [], "fp".toList, .enum []⟩)
    ≠ printNotation (.comp { name := "A".toList, label := [], provides := [], descriptor := "fp".toList, fields := [] }) := by decide +kernel

#print axioms C79_notation_partial
#print axioms C79_notation

end Corda.Props
