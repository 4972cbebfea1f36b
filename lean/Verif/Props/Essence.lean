import Verif.Spec.Essence
import Verif.Lemmas.Relabel
import Verif.Model.Listing

/-
C87: what the order of the types in a schema depends on.
-/

namespace Corda.Props
open Corda Spec

private theorem resolved_essence (f : Field) : (fieldEssence f).resolvedType = f.resolvedType := rfl

private theorem anyResolved_essence (n : Str) (fs : List Field) :
    anyResolved n (fs.map fieldEssence) = anyResolved n fs := by
  induction fs with
  | nil => rfl
  | cons f fs ih => simp only [List.map_cons, anyResolved, resolved_essence, ih]

private theorem anyDeep_essence (n : Str) (fs : List Field) : anyDeep n (fs.map fieldEssence) = anyDeep n fs := by
  induction fs with
  | nil => rfl
  | cons f fs ih =>
    have h1 : (fieldEssence f).AMQPType = f.AMQPType := rfl
    have h2 : (fieldEssence f).subTypes = f.subTypes := rfl
    simp only [List.map_cons, anyDeep, resolved_essence, h1, h2, ih]

/-- **C87, the answers.** Whether one type depends on another does not depend on anything else. -/
theorem C87_answers (a b : TypeNotation) : (essence a).dependsOn (essence b) = a.dependsOn b := by
  cases a with
  | comp x =>
    cases b with
    | comp y => simp only [essence, TypeNotation.dependsOn, Composite.rhsComposite, anyDeep_essence, anyResolved_essence]
    | restr y =>
      obtain ⟨n, l, p, d, k⟩ := y
      cases k <;>
        simp only [essence, TypeNotation.dependsOn, Restricted.rhsComposite, anyResolved_essence, kindEssence]
  | restr x =>
    obtain ⟨n, l, p, d, k⟩ := x
    cases b with
    | comp y =>
      cases k <;>
        simp only [essence, TypeNotation.dependsOn, Composite.rhsRestricted, anyResolved_essence, kindEssence, Restricted.elems] <;>
        rfl
    | restr y =>
      obtain ⟨n', l', p', d', k'⟩ := y
      cases k <;> cases k' <;> rfl

/-- **C87.** Two schemas whose types have the same essence, in the same order, end up in the same levels in the same
order, or fail in the same way. -/
theorem C87_order (ts us : List TypeNotation) (h : ts.map essence = us.map essence) :
    relabelR essence (insertAllR TypeNotation.dependsOn ts) = relabelR essence (insertAllR TypeNotation.dependsOn us) := by
  rw [← insertAllR_map C87_answers, ← insertAllR_map C87_answers, h]

private theorem name_essence (t : TypeNotation) : (essence t).name = t.name := by
  cases t <;> rfl

theorem printLevels_essence (ls : List (List TypeNotation)) : printLevels (relabel essence ls) = printLevels ls := by
  have h : (relabel essence ls).map (List.map TypeNotation.name) = ls.map (List.map TypeNotation.name) := by
    simp only [relabel, List.map_map]
    refine List.map_congr_left fun l _ => ?_
    simp only [Function.comp, List.map_map]
    exact List.map_congr_left fun t _ => name_essence t
  rw [printLevels, h, printLevels]

/-- **C87, the listing.** They are also listed alike. -/
theorem C87_listing (ts us : List TypeNotation) (h : ts.map essence = us.map essence) :
    (insertAllR TypeNotation.dependsOn ts).bind (fun ls => .ok (printLevels ls))
      = (insertAllR TypeNotation.dependsOn us).bind (fun ls => .ok (printLevels ls)) := by
  have h1 := C87_order ts us h
  revert h1
  cases insertAllR TypeNotation.dependsOn ts <;> cases insertAllR TypeNotation.dependsOn us <;>
    simp only [relabelR, Res.bind] <;> intro h1
  case ok.ok =>
    injection h1 with h1
    rw [← printLevels_essence, h1, printLevels_essence]
  all_goals first | (injection h1; done) | (injection h1 with h1; rw [h1])

/-! A composite that needs a list, under other labels, fingerprints and names of properties. -/

private def holder (label fp field : String) : TypeNotation := .comp ⟨"net.H".toList, label.toList, [], fp.toList,
  [⟨.restricted, field.toList, "*".toList, ["java.util.List<int>".toList], [], [], true, false,
    ["java.util.List<int>".toList, "int".toList]⟩]⟩
private def ints (label fp : String) : TypeNotation :=
  .restr ⟨"java.util.List<int>".toList, label.toList, [], fp.toList, .list "int".toList⟩

example : [holder "a" "f1" "x", ints "b" "f2"].map essence = [holder "c" "f3" "y", ints "" "f4"].map essence := by
  decide +kernel

example : insertAllR TypeNotation.dependsOn [holder "a" "f1" "x", ints "b" "f2"]
      = .ok [[ints "b" "f2"], [holder "a" "f1" "x"]]
    ∧ insertAllR TypeNotation.dependsOn [holder "c" "f3" "y", ints "" "f4"]
      = .ok [[ints "" "f4"], [holder "c" "f3" "y"]] := by
  decide +kernel

/-- Names do matter: a holder of a list of another name. -/
example : (essence (ints "" "")) ≠ essence (.restr ⟨"java.util.List<long>".toList, [], [], [], .list "long".toList⟩) := by
  decide +kernel

#print axioms C87_answers
#print axioms C87_order
#print axioms C87_listing

end Corda.Props
