import Verif.Props.Meaning

/-
C42 for every list: what is shown of elements of primitive types that are null, and of null lists in lists.
-/

namespace Corda.Props
open Corda Corda.Spec Prog

/-- What is shown of any list: the texts of its elements, each read as a value of the type of the elements; if one cannot be shown nothing is. -/
private theorem list_text (leftFirst : Bool) (ds : List TypeDesc) (ts : List TypeNotation) (h : Describe ds ts)
    (r : Restricted) (hr : .restr r ∈ ts) (l : Str) (hk : r.kind = .list l ∨ r.kind = .array l) (es : List Node) :
    ∃ k, (∀ e ∈ es, e.height ≤ k + 1) ∧ (inspect leftFirst (blobOf ds (described r.descriptor (.mk .list es)))).1
      = (fun xs => "{ Parsed : ".toList ++ brackets xs ++ " }".toList)
        <$> all (es.map fun e => textAs leftFirst ts (k + 1) false l (some e)) := by
  have e0 : inspect leftFirst (blobOf ds (described r.descriptor (.mk .list es))) = _ :=
    C77_blob leftFirst ds ts h r.descriptor [.mk .list es]
  rw [e0]
  show ∃ k, _ ∧ payloadText _ _ _ (described r.descriptor (.mk .list es)) = _
  unfold payloadText
  have hs := h.sensible
  have hne : r.name ≠ keyType := hs.notCustom _ hr
  have hnr : r.name ∉ readable := (hs.plain _ hr).1
  rw [find_restr hs.descriptors hr]
  simp only [TypeNotation.name]
  obtain ⟨k, hk'⟩ : ∃ k, (described r.descriptor (.mk .list es)).height = k + 2 := by
    have h1 := height_kids (v := .described) (ks := [.mk (.symbol r.descriptor) [], .mk .list es]) (k := .mk .list es) (by simp)
    have h2 := height_pos (.mk .list es)
    have h3 : (described r.descriptor (.mk .list es)).height = (Node.mk .described [.mk (.symbol r.descriptor) [], .mk .list es]).height := rfl
    exact ⟨(described r.descriptor (.mk .list es)).height - 2, by omega⟩
  refine ⟨k, fun e he => ?_, ?_⟩
  · have := height_described (d := r.descriptor) (a := .list) (ks := es) (k := e) he
    omega
  have h2 : textOf (nth [.mk (.symbol r.descriptor) [], .mk .list es] 0) = .ok r.descriptor := rfl
  have h3 : typeWith ts r.descriptor = .ok (.restr r) := by
    unfold typeWith; rw [find_restr hs.descriptors hr]
  have hb : body ts (some (described r.descriptor (.mk .list es))) = .ok (some (.mk .list es)) := by
    unfold body
    rw [show describedParts (some (described r.descriptor (.mk .list es))) =
      .ok [.mk (.symbol r.descriptor) [], .mk .list es] from rfl]
    simp only [Res.bind_eq, Res.bind, h2, h3]
    rfl
  have hl : listTexts ts (textAs leftFirst ts (k + 1)) l (some (described r.descriptor (.mk .list es))) =
      all (es.map fun e => textAs leftFirst ts (k + 1) false l (some e)) := by
    unfold listTexts
    rw [hb]
    rfl
  rw [hk', textAs, if_neg hne, (primNamed_eq r.name).2.mpr hnr, named_restr hs.names hr]
  rcases hk with hk | hk <;> simp only [hk, hl] <;> cases all (es.map fun e => textAs leftFirst ts (k + 1) false l (some e)) <;> rfl

/-- What a null of a primitive type is taken for; there is nothing for a text or a `float`. -/
def takenFor : PrimReader → Option Atom
  | .int => some (.int 0)
  | .long => some (.long 0)
  | .double => some (.double 0)
  | .boolean => some (.bool false)
  | .binary => some (.binary [])
  | .string => none
  | .float => none

private theorem prim_not_key (l : Str) (p : PrimReader) (h : primNamed l = some p) : l ≠ keyType := by
  rintro rfl
  have : primNamed keyType = none := by decide
  rw [this] at h
  cases h

/-- **C42 is violated by every list of numbers, truth values or bytes with nulls**: such a list is shown exactly as the list with zeros (false, no bytes) in
the places of the nulls; whatever else is in it. -/
theorem C42_zeros_violated (leftFirst : Bool) (ds : List TypeDesc) (ts : List TypeNotation) (h : Describe ds ts)
    (r : Restricted) (hr : .restr r ∈ ts) (l : Str) (hk : r.kind = .list l ∨ r.kind = .array l) (p : PrimReader) (hp : primNamed l = some p)
    (zero : Atom) (hz : takenFor p = some zero) (es : List (Option Node)) :
    (inspect leftFirst (blobOf ds (described r.descriptor (.mk .list (es.map fun e => e.getD (.mk .null [])))))).1
      = (inspect leftFirst (blobOf ds (described r.descriptor (.mk .list (es.map fun e => e.getD (.mk zero [])))))).1 := by
  obtain ⟨k, -, h1⟩ := list_text leftFirst ds ts h r hr l hk (es.map fun e => e.getD (.mk .null []))
  obtain ⟨k', -, h2⟩ := list_text leftFirst ds ts h r hr l hk (es.map fun e => e.getD (.mk zero []))
  rw [h1, h2]
  congr 1
  rw [List.map_map, List.map_map]
  refine all_congr fun e _ => ?_
  simp only [Function.comp, textAs, if_neg (prim_not_key l p hp), hp]
  cases e with
  | some n => rfl
  | none => cases p <;> cases hz <;> rfl

/-- **C42 is violated by every list of texts with a null**: nothing is shown of the others either. -/
theorem C42_texts_violated (leftFirst : Bool) (ds : List TypeDesc) (ts : List TypeNotation) (h : Describe ds ts)
    (r : Restricted) (hr : .restr r ∈ ts) (hk : r.kind = .list "string".toList ∨ r.kind = .array "string".toList) (es : List Node)
    (hn : .mk .null [] ∈ es) : (inspect leftFirst (blobOf ds (described r.descriptor (.mk .list es)))).1.Throws := by
  obtain ⟨k, -, h1⟩ := list_text leftFirst ds ts h r hr _ hk es
  rw [h1]
  have hp : primNamed "string".toList = some .string := by decide
  have hne : "string".toList ≠ keyType := prim_not_key _ _ hp
  have key : ∀ es : List Node, .mk .null [] ∈ es →
      all (es.map fun e => textAs leftFirst ts (k + 1) false "string".toList (some e)) = .throw "Expected a String but found" := by
    intro es
    induction es with
    | nil => intro h; cases h
    | cons e es ih =>
      intro hm
      rw [List.map_cons, all]
      have he : textAs leftFirst ts (k + 1) false "string".toList (some e) = primText .string (some e) := by
        rw [textAs, if_neg hne, hp]
      rw [he]
      cases hv : primText .string (some e) with
      | ok a =>
        rcases List.mem_cons.mp hm with rfl | hm'
        · cases hv
        · rw [ih hm']; rfl
      | throw m =>
        unfold primText at hv
        simp only at hv
        split at hv <;> cases hv
        rfl
      | ub m =>
        unfold primText at hv
        simp only at hv
        split at hv <;> cases hv
  rw [key es hn]
  trivial

/-- **C42 is violated by every list of lists, maps or enumeration constants with a null**: nothing is shown of it. -/
theorem C42_containers_violated (leftFirst : Bool) (ds : List TypeDesc) (ts : List TypeNotation) (h : Describe ds ts)
    (r q : Restricted) (hr : .restr r ∈ ts) (hq : .restr q ∈ ts) (hk : r.kind = .list q.name ∨ r.kind = .array q.name) (es : List Node)
    (hn : .mk .null [] ∈ es) (text : Str) : (inspect leftFirst (blobOf ds (described r.descriptor (.mk .list es)))).1 ≠ .ok text := by
  obtain ⟨k, -, h1⟩ := list_text leftFirst ds ts h r hr _ hk es
  rw [h1]
  have hs := h.sensible
  have hne : q.name ≠ keyType := hs.notCustom _ hq
  have hnr : q.name ∉ readable := (hs.plain _ hq).1
  intro hx
  cases ha : all (es.map fun e => textAs leftFirst ts (k + 1) false q.name (some e)) with
  | ok as =>
    refine all_not_ok (List.mem_map_of_mem (f := fun e => textAs leftFirst ts (k + 1) false q.name (some e)) hn) ?_ as ha
    intro a
    rw [textAs, if_neg hne, (primNamed_eq q.name).2.mpr hnr, named_restr hs.names hq]
    cases hkind : q.kind <;> simp only [hkind] <;> intro hb <;> cases hb
  | throw m => rw [ha] at hx; cases hx
  | ub m => rw [ha] at hx; cases hx

/-! ### Examples -/

/-- A list of three numbers, of which the first and the last are null. -/
example : (inspect true (blobOf [intListT] (described "fpL".toList (.mk .list [.mk .null [], .mk (.int 7) [], .mk .null []])))).1
    = .ok "{ Parsed : [ 0, 7, 0 ] }".toList := by decide +kernel

/-- A list of two texts, of which the second is null. -/
example : (inspect true (blobOf [textListT] (described "fpL".toList (.mk .list [.mk (.string "a".toList) [], .mk .null []])))).1.Throws := by
  decide +kernel

/-- What a null is taken for, for the words of the schema. -/
example : (["int", "long", "double", "boolean", "binary"].map fun w => (primNamed w.toList).bind takenFor)
    = [some (.int 0), some (.long 0), some (.double 0), some (.bool false), some (.binary [])] := by decide

#print axioms C42_zeros_violated
#print axioms C42_texts_violated
#print axioms C42_containers_violated

end Corda.Props
