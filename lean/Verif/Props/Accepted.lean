import Verif.Lemmas.Accepted
import Verif.Props.Descriptors

/-
C82: which trees are accepted as a schema, and what is made of them.
-/

namespace Corda.Props
open Corda Corda.Prog Corda.Spec

/-- **C82.** Whatever the tree, the envelope reader succeeds exactly if the tree stands for an envelope (`anEnvelope`),
every type described in it can be constructed and they can be put in order; then it returns the schema of those types
and the payload's descriptor. -/
theorem C82_accepted (c : Cursor) (n : Node) (hc : c.cur = some n) (s : Schema) (o : Str) :
    (readEnvelope c).1 = .ok (s, o) ↔ ∃ ps ts ls, anEnvelope n = some (ps, o) ∧ Each TypePart.Makes ps ts
      ∧ insertAllR TypeNotation.dependsOn ts = .ok ls ∧ s = Schema.make ls := readEnvelope_ok hc s o

/-- **C82, what the schema then holds**: exactly the types described. -/
theorem C82_content (c : Cursor) (n : Node) (hc : c.cur = some n) (s : Schema) (o : Str)
    (h : (readEnvelope c).1 = .ok (s, o)) :
    ∃ ps ts, anEnvelope n = some (ps, o) ∧ Each TypePart.Makes ps ts ∧ s.types.flatten.Perm ts := by
  obtain ⟨ps, ts, ls, h1, h2, h3, rfl⟩ := (C82_accepted c n hc s o).mp h
  exact ⟨ps, ts, h1, h2, by rw [schema_make_types]; exact (C11_schema_types ts ls h3).1⟩

/-- The proper encoding of a field. -/
def fieldEncoding (p : FieldPart) : Node :=
  fieldTree p.name p.type p.requires p.default p.label p.mandatory p.multiple

/-- The proper encoding of a type. -/
def typeEncoding : TypePart → Node
  | .comp name label provides fp fields => compositeTree name label provides fp (fields.map fieldEncoding)
  | .restr name label provides source fp choices =>
    restrictedTree name label provides source fp (choices.map fun s => choiceTree s [])

private theorem parts_element (k : Nat) (ps : List Node) : elementParts k (element k ps) = some ps := by
  simp [elementParts, element, Node.val, Node.kids, nth, parts]

private theorem every_map {α β : Type} (f : Node → Option β) (g : α → Node) (h : α → β) (as : List α)
    (hf : ∀ a ∈ as, f (g a) = some (h a)) : every f (as.map g) = some (as.map h) := by
  induction as with
  | nil => rfl
  | cons a as ih =>
    rw [List.map_cons, every, hf a (by simp), ih fun b hb => hf b (by simp [hb])]
    rfl

private theorem strings_in (ss : List Str) : within (fun m => aString (some m)) (some (strList ss)) = some ss := by
  rw [within, strList, Node.kids, every_map _ _ id ss fun s _ => rfl, List.map_id]

private theorem aString_str (s : Str) : aString (some (str s)) = some s := rfl

private theorem aStringOrNull_str (s : Str) : aStringOrNull (some (str s)) = some s := rfl

private theorem field_decodes (p : FieldPart) : aField (fieldEncoding p) = some p := by
  rw [aField, fieldEncoding, fieldTree, parts_element]
  have := strings_in p.requires
  simp [nth, aString_str, aStringOrNull_str, aFlag, this]

private theorem fingerprint_decodes (fp : Str) : aFingerprint (objectTree fp) = some fp := by
  rw [aFingerprint, objectTree, parts_element]
  simp [nth, sym, aSymbol]

private theorem choice_decodes (s : Str) : aChoice (choiceTree s []) = some s := by
  rw [aChoice, choiceTree, parts_element]
  simp [nth, str, aString]

private theorem type_decodes (p : TypePart) : aType (typeEncoding p) = some p := by
  cases p with
  | comp name label provides fp fields =>
    have h1 := strings_in provides
    have h2 : within aField (some (.mk .list (fields.map fieldEncoding))) = some fields := by
      rw [within, Node.kids, every_map _ _ id fields fun s _ => field_decodes s, List.map_id]
    rw [aType, aComposite, typeEncoding, compositeTree, parts_element]
    simp [nth, aString_str, aStringOrNull_str, h1, h2, fingerprint_decodes]
  | restr name label provides source fp choices =>
    have h1 := strings_in provides
    have h2 : within aChoice (some (.mk .list (choices.map fun s => choiceTree s []))) = some choices := by
      rw [within, Node.kids, every_map _ _ id choices fun s _ => choice_decodes s, List.map_id]
    have h3 : aComposite (typeEncoding (.restr name label provides source fp choices)) = none := by
      rw [aComposite]
      have : elementParts 5 (typeEncoding (.restr name label provides source fp choices)) = none := by
        simp [elementParts, typeEncoding, restrictedTree, element, Node.val, Node.kids, nth, cordaId]
      rw [this]
      rfl
    rw [aType, h3]
    simp only
    rw [aRestricted, typeEncoding, restrictedTree, parts_element]
    simp [nth, str, aWord, aWordOrNull, h1, h2, fingerprint_decodes]

/-- **C82, proper encodings** of any types whatever stand for those types. -/
theorem C82_proper (ps : List TypePart) (o : Str) (body : List Node) (x : Node) :
    anEnvelope (envelopeTree (payloadTree o body) (schemaTree (ps.map typeEncoding)) x) = some (ps, o) := by
  have h1 : aSchema (schemaTree (ps.map typeEncoding)) = some ps := by
    rw [aSchema, schemaTree, parts_element]
    simp only [Option.bind_eq_bind, Option.bind_some, List.flatMap_cons, List.flatMap_nil, List.append_nil, Node.kids]
    rw [every_map _ _ id ps fun p _ => type_decodes p, List.map_id]
  have h2 : aPayload (payloadTree o body) = some o := by
    simp [aPayload, payloadTree, Node.val, Node.kids, nth, sym, aSymbol]
  rw [anEnvelope, envelopeTree, parts_element]
  simp [nth, h1, h2]

/-- **C82, nothing else is read**: an accepted tree, however odd, gives what the proper encoding of what it stands for
gives. -/
theorem C82_as_proper (c : Cursor) (n : Node) (hc : c.cur = some n) (s : Schema) (o : Str)
    (h : (readEnvelope c).1 = .ok (s, o)) :
    ∃ ps, anEnvelope n = some (ps, o) ∧ ∀ body x,
      (readEnvelope (Cursor.root (envelopeTree (payloadTree o body) (schemaTree (ps.map typeEncoding)) x))).1
        = .ok (s, o) := by
  obtain ⟨ps, ts, ls, h1, h2⟩ := (C82_accepted c n hc s o).mp h
  exact ⟨ps, h1, fun body x => (C82_accepted _ _ rfl s o).mpr ⟨ps, ts, ls, C82_proper ps o body x, h2⟩⟩

/-- An envelope around one class with the given field. -/
def oneField (f : Node) : Node :=
  envelopeTree (payloadTree "fp".toList []) (schemaTree [compositeTree "A".toList [] [] "fp".toList [f]]) (.mk .null [])

/-- A field description that ends too early. -/
def shortField : Node :=
  element 4 [str "a".toList, str "int".toList, strList [], str [], str [], .mk (.bool true) []]

/-- A field description with an integer in place of the list of requirements and something behind its end. -/
def oddField : Node :=
  element 4 [str "a".toList, str "int".toList, .mk (.int 7) [], .mk .null [], str [], .mk (.bool true) [],
    .mk (.bool false) [], .mk (.int 8) []]

/-- **C82 fails for the intended reading, in which only proper encodings stand for a schema**: a field description
without its last part is read as if the one before stood there too, and one with a number instead of a list and
surplus parts as if it had neither. -/
theorem C82_only_proper_violated :
    (readEnvelope (Cursor.root (oneField shortField))).1
      = (readEnvelope (Cursor.root (oneField (fieldTree "a".toList "int".toList [] [] [] true true)))).1
    ∧ (readEnvelope (Cursor.root (oneField oddField))).1
      = (readEnvelope (Cursor.root (oneField (fieldTree "a".toList "int".toList [] [] [] true false)))).1
    ∧ (∀ n ∈ [oneField shortField, oneField oddField],
      (readEnvelope (Cursor.root n)).1.Defined ∧ ¬ (readEnvelope (Cursor.root n)).1.Throws) := by
  decide +kernel

/-! A tree that stands for nothing: the last but one part missing as well, so that a text is where a truth value must
be. -/

example : anEnvelope (oneField (element 4 [str "a".toList, str "int".toList, strList [], str [], str []])) = none := by
  decide +kernel
example : anEnvelope (oneField shortField)
    = some ([.comp "A".toList [] [] "fp".toList [⟨"a".toList, "int".toList, [], [], [], true, true⟩]], "fp".toList) := by
  decide +kernel

#print axioms C82_accepted
#print axioms C82_content
#print axioms C82_proper
#print axioms C82_as_proper
#print axioms C82_only_proper_violated

end Corda.Props
