import Verif.Props.Session
import Verif.Props.Tools

/-
C92: what inspecting any tree makes.
-/

namespace Corda.Props
open Corda Prog Spec FProg

/-! ### Processing -/

/-- **C92, processing.** Processing any types with the factory of the inspector has the outcome of learning one type after the
other: the same exception, the same undefined behaviour, or success. -/
theorem C92_prepare (leftFirst : Bool) (ls : List (List TypeNotation)) :
    (process leftFirst (Schema.make ls) (Factory.empty.installCustom 0 publicKeyType)).1
      = (fun _ => ()) <$> learnAll leftFirst onlyKeys ls.flatten := by
  have h := runs_all leftFirst ls.flatten tabled_inspector
  have hl := study_learn leftFirst ls.flatten newMemory rfl
  rw [show newMemory.table = onlyKeys from rfl] at hl
  unfold process
  rw [schema_make_types]
  rcases hs : studyAll leftFirst ls.flatten newMemory with ⟨r, M⟩
  rw [hs] at h hl
  cases hr : learnAll leftFirst onlyKeys ls.flatten with
  | ok T =>
    rw [hr] at hl
    obtain ⟨ds, hl⟩ := hl
    cases hl
    obtain ⟨a, F', h1, -⟩ := h
    rw [h1]; rfl
  | throw m =>
    rw [hr] at hl
    simp only at hl
    subst hl
    obtain ⟨F', h1, -⟩ := h
    rw [h1]; rfl
  | ub m =>
    rw [hr] at hl
    simp only at hl
    subst hl
    obtain ⟨F', h1⟩ := h
    rw [h1]; rfl

/-! ### Any tree -/

/-- **C92.** Inspecting any tree has the outcome described in the specification: the same text, the same exception or the same
undefined behaviour. -/
theorem C92_any (leftFirst : Bool) (c : Cursor) (n : Node) (hc : c.cur = some n) :
    inspect leftFirst c = (inspectionOf leftFirst n, c) := by
  refine Prod.ext ?_ (C26_inspect_cursor leftFirst c)
  exact (contents_any leftFirst tabled_inspector c n hc).1.trans (C93_first leftFirst n)

/-- **C92, no value under the cursor**: that is undefined. -/
theorem C92_none (leftFirst : Bool) (c : Cursor) (hc : c.cur = none) : inspect leftFirst c = (.ub "null envelope", c) := by
  refine Prod.ext ?_ (C26_inspect_cursor leftFirst c)
  have hr : (readEnvelope c).1 = .ub "null envelope" := by
    unfold readEnvelope
    have h1 : isDescribed c = (.ok false, c) := by simp [isDescribed, look, Cursor.type, hc]
    rw [bind_of_ok h1]
    rfl
  show (inspect leftFirst c).1 = _
  unfold inspect dumpContents
  rcases hx : readEnvelope c with ⟨r, c'⟩
  rw [hx] at hr
  simp only at hr
  subst hr
  rfl

/-- **C92, the bound on the nesting is no restriction**: anything from the height of the value gives the same. -/
theorem C92_depth (leftFirst : Bool) (ts : List TypeNotation) (T : Table) (d : Nat) (named : Bool) (t : Str) (n : Option Node)
    (h : depthOf n ≤ d) : textIn leftFirst ts T d named t n = textIn leftFirst ts T (depthOf n) named t n :=
  textIn_depth _ _ _ _ _ h (Nat.le_refl _)

/-- **C92, the blob inspector**: what it does with a file that has seven bytes, the number of the encoding, and an encoded tree. -/
theorem C92_tool (leftFirst : Bool) (sys : System) (path : Str) (hdr rest : List Byte) (n : Node) (hl : hdr.length = 7)
    (hf : sys.file path = some (hdr ++ 0 :: rest)) (hs : (hdr ++ 0 :: rest).length < 2 ^ 63)
    (hd : sys.decode rest = some (rest.length, n)) :
    blobInspector leftFirst sys [path] = match inspectionOf leftFirst n with
      | .ok s => .exit 0 (s ++ ['\n'])
      | .throw _ => .terminated
      | .ub w => .ub w := by
  unfold blobInspector
  simp only [hf]
  rw [loadAndDump_file ignoring_valid hl hf hs, if_pos (.inl rfl), if_pos (by decide), if_pos rfl, hd]
  simp only [if_true]
  rw [C92_any leftFirst (Cursor.root n) n rfl]
  cases inspectionOf leftFirst n <;> rfl

/-- **C92, the transforms do not matter**: whatever stands behind the schema, the outcome is the same. -/
theorem C92_transforms (leftFirst : Bool) (payload schema t t' : Node) :
    inspectionOf leftFirst (envelopeTree payload schema t) = inspectionOf leftFirst (envelopeTree payload schema t') := by
  have key : ∀ t, envelopeFrom (envelopeTree payload schema t) = (envelopeOf (elementIn schema.height) [payload, schema, payload]
      >>= fun e => match e with | .envelope s o => .ok (s, o) | _ => .ub "null envelope") := by
    intro t
    have hh : schema.height ≤ (envelopeTree payload schema t).height := by
      have h1 := height_kids (v := .list) (ks := [payload, schema, t]) (k := schema) (by simp)
      have h2 := height_kids (v := .described) (ks := [.mk (.ulong (cordaId 1)) [], .mk .list [payload, schema, t]])
        (k := .mk .list [payload, schema, t]) (by simp)
      show _ ≤ (Node.mk .described [.mk (.ulong (cordaId 1)) [], .mk .list [payload, schema, t]]).height
      omega
    have he : envelopeOf (elementIn (envelopeTree payload schema t).height) [payload, schema, t]
        = envelopeOf (elementIn schema.height) [payload, schema, payload] := by
      unfold envelopeOf
      show (describedParts (some payload) >>= fun ks => symbolOf (nth ks 0) >>= fun outer =>
        elementIn (envelopeTree payload schema t).height (some schema) >>= fun e => asKind theSchema e >>= fun s =>
          pure (Element.envelope s outer)) = _
      rw [C89_depth schema _ hh]
      rfl
    have hid : elementOf (elementIn (envelopeTree payload schema t).height) (cordaId 1) [payload, schema, t]
        = envelopeOf (elementIn (envelopeTree payload schema t).height) [payload, schema, t] := by
      unfold elementOf
      rw [if_neg (by decide), if_pos rfl]
    show (elementOf (elementIn (envelopeTree payload schema t).height) (cordaId 1) [payload, schema, t] >>= fun e =>
      match e with | .envelope s o => Res.ok (s, o) | _ => .ub "null envelope") = _
    rw [hid, he]
  have hp : payloadIn (envelopeTree payload schema t) = payloadIn (envelopeTree payload schema t') := rfl
  unfold inspectionOf
  rw [key t, key t', hp]

/-! ### Blobs no Corda node would write -/

private def cls (name fp : String) (fs : List (String × String)) : Node :=
  compositeTree name.toList [] [] fp.toList (fs.map fun f => fieldTree f.1.toList f.2.toList [] [] [] true false)
private def lst (name fp : String) : Node := restrictedTree name.toList [] [] "list".toList fp.toList []
private def obj (fp : String) (vs : List Node) : Node := described fp.toList (.mk .list vs)
private def num (k : Int) : Node := .mk (.int k) []
private def blob (types : List Node) (payload : Node) : Node := envelopeTree payload (schemaTree types) (.mk .null [])

/-- **C92, types that clash**: a class with the name of the type of its only property cannot be read; of two classes with one
name only one can be read, and the other leads to undefined behaviour; of two classes with one descriptor, one gives the names
and the other the types, and a text is shown as zero; a class with the name of the public keys is read as a public key. -/
theorem C92_clashes :
    inspectionOf true (blob [cls "int" "fp" [("a", "int")]] (obj "fp" [num 5])) = .throw "null field reader"
      ∧ inspectionOf true (blob [cls "A" "fp" [("a", "int")], cls "A" "fq" [("b", "int"), ("c", "int")]] (obj "fq" [num 5, num 6]))
        = .ok "{ Parsed : { b : 5, c : 6 } }".toList
      ∧ inspectionOf true (blob [cls "A" "fp" [("a", "int")], cls "A" "fq" [("b", "int"), ("c", "int")]] (obj "fp" [num 5]))
        = .ub "assert"
      ∧ inspectionOf true (blob [cls "A" "fp" [("a", "int")], cls "B" "fp" [("b", "string")]] (obj "fp" [str "x".toList]))
        = .ok "{ Parsed : { b : 0 } }".toList
      ∧ inspectionOf true (blob [cls "java.security.PublicKey" "fp" [("a", "int")]] (obj "fp" [num 5]))
        = .throw "Expected a binary type" := by decide +kernel

/-- **C92, types that are missing**: the type of a property, one that has no name, an element of a list, a primitive type that
cannot be read, the payload's own. -/
theorem C92_missing :
    inspectionOf true (blob [cls "A" "fp" [("a", "B")]] (obj "fp" [num 5])) = .throw "Can't find"
      ∧ inspectionOf true (blob [cls "A" "fp" [("a", "*")]] (obj "fp" [num 5])) = .ub "front of an empty list"
      ∧ inspectionOf true (blob [lst "java.util.List<B>" "fp"] (obj "fp" [num 5])) = .throw "Missing type in serialisers map"
      ∧ inspectionOf true (blob [lst "java.util.List<bool>" "fp"] (obj "fp" [num 5])) = .throw "THIS IS BAD"
      ∧ inspectionOf true (blob [cls "A" "fp" [("a", "int")]] (obj "fr" [num 5])) = .ub "assert" := by decide +kernel

/-- **C92, envelopes that are not what they should be**: without transforms; a map in place of the list; a payload that is not
described. -/
theorem C92_envelopes :
    inspectionOf true (element 1 [obj "fp" [num 5], schemaTree [cls "A" "fp" [("a", "int")]]]) = .ub "assert"
      ∧ inspectionOf true (.mk .described [.mk (.ulong (cordaId 1)) [], .mk .map [obj "fp" [num 5],
          schemaTree [cls "A" "fp" [("a", "int")]], .mk .null []]]) = .throw "Expected a List"
      ∧ inspectionOf true (blob [cls "A" "fp" [("a", "int")]] (num 5)) = .throw "Expected a Described type" := by decide +kernel

/-- A class that has a property of its own type, and a public key. -/
example : inspect true (Cursor.root (blob [cls "A" "fp" [("a", "A"), ("b", "java.security.PublicKey"), ("c", "int")]]
      (obj "fp" [.mk .null [], described "k".toList (.mk (.binary []) []), num 7])))
    = (.ok "{ Parsed : { a : <<NULL>>, b : <<<Public Key>>>, c : 7 } }".toList,
      Cursor.root (blob [cls "A" "fp" [("a", "A"), ("b", "java.security.PublicKey"), ("c", "int")]]
        (obj "fp" [.mk .null [], described "k".toList (.mk (.binary []) []), num 7]))) := by
  rw [C92_any _ _ _ rfl]
  refine Prod.ext ?_ rfl
  decide +kernel

#print axioms C92_prepare
#print axioms C92_any
#print axioms C92_none
#print axioms C92_depth
#print axioms C92_tool
#print axioms C92_transforms
#print axioms C92_clashes
#print axioms C92_missing
#print axioms C92_envelopes

end Corda.Props
