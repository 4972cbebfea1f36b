import Verif.Lemmas.InspectListing
import Verif.Props.Tools
import Verif.Props.Readers

/-
C100: the standard output of the blob inspector as a whole.
-/

namespace Corda.Props
open Corda Prog Spec

/-! ### The lines -/

private theorem install_line (p : Paths) : installLine p = installSaid (p .factory) := by
  unfold installLine traceLine installSaid
  rw [show natStr 364 = "364".toList by decide]
  simp only [List.append_assoc]; rfl

private theorem envelope_line (p : Paths) : traceLine (p .envelopeDescriptor) 106 "ENVELOPE".toList = envelopeSaid (p .envelopeDescriptor) := by
  unfold traceLine envelopeSaid
  rw [show natStr 106 = "106".toList by decide]
  simp only [List.append_assoc]; rfl

private theorem type_line (p : Paths) (d n : Str) :
    traceLine (p .schema) 47 ("Schema: ".toList ++ d ++ " ".toList ++ n) = typeSaid (p .schema) d n := by
  unfold traceLine typeSaid
  rw [show natStr 47 = "47".toList by decide]
  simp only [List.append_assoc]; rfl

private theorem reader_line (p : Paths) (n : Str) : traceLine (p .factory) 108 ("process::".toList ++ n) = readerSaid (p .factory) n := by
  unfold traceLine readerSaid
  rw [show natStr 108 = "108".toList by decide]
  simp only [List.append_assoc]; rfl

private theorem levels_text : ∀ (ls : List (List Str)) (i : Nat), printLevelsFrom i ls = (ls.zipIdx (i + 1)).flatMap (fun l =>
    "level ".toList ++ Nat.toDigits 10 l.2 ++ "\n".toList ++ l.1.flatMap (fun n => "    * ".toList ++ n ++ "\n".toList) ++ "\n".toList)
  | [], _ => rfl
  | l :: ls, i => by
    rw [List.zipIdx_cons, List.flatMap_cons, ← levels_text ls (i + 1)]
    rfl

private theorem listing_line (p : Paths) (ls : List (List TypeNotation)) :
    TProg.listing p ls = listingSaid (p .schemaDescriptor) (ls.map (List.map TypeNotation.name)) := by
  unfold TProg.listing traceLine listingSaid printLevels
  rw [levels_text, show natStr 55 = "55".toList by decide]
  simp only [List.append_assoc]; rfl

/-! ### The tool -/

/-- **C100, the end.** The trace changes nothing about how the blob inspector ends. -/
theorem C100_end (p : Paths) (leftFirst : Bool) (sys : System) (args : List Str) :
    (blobInspectorOutput p leftFirst sys args).1 = blobInspector leftFirst sys args := blobInspectorOutput_fst p leftFirst sys args

/-- The dump and a line end, if there is a dump. -/
def dumpPiece : Res Str → List Str
  | .ok s => [s ++ "\n".toList]
  | _ => []

/-- **C100, the output.** What the blob inspector prints when given a file with a blob: the trace of the inspection, and if there is a dump, the
dump and a line end after it. -/
theorem C100_output (p : Paths) (leftFirst : Bool) (sys : System) (hs : FilesFit sys) (path : Str) (n : Node) (h : HoldsBlobAnyHeader sys path n) :
    (blobInspectorOutput p leftFirst sys [path]).2 = (inspectTold p leftFirst (Cursor.root n)).2
      ++ dumpPiece (inspect leftFirst (Cursor.root n)).1 := by
  obtain ⟨hdr, payload, hh, hf, hd⟩ := h
  unfold blobInspectorOutput
  simp only [hf]
  unfold loadAndInspect
  have hl : CordaBytes.load { ignoreHeader := true } (sys.file path) = .ok ⟨0, payload.length, payload⟩ := by
    rw [hf, load_eq { ignoreHeader := true } ignoring_valid hdr hh 0 payload (hs _ _ hf)]
    simp
  have hk : AMQPBlob.make sys ⟨0, payload.length, payload⟩ = .ok (Cursor.root n) := by
    unfold AMQPBlob.make
    simp only [hd, if_true]
  rw [hl]
  simp only [if_true, hk]
  rw [← inspectTold_fst p leftFirst (Cursor.root n)]
  rcases inspectTold p leftFirst (Cursor.root n) with ⟨r, o⟩
  cases r <;> simp [nl, dumpPiece]

/-- **C100, silence.** When the blob inspector is not given a file with a blob, whatever is wrong, it prints nothing on standard output. -/
theorem C100_silent (p : Paths) (leftFirst : Bool) (sys : System) (hs : FilesFit sys) (args : List Str)
    (h : ¬ ∃ path n, args = [path] ∧ HoldsBlobAnyHeader sys path n) : (blobInspectorOutput p leftFirst sys args).2 = [] := by
  match args with
  | [] => rfl
  | _ :: _ :: _ => rfl
  | [path] =>
    unfold blobInspectorOutput
    simp only
    cases hf : sys.file path with
    | none => rfl
    | some b =>
      simp only
      unfold loadAndInspect
      rw [hf]
      by_cases h8 : 8 ≤ b.length
      · obtain ⟨hdr, e, rest, rfl, hl⟩ : ∃ hdr e rest, b = hdr ++ e :: rest ∧ hdr.length = 7 := by
          refine ⟨b.take 7, b[7]'(by omega), b.drop 8, ?_, by simp; omega⟩
          have h1 : b.take 7 ++ b.drop 7 = b := List.take_append_drop 7 b
          rw [List.drop_eq_getElem_cons (by omega : 7 < b.length)] at h1
          exact h1.symm
        rw [load_eq { ignoreHeader := true } ignoring_valid hdr hl e rest (hs _ _ hf), if_pos (.inl rfl)]
        by_cases h2 : e.toNat ≤ 2
        · rw [if_pos h2]
          simp only
          by_cases h3 : e = 0
          · rw [if_pos h3]
            unfold AMQPBlob.make
            simp only
            cases hd : sys.decode rest with
            | none => rfl
            | some x =>
              obtain ⟨u, n⟩ := x
              simp only
              by_cases h4 : u = rest.length
              · subst h4
                subst h3
                exact absurd ⟨path, n, rfl, hdr, rest, hl, hf, hd⟩ h
              · rw [if_neg h4]
          · rw [if_neg h3]
        · rw [if_neg h2]
          split <;> rename_i hx <;> split at hx <;> cases hx <;> rfl
      · have hno := load_short_not_ok ignoring_valid (b := b) (by omega)
        cases hx : CordaBytes.load { ignoreHeader := true } (some b) with
        | ok x => exact absurd hx (hno x)
        | throw m => rfl
        | ub m => rfl

/-! ### Nothing but the dump -/

private theorem contents_parts (p : Paths) (lf : Bool) {c : Cursor} {d : Str} (h : (inspect lf c).1 = .ok d) :
    ∃ s o t o1 o2 o3, (TProg.readEnvelope p c).1.1 = .ok (s, o) ∧ (TProg.readEnvelope p c).2 = o1 ∧
      o1 = envelopeSaid (p .envelopeDescriptor) :: t ∧
      (TFProg.process p (fun _ => publicKeyName) lf s (Factory.empty.installCustom 0 publicKeyType)).1.1 = .ok () ∧
      (TFProg.process p (fun _ => publicKeyName) lf s (Factory.empty.installCustom 0 publicKeyType)).2 = o2 ∧
      (inspectTold p lf c).2 = installSaid (p .factory) :: (o1 ++ o2 ++ o3) := by
  rw [← inspectTold_fst p lf c] at h
  have ha := announced_readEnvelope p c
  rw [envelope_line] at ha
  unfold inspectTold TProg.dumpContents at h ⊢
  rw [install_line]
  revert h ha
  rcases hr : TProg.readEnvelope p c with ⟨⟨r, c'⟩, o1⟩
  intro h ha
  cases r with
  | throw m => exact nomatch h
  | ub m => exact nomatch h
  | ok x =>
    obtain ⟨t, ht⟩ := ha x rfl
    obtain ⟨s, o⟩ := x
    simp only at h ht ⊢
    rcases hp : TFProg.process p (fun _ => publicKeyName) lf s (Factory.empty.installCustom 0 publicKeyType) with ⟨⟨r, F⟩, o2⟩
    rw [hp] at h
    cases r with
    | throw m => exact nomatch h
    | ub m => exact nomatch h
    | ok _ =>
      simp only at h ⊢
      cases hi : F.findDesc o with
      | none => rw [hi] at h; exact nomatch h
      | some i => exact ⟨s, o, t, o1, o2, _, rfl, rfl, ht, by rw [hp], by rw [hp], rfl⟩

/-- **C100, the dump never comes alone.** Whenever the blob inspector succeeds, the line of the serialiser for public keys and that of the
envelope come first and the dump last: standard output as a whole is never the dump and a line end. -/
theorem C100_never_alone (p : Paths) (leftFirst : Bool) (sys : System) (hs : FilesFit sys) (path out : Str)
    (h : blobInspector leftFirst sys [path] = .exit 0 out) :
    (∃ rest, (blobInspectorOutput p leftFirst sys [path]).2
        = installSaid (p .factory) :: envelopeSaid (p .envelopeDescriptor) :: rest ++ [out])
      ∧ (blobInspectorOutput p leftFirst sys [path]).2.flatten ≠ out := by
  obtain ⟨path', n, s, ha, hb, hd, rfl⟩ := (C68_blob_inspector leftFirst sys hs _ out).mp h
  simp only [List.cons.injEq, and_true] at ha
  subst ha
  obtain ⟨_, _, t, o1, o2, o3, -, -, h1, -, -, h2⟩ := contents_parts p leftFirst hd
  have ho := C100_output p leftFirst sys hs path n hb
  rw [h2, hd, h1] at ho
  refine ⟨⟨t ++ o2 ++ o3, by rw [ho]; simp [dumpPiece]⟩, fun he => ?_⟩
  have := congrArg List.length he
  rw [ho] at this
  unfold installSaid at this
  simp [dumpPiece] at this
  omega

/-! ### What the trace tells of the values -/

/-- **C100, what is hidden.** Two files whose blobs have the same envelope and schema, and payloads of the same shape, with the same types,
descriptors and ints, but otherwise any values: the blob inspector prints the same trace for both, and ends both in the same way; of the standard output only the dump
at the end differs. -/
theorem C100_hidden (p : Paths) (leftFirst : Bool) (sys sys' : System) (hs : FilesFit sys) (hs' : FilesFit sys') (path path' : Str)
    (pay pay' sch : Node) (rest : List Node)
    (h : HoldsBlobAnyHeader sys path (element 1 (pay :: sch :: rest))) (h' : HoldsBlobAnyHeader sys' path' (element 1 (pay' :: sch :: rest)))
    (hh : hide pay = hide pay') :
    ∃ trace, (blobInspectorOutput p leftFirst sys [path]).2 = trace ++ dumpPiece (inspect leftFirst (Cursor.root (element 1 (pay :: sch :: rest)))).1
      ∧ (blobInspectorOutput p leftFirst sys' [path']).2 = trace ++ dumpPiece (inspect leftFirst (Cursor.root (element 1 (pay' :: sch :: rest)))).1
      ∧ SameEnd (inspect leftFirst (Cursor.root (element 1 (pay :: sch :: rest)))).1 (inspect leftFirst (Cursor.root (element 1 (pay' :: sch :: rest)))).1 := by
  have key := inspectTold_blind (d := .mk (.ulong (descId ENVELOPE)) []) (sch := sch) (rest := rest) (more := []) p leftFirst rfl hh
  have e : ∀ x, envelopeOf (.mk (.ulong (descId ENVELOPE)) []) x sch rest [] = element 1 (x :: sch :: rest) := fun _ => rfl
  rw [e, e] at key
  refine ⟨(inspectTold p leftFirst (Cursor.root (element 1 (pay :: sch :: rest)))).2, C100_output p leftFirst sys hs path _ h, ?_, ?_⟩
  · rw [C100_output p leftFirst sys' hs' path' _ h', key.1]
  · rw [← inspectTold_fst p, ← inspectTold_fst p]
    exact key.2

/-- **C100, ints are told.** The reader of an int in a field prints the number. -/
theorem C100_int_told (p : Paths) (name : Str) (v : Int) (c : Cursor) (h : c.cur = some (.mk (.int v) [])) :
    intSaid (p .intReader) (decimal v) ∈ (TProg.propertyDump p (some name) .int c).2 := by
  have e : Prog.propertyText .int c = (.ok (intStr v), c.next.2) := by
    have : readInt32 c = (.ok v, c.next.2) := by simp only [readInt32, autoNext, look, getInt, Cursor.val, h, Option.map_some, Node.val]
    rw [propertyText, bind_of_ok this, pure_def]
  have el : traceLine (p .intReader) 43 ("    -> ".toList ++ intStr v) = intSaid (p .intReader) (decimal v) := by
    unfold traceLine intSaid
    rw [show natStr 43 = "43".toList by decide, intStr_eq]
    simp only [List.append_assoc]; rfl
  have hk : ∀ c', (TProg.quiet (Prog.propertyText .int) >>= fun t => do
      TProg.dbg (p .intReader) 43 ("    -> ".toList ++ t)
      pure (Prog.text (some name) t) : TProg Val) c = c' → traceLine (p .intReader) 43 ("    -> ".toList ++ intStr v) ∈ c'.2 := by
    intro c' hc
    rw [← hc, TProg.bind_def]
    unfold TProg.quiet
    rw [e]
    exact List.mem_cons_self
  rw [← el]
  exact List.mem_cons_of_mem _ (List.mem_cons_of_mem _ (hk _ rfl))

/-! ### The listings -/

/-- **C100, the schema.** Whenever the blob inspector succeeds, it has printed, in this order: after each type read, all types read so far, in
their levels, the last time all types of the schema; then each type of the schema with its descriptor, in the order of the schema, without a line between them; then
a line for each type when its reader is made, in the same order. -/
theorem C100_schema (p : Paths) (leftFirst : Bool) (sys : System) (hs : FilesFit sys) (path out : Str)
    (h : blobInspector leftFirst sys [path] = .exit 0 out) :
    ∃ n s o states before after, HoldsBlobAnyHeader sys path n ∧ (readEnvelope (Cursor.root n)).1 = .ok (s, o) ∧ Grows [] states s.types ∧
      (blobInspectorOutput p leftFirst sys [path]).2
        = before ++ s.types.flatten.map (fun t => typeSaid (p .schema) t.descriptor t.name) ++ after ∧
      (states.map fun b => listingSaid (p .schemaDescriptor) (b.map (List.map TypeNotation.name))).Sublist before ∧
      (s.types.flatten.map fun t => readerSaid (p .factory) t.name).Sublist after := by
  obtain ⟨path', n, d, ha, hb, hd, rfl⟩ := (C68_blob_inspector leftFirst sys hs _ out).mp h
  simp only [List.cons.injEq, and_true] at ha
  subst ha
  obtain ⟨s, o, t, o1, o2, o3, hr, ho1, -, hp, ho2, h2⟩ := contents_parts p leftFirst hd
  have ho := C100_output p leftFirst sys hs path n hb
  rw [h2] at ho
  obtain ⟨bs, p1, p2, p3, hg, hsub, he, hp2⟩ := told_readEnvelope p _ _ hr
  rw [ho1] at he
  have hproc : (s.types.flatten.map fun t => readerSaid (p .factory) t.name).Sublist o2 := by
    have := told_processAll p (fun _ => publicKeyName) leftFirst s.types.flatten (Factory.empty.installCustom 0 publicKeyType) hp
    rw [List.map_congr_left fun t _ => reader_line p t.name] at this
    rw [← ho2]
    exact this.trans (List.sublist_append_right _ _)
  refine ⟨n, s, o, bs, installSaid (p .factory) :: p1, p3 ++ o2 ++ o3 ++ dumpPiece (inspect leftFirst (Cursor.root n)).1, hb, ?_, hg, ?_, ?_, ?_⟩
  · rw [← TProg.erase_readEnvelope p, hr]
  · have hp3 : p2 = s.types.flatten.map fun t => typeSaid (p .schema) t.descriptor t.name :=
      hp2.trans (List.map_congr_left fun t _ => type_line p t.descriptor t.name)
    rw [ho, he, hp3]
    simp only [List.cons_append, List.append_assoc]
  · rw [show TProg.listing p = fun b => listingSaid (p .schemaDescriptor) (b.map (List.map TypeNotation.name)) from funext (listing_line p)] at hsub
    exact hsub.cons _
  · rw [List.append_assoc]
    exact (hproc.trans (List.sublist_append_right _ _)).trans (List.sublist_append_left _ _)

/-- **C100, the output is quadratic.** A successful inspection of a blob whose schema has `n` types prints at least `7 · n (n + 1) / 2` characters, however
short their names and however small the payload. -/
theorem C100_quadratic (p : Paths) (leftFirst : Bool) (sys : System) (hs : FilesFit sys) (path out : Str)
    (h : blobInspector leftFirst sys [path] = .exit 0 out) :
    ∃ n s o, HoldsBlobAnyHeader sys path n ∧ (readEnvelope (Cursor.root n)).1 = .ok (s, o) ∧
      7 * (s.types.flatten.length * (s.types.flatten.length + 1)) ≤ 2 * (blobInspectorOutput p leftFirst sys [path]).2.flatten.length := by
  obtain ⟨path', n, d, ha, hb, hd, rfl⟩ := (C68_blob_inspector leftFirst sys hs _ out).mp h
  simp only [List.cons.injEq, and_true] at ha
  subst ha
  obtain ⟨s, o, t, o1, o2, o3, hr, ho1, -, hp, ho2, h2⟩ := contents_parts p leftFirst hd
  have ho := C100_output p leftFirst sys hs path n hb
  rw [h2] at ho
  have hq := toldSchema_length (told_readEnvelope p _ _ hr)
  refine ⟨n, s, o, hb, ?_, ?_⟩
  · rw [← TProg.erase_readEnvelope p, hr]
  · rw [ho]
    rw [ho1] at hq
    simp only [List.cons_append, List.flatten_cons, List.flatten_append, List.length_append] at hq ⊢
    omega

/-! ### Examples -/

private def here : Paths := fun _ => "f".toList

/-- A class `A` with an int, a string and a long. -/
private def aD : TypeDesc := .comp "A".toList [] [] "fpA".toList
  [⟨"i".toList, "int".toList, [], [], [], true, false⟩, ⟨"s".toList, "string".toList, [], [], [], true, false⟩,
   ⟨"l".toList, "long".toList, [], [], [], true, false⟩]

private def aV (i : Int) (s : String) (l : Int) : Node := valTree (.obj "fpA".toList ["i".toList, "s".toList, "l".toList] [.int i, .str s.toList, .long l])

private def aSystem (i : Int) (s : String) (l : Int) : System :=
  oneFile (magic ++ [0, 1, 2]) 2 (envelopeTree (aV i s l) (schemaTree [aD.tree]) (.mk .null []))

/-- The trace, without the dump. -/
private def traceOf (i : Int) (s : String) (l : Int) : List Str := (blobInspectorOutput here true (aSystem i s l) ["f".toList]).2.dropLast

example : blobInspector true (aSystem 7 "x" 8) ["f".toList] = .exit 0 "{ Parsed : { i : 7, s : \"x\", l : 8 } }\n".toList := by decide +kernel

/-- The first two pieces, one of the listings, the lines of the type, of the int, and the dump at the end. -/
example : let out := (blobInspectorOutput here true (aSystem 7 "x" 8) ["f".toList]).2
    out.take 2 = ["[f::364] installCustomSerialiser::Public Key serialiser::java.security.PublicKey\n".toList, "[f::106] ENVELOPE\n".toList]
    ∧ "[f::55] =======\nlevel 1\n    * A\n\n======\n".toList ∈ out ∧ "[f::47] Schema: fpA A\n".toList ∈ out ∧ "[f::108] process::A\n".toList ∈ out
    ∧ "[f::43]     -> 7\n".toList ∈ out ∧ out.getLast? = some "{ Parsed : { i : 7, s : \"x\", l : 8 } }\n".toList := by decide +kernel

private theorem a_fits (i : Int) (s : String) (l : Int) : FilesFit (aSystem i s l) := by
  intro _ b hb
  have e : b = magic ++ [0, 1, 2] := (Option.some.inj hb).symm
  have : b.length = 10 := by rw [e]; rfl
  omega

private theorem a_holds (i : Int) (s : String) (l : Int) : HoldsBlobAnyHeader (aSystem i s l) "f".toList
    (element 1 (aV i s l :: schemaTree [aD.tree] :: [.mk .null []])) := ⟨magic, [1, 2], rfl, rfl, rfl⟩

private theorem a_hidden (i : Int) (s s' : String) (l l' : Int) : hide (aV i s l) = hide (aV i s' l') := by
  simp [aV, valTree, valTrees, described, hide, hideAll, hideTail, hideAtom]

/-- The texts and the long may be anything. -/
example (s s' : String) (l l' : Int) : ∃ t, (blobInspectorOutput here true (aSystem 7 s l) ["f".toList]).2 = t ++ dumpPiece (inspect true
      (Cursor.root (element 1 (aV 7 s l :: schemaTree [aD.tree] :: [.mk .null []])))).1
    ∧ (blobInspectorOutput here true (aSystem 7 s' l') ["f".toList]).2 = t ++ dumpPiece (inspect true
      (Cursor.root (element 1 (aV 7 s' l' :: schemaTree [aD.tree] :: [.mk .null []])))).1 := by
  obtain ⟨t, h1, h2, -⟩ := C100_hidden here true _ _ (a_fits 7 s l) (a_fits 7 s' l') _ _ _ _ _ _ (a_holds 7 s l) (a_holds 7 s' l')
    (a_hidden 7 s s' l l')
  exact ⟨t, h1, h2⟩

/-- **C100, the trace is not blind to ints**: another int, another trace. -/
theorem C100_ints_differ : traceOf 7 "x" 8 ≠ traceOf 9 "x" 8 := by decide +kernel

/-- With a bad argument nothing is printed. -/
example : (blobInspectorOutput here true (aSystem 7 "x" 8) []).2 = [] := rfl

#print axioms C100_end
#print axioms C100_output
#print axioms C100_silent
#print axioms C100_never_alone
#print axioms C100_hidden
#print axioms C100_int_told
#print axioms C100_ints_differ
#print axioms C100_schema
#print axioms C100_quadratic

end Corda.Props
