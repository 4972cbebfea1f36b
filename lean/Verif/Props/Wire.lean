import Verif.Lemmas.WireWriter
import Verif.Props.RoundTrip
import Verif.Props.Tools

/-
C71, C72: the tools with the wire format of AMQP in place of an arbitrary decoder.
-/

namespace Corda.Props
open Corda Corda.Prog Corda.Spec

/-- The system with these files and the AMQP decoder. -/
def amqpSystem (file : Str → Option (List Byte)) : System := ⟨file, Wire.decode⟩

/-- The system with one file. -/
def holding (b : List Byte) : System := amqpSystem fun _ => some b

/-! ### C71: the encoding -/

/-- **C71, decoding**: whatever form was chosen for each value, the decoder finds the tree and the end of it. -/
theorem C71_decoded {bs : List Byte} {n : Node} (h : Encodes bs n) (rest : List Byte) :
    Wire.decode (bs ++ rest) = some (bs.length, n) := by
  have hv := Wire.enc_back h (bs ++ rest).length (by simp) rest
  simp only at hv
  cases hb : bs ++ rest with
  | nil => rw [hb] at hv; cases hv
  | cons c r =>
    rw [hb] at hv
    simp only [Wire.value] at hv
    simp only [Wire.decode, hv, Option.map_some]
    have : (bs ++ rest).length = (c :: r).length := by rw [hb]
    rw [List.length_append] at this
    rw [← this]
    simp

private theorem decoded {bs : List Byte} {n : Node} (h : Encodes bs n) : Wire.decode bs = some (bs.length, n) := by
  simpa using C71_decoded h []

/-- **C71, no ambiguity**: an encoding does not continue an encoding, and encodes one tree only. -/
theorem C71_prefix_free {bs rest : List Byte} {n m : Node} (h : Encodes bs n) (h' : Encodes (bs ++ rest) m) : rest = [] ∧ n = m := by
  have h1 := C71_decoded h rest
  rw [decoded h'] at h1
  simp only [Option.some.injEq, Prod.mk.injEq, List.length_append] at h1
  exact ⟨List.length_eq_zero_iff.mp (by omega), h1.2.symm⟩

/-- **C71, existence**: trees without arrays with values in range have an encoding, if it is not too long. -/
theorem C71_encodable {n : Node} (h : Proper n) (hl : (wide n).length < 2 ^ 32) : ∃ bs, Encodes bs n := ⟨_, Wire.wide_encodes h hl⟩

/-- **C71, truncation**: what is left of an encoding when bytes at the end are missing does not decode. -/
theorem C71_truncated {bs p x : List Byte} {n : Node} (h : Encodes bs n) (hp : bs = p ++ x) (hx : x ≠ []) : Wire.decode p = none := by
  subst hp
  cases p with
  | nil => rfl
  | cons c r =>
    cases hd : Wire.body (c :: r).length c r with
    | none => simp only [Wire.decode, hd, Option.map_none]
    | some y =>
      obtain ⟨m, rest⟩ := y
      have h1 := Wire.body_more (g := (c :: r ++ x).length) x (by simp) hd
      have h2 := Wire.enc_back h (c :: r ++ x).length (Nat.le_refl _) []
      simp only [List.append_nil, List.cons_append, Wire.value] at h2
      rw [List.cons_append, h2] at h1
      simp only [Option.some.injEq, Prod.mk.injEq] at h1
      have := congrArg List.length h1.2
      simp only [List.length_nil, List.length_append] at this
      exact absurd (List.length_eq_zero_iff.mp (by omega)) hx

/-- **C71**: two encodings of a tree behind the same eight bytes are treated alike by all three tools. -/
theorem C71_encoding_irrelevant (leftFirst : Bool) {b1 b2 : List Byte} {n : Node} (h1 : Encodes b1 n) (h2 : Encodes b2 n)
    (hdr : List Byte) (e : Byte) (hl : hdr.length = 7) (hs1 : b1.length < 2 ^ 62) (hs2 : b2.length < 2 ^ 62) (path flag : Str) :
    dataDumper (holding (hdr ++ e :: b1)) [path] = dataDumper (holding (hdr ++ e :: b2)) [path]
    ∧ schemaDumper (holding (hdr ++ e :: b1)) [path, flag] = schemaDumper (holding (hdr ++ e :: b2)) [path, flag]
    ∧ blobInspector leftFirst (holding (hdr ++ e :: b1)) [path] = blobInspector leftFirst (holding (hdr ++ e :: b2)) [path] := by
  have key : ∀ {cfg : AMQPConfig}, ValidConfig cfg → ∀ dump,
      loadAndDump cfg (holding (hdr ++ e :: b1)) path dump = loadAndDump cfg (holding (hdr ++ e :: b2)) path dump := by
    intro cfg hc dump
    rw [loadAndDump_file hc hl (rest := b1) rfl (by simp only [List.length_append, List.length_cons]; omega),
      loadAndDump_file hc hl (rest := b2) rfl (by simp only [List.length_append, List.length_cons]; omega)]
    simp only [holding, amqpSystem, decoded h1, decoded h2, if_true]
  have hf1 : (holding (hdr ++ e :: b1)).file path = some (hdr ++ e :: b1) := rfl
  have hf2 : (holding (hdr ++ e :: b2)).file path = some (hdr ++ e :: b2) := rfl
  refine ⟨?_, ?_, ?_⟩
  · simp only [dataDumper, hf1, hf2, key default_valid]
  · simp only [schemaDumper, hf1, hf2, key default_valid]
  · simp only [blobInspector, hf1, hf2, key ignoring_valid]

/-- The modes of the schema dumper. -/
private theorem schema_ub {b : List Byte} {path : Str} {w : String}
    (h : ∀ dump, loadAndDump {} (holding b) path dump = .ub w) (flag : Str) (hf : flag = "avro".toList ∨ flag = "raw".toList) :
    schemaDumper (holding b) [path, flag] = .ub w := by
  have hfile : (holding b).file path = some b := rfl
  rcases hf with rfl | rfl
  · simp only [schemaDumper, hfile, h, catchRuntime, if_true]
  · simp only [schemaDumper, hfile, h, catchRuntime, if_true]
    rw [if_neg (by decide)]

private theorem data_ub {b : List Byte} {path : Str} {w : String} (h : ∀ dump, loadAndDump {} (holding b) path dump = .ub w) :
    dataDumper (holding b) [path] = .ub w := by
  have hfile : (holding b).file path = some b := rfl
  simp only [dataDumper, hfile, h, catchRuntime]

private theorem inspector_ub {leftFirst : Bool} {b : List Byte} {path : Str} {w : String}
    (h : ∀ dump, loadAndDump { ignoreHeader := true } (holding b) path dump = .ub w) :
    blobInspector leftFirst (holding b) [path] = .ub w := by
  have hfile : (holding b).file path = some b := rfl
  simp only [blobInspector, hfile, h, uncaught]

/-- **C69 fails for every file of the wrong length**: if bytes of an encoding are missing at the end or there are bytes too many, all three tools run into the assertion
of AMQPBlob.cxx:40. -/
theorem C69_wrong_length_violated (leftFirst : Bool) {bs b : List Byte} {n : Node} (h : Encodes bs n)
    (hb : (∃ x, x ≠ [] ∧ bs = b ++ x) ∨ ∃ x, x ≠ [] ∧ b = bs ++ x) (hs : b.length < 2 ^ 62) (path flag : Str)
    (hf : flag = "avro".toList ∨ flag = "raw".toList) :
    dataDumper (holding (magic ++ 0 :: b)) [path] = .ub "assert"
    ∧ schemaDumper (holding (magic ++ 0 :: b)) [path, flag] = .ub "assert"
    ∧ blobInspector leftFirst (holding (magic ++ 0 :: b)) [path] = .ub "assert" := by
  have hd : Wire.decode b = none ∨ ∃ k m, k ≠ b.length ∧ Wire.decode b = some (k, m) := by
    rcases hb with ⟨x, hx, hb⟩ | ⟨x, hx, rfl⟩
    · exact .inl (C71_truncated h hb hx)
    · refine .inr ⟨_, _, ?_, C71_decoded h x⟩
      have : x.length ≠ 0 := fun h => hx (List.length_eq_zero_iff.mp h)
      rw [List.length_append]; omega
  have key : ∀ {cfg : AMQPConfig}, ValidConfig cfg → ∀ dump, loadAndDump cfg (holding (magic ++ 0 :: b)) path dump = .ub "assert" := by
    intro cfg hc dump
    rw [loadAndDump_file hc magic_length (rest := b) rfl (by simp only [List.length_append, List.length_cons, magic_length]; omega)]
    rw [if_pos (.inr rfl), if_pos (by decide), if_pos rfl]
    simp only [holding, amqpSystem]
    rcases hd with hd | ⟨k, m, hk, hd⟩
    · rw [hd]
    · rw [hd]; simp only [if_neg hk]
  exact ⟨data_ub (key default_valid), schema_ub (key default_valid) flag hf, inspector_ub (key ignoring_valid)⟩

/-- Different forms of the same numbers, texts and lists. -/
example : Encodes [0x52, 7] (.mk (.uint 7) []) ∧ Encodes [0x70, 0, 0, 0, 7] (.mk (.uint 7) [])
    ∧ Encodes (0x55 :: bytesSigned 1 (-1)) (.mk (.long (-1)) []) ∧ Encodes (0x81 :: bytesSigned 8 (-1)) (.mk (.long (-1)) [])
    ∧ Encodes [0xa1, 2, 104, 105] (.mk (.string "hi".toList) []) ∧ Encodes [0xb1, 0, 0, 0, 2, 104, 105] (.mk (.string "hi".toList) [])
    ∧ Encodes [0x45] (.mk .list []) ∧ Encodes [0xc0, 1, 0] (.mk .list []) :=
  ⟨.value _ _ _ (.fixed _ _ _ (.smalluint 7 (by decide))), .value _ _ _ (.fixed _ _ _ (.uint 7 (by decide))),
   .value _ _ _ (.fixed _ _ _ (.smalllong (-1) (by unfold Signed; decide))), .value _ _ _ (.fixed _ _ _ (.long (-1) (by unfold Signed; decide))),
   .value _ _ _ (.text _ 1 _ "hi".toList .str8 (by unfold ByteText; decide) (by decide)),
   .value _ _ _ (.text _ 4 _ "hi".toList .str32 (by unfold ByteText; decide) (by decide)),
   .value _ _ _ .list0, .value _ _ _ (.compound _ 1 _ [] .list8 (fun _ h => by cases h) (fun h => by cases h) (by decide) (by decide))⟩

example : bytesSigned 1 (-1) = [0xff] ∧ bytesSigned 2 (-2) = [0xff, 0xfe] ∧ bytesBE 4 258 = [0, 0, 1, 2] := by decide +kernel

/-! ### C72: from an object to a file and back -/

/-- **C72, encodable**: whatever object is serialised, the result has an encoding, if names, texts and numbers have the sizes C++ and
AMQP give them. -/
theorem C72_encodable {o : Obj} (h : ObjFits o) {n : Node} (hw : serialise o = .ok [n]) (hl : (wide n).length < 2 ^ 32) :
    ∃ bytes, Encodes bytes n ∧ bytes.length < 2 ^ 32 :=
  ⟨_, Wire.wide_encodes (proper_written h hw) hl, hl⟩

private theorem saved (bytes : List Byte) : (CordaBytes.ofBlob bytes).toFile = magic ++ 0 :: bytes := by
  have : (AMQP_HEADERS[1]'(by decide)).take 7 = magic := by decide
  simp [CordaBytes.toFile, CordaBytes.ofBlob, this]

/-- Reading an object of a class from a file: load it, make the blob, deserialise. -/
def readFile (sys : System) (path : Str) (p : PropShape) : Res RVal := do
  let cb ← CordaBytes.load {} (sys.file path)
  let c ← AMQPBlob.make sys cb
  (deserialise p c).1

private theorem readFile_saved {bytes : List Byte} {n : Node} (h : Encodes bytes n) (hs : bytes.length < 2 ^ 62) (path : Str) (p : PropShape) :
    readFile (holding (CordaBytes.ofBlob bytes).toFile) path p = (deserialise p (Cursor.root n)).1 := by
  have hl : CordaBytes.load {} ((holding (magic ++ 0 :: bytes)).file path) = .ok { encoding := 0, size := bytes.length, blob := bytes } := by
    have := load_eq {} default_valid magic magic_length 0 bytes (by simp only [List.length_append, List.length_cons, magic_length]; omega)
    rw [if_pos (.inr rfl), if_pos (by decide)] at this
    exact this
  have hm : AMQPBlob.make (holding (magic ++ 0 :: bytes)) { encoding := 0, size := bytes.length, blob := bytes } = .ok (Cursor.root n) := by
    simp only [AMQPBlob.make, holding, amqpSystem, decoded h, if_true]
  rw [saved]
  unfold readFile
  rw [hl]
  simp only [Res.bind_eq, Res.bind, hm]

/-- **C72, round trip through a file**: an object a class can read, without pointers to
characters, is serialised; whatever encoding of the result is saved with
`toFile`, loading the file and reading the class from it gives the object back.  Strings end at the first NUL and characters are read
as 32-bit numbers (`received`, see C33, C35). -/
theorem C72_round_trip (s : Shape) (o : Obj) (ptr : Bool) (h : Matches s o) (hn : NoCharPointers o) (v : RVal)
    (hv : valueWith received o = some v) :
    ∃ n, serialise o = .ok [n] ∧ ∀ bytes, Encodes bytes n → bytes.length < 2 ^ 62 → ∀ path,
      readFile (holding (CordaBytes.ofBlob bytes).toFile) path (.obj ptr s) = .ok v := by
  obtain ⟨n, h1, h2⟩ := C33_what_comes_back s o ptr h hn v hv
  exact ⟨n, h1, fun bytes hb hs path => by rw [readFile_saved hb hs, h2]⟩

private theorem holding_fits {b : List Byte} (h : b.length < 2 ^ 63) : FilesFit (holding b) := by
  intro p c hc
  cases hc
  exact h

/-- **C72, inspecting the file**: an object with members of the primitive types the inspector can show, written in alphabetical order
of their names, is serialised; whatever encoding of the result is saved, the blob inspector shows the members. -/
theorem C72_inspected (leftFirst : Bool) (n f : Str) (ps : List (Str × Bool × Prim)) (hn : n ∉ readable)
    (hk : n ≠ publicKeyType) (hp : ∀ x ∈ ps, Prim.shows x.2.2) (ho : ps.Pairwise fun a b => strLt a.1 b.1 = true) :
    ∃ node, serialise (.comp n f (primMembers ps)) = .ok [node] ∧
      ∀ bytes, Encodes bytes node → bytes.length < 2 ^ 62 → ∀ path,
        blobInspector leftFirst (holding (CordaBytes.ofBlob bytes).toFile) [path] = .exit 0 ("{ Parsed : ".toList ++
          braces (ps.map fun x => colon x.1 (shown (primVal x.2.2))) ++ " }".toList ++ ['\n']) := by
  obtain ⟨node, h1, h2⟩ := C70_flat_object leftFirst n f ps hn hk hp ho
  refine ⟨node, h1, fun bytes hb hs path => h2 _ path bytes (holding_fits ?_) rfl (decoded hb)⟩
  rw [saved]
  simp only [List.length_append, List.length_cons, magic_length]
  omega

private def anObject : Obj := .comp "net.A".toList "fpA".toList [.prim "i".toList false (.int (-5)), .prim "s".toList true (.string "hi".toList)]

private def fileOf (o : Obj) : List Byte := match serialise o with
  | .ok [n] => (CordaBytes.ofBlob (wide n)).toFile
  | _ => []

/-- The file of an object with an `int` and a text, read back and inspected. -/
example : ObjFits anObject := by
  refine ⟨fits_lit (by decide), fits_lit (by decide), ⟨fits_lit (by decide), ?_⟩, ⟨fits_lit (by decide), fits_lit (by decide)⟩, trivial⟩
  simp only [PrimFits, Signed]
  decide
example : readFile (holding (fileOf anObject)) [] (.obj false (.mk [.prim false .int, .prim true .string]))
    = .ok (.obj [.prim (.int (-5)), .prim (.string "hi".toList)]) := by decide +kernel
example : blobInspector true (holding (fileOf anObject)) [[]] = .exit 0 "{ Parsed : { i : -5, s : \"hi\" } }\n".toList := by decide +kernel
example : dataDumper (holding (fileOf anObject ++ [64])) [[]] = .ub "assert" := by decide +kernel

#print axioms C71_decoded
#print axioms C71_prefix_free
#print axioms C71_encodable
#print axioms C71_truncated
#print axioms C71_encoding_irrelevant
#print axioms C69_wrong_length_violated
#print axioms C72_encodable
#print axioms C72_round_trip
#print axioms C72_inspected

end Corda.Props
