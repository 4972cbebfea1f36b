import Verif.Props.CutOff
import Verif.Spec.Saving

/-
C119: what is on the disk when a program has saved an object, and what the other programs then make of it.
-/

namespace Corda.Props
open Corda Corda.Spec Corda.Programs

/-! ### The stream -/

private theorem take_self (l : List Byte) (k : Nat) : l.take k = l ↔ l.length ≤ k := by
  refine ⟨fun h => ?_, List.take_of_length_le⟩
  have := congrArg List.length h
  rw [List.length_take] at this
  omega

private theorem three_writes (k : Nat) (a b c : List Byte) :
    ((((⟨k, true, []⟩ : OFile).write a).write b).write c).bytes = (a ++ b ++ c).take k := by
  simp only [OFile.write, if_true, List.nil_append]
  by_cases h1 : a.length ≤ k
  · simp only [h1, decide_true, if_true]
    by_cases h2 : b.length ≤ k - a.length
    · simp only [h2, decide_true, if_true]
      rw [List.take_of_length_le h1, List.take_of_length_le h2, List.take_append, List.take_of_length_le (l := a ++ b) (by simp; omega),
        List.length_append, Nat.sub_sub]
    · simp only [h2, decide_false, Bool.false_eq_true, if_false]
      rw [List.take_of_length_le h1, List.take_append_of_le_length (by simp; omega), List.take_append, List.take_of_length_le h1]
  · simp only [h1, decide_false, Bool.false_eq_true, if_false]
    rw [List.append_assoc, List.take_append_of_le_length (by omega)]

private theorem toFileOn_eq (d : Disk) (encoded : List Byte) (path : Str) :
    toFileOn d (CordaBytes.ofBlob encoded) path = leftOn d path (wholeFile encoded) := by
  have hm : (AMQP_HEADERS[1]'(by decide)).take 7 = magic := by decide
  funext p
  unfold toFileOn leftOn
  cases d.room path with
  | none =>
    simp only
    split
    · rename_i h; rw [h]
    · rfl
  | some k =>
    simp only [three_writes, hm, CordaBytes.ofBlob, List.take_length, wholeFile, List.append_assoc, List.singleton_append]

/-! ### C119: what is left -/

/-- **C119, what a program that writes does**: on every disk, for every object that can be serialised and every name.  It reports success, prints what is
said when the object is made, serialised and saved, and leaves of the file what there was room for. -/
theorem C119_run (w : Compiled) (f : ProgFiles) (encode : Node → List Byte) (d : Disk) (made : List Str) (o : Obj) (path : Str) (n : Node)
    (h : serialise o = .ok [n]) :
    (writerOn w f encode d made o [path]).ended = .exit 0 []
      ∧ (writerOn w f encode d made o [path]).out = made ++ (serialiseTold w o).2 ++ [savingLine f path]
      ∧ (writerOn w f encode d made o [path]).files = leftOn d path (wholeFile (encode n)) := by
  have h1 : (serialiseTold w o).1 = .ok [n] := by rw [C102_end, h]
  unfold writerOn
  simp only
  generalize serialiseTold w o = x at h1 ⊢
  obtain ⟨y, out⟩ := x
  cases h1
  exact ⟨rfl, rfl, toFileOn_eq d _ path⟩

/-- **C119, otherwise**: a program that writes and does not report success has changed no file. -/
theorem C119_unchanged (w : Compiled) (f : ProgFiles) (encode : Node → List Byte) (d : Disk) (made : List Str) (o : Obj) (args : List Str)
    (h : ∀ text, (writerOn w f encode d made o args).ended ≠ .exit 0 text) : (writerOn w f encode d made o args).files = d.files := by
  unfold writerOn at h ⊢
  match args with
  | [] => rfl
  | _ :: _ :: _ => rfl
  | [path] =>
    simp only at h ⊢
    split at h
    · exact absurd rfl (h [])
    all_goals simp_all

/-- **C119, the disk makes no difference to the program**: how it ends and what it prints is as if there were room for everything. -/
theorem C119_told (w : Compiled) (f : ProgFiles) (world : World) (d : Disk) (made : List Str) (o : Obj) (args : List Str) :
    (writerOn w f world.encode d made o args).ended = (writerMain w f world made o args).ended
      ∧ (writerOn w f world.encode d made o args).out = (writerMain w f world made o args).out := by
  unfold writerOn writerMain
  match args with
  | [] => exact ⟨rfl, rfl⟩
  | _ :: _ :: _ => exact ⟨rfl, rfl⟩
  | [path] =>
    simp only
    split <;> simp_all

/-- **C119, the programs that write and read**: they end and print as if there were room for everything, and leave the same as those that only write. -/
theorem C119_round_trip (w : Compiled) (r : ReadCompiled) (f : ProgFiles) (world : World) (d : Disk) (made : List Str) (o : Obj) (between : List Str)
    (p : NProp) (shown : RVal → List Str) (args : List Str) :
    (roundTripOn w r f world.encode d made o between p shown args).ended = (roundTripMain w r f world made o between p shown args).ended
      ∧ (roundTripOn w r f world.encode d made o between p shown args).out = (roundTripMain w r f world made o between p shown args).out
      ∧ (args = [] → (roundTripOn w r f world.encode d made o between p shown args).files
          = (writerOn w f world.encode d made o ["serialized.bin".toList]).files)
      ∧ (args ≠ [] → (roundTripOn w r f world.encode d made o between p shown args).files = d.files) := by
  unfold roundTripOn roundTripMain writerOn
  match args with
  | _ :: _ => exact ⟨rfl, rfl, fun h => (by cases h), fun _ => rfl⟩
  | [] =>
    generalize "serialized.bin".toList = path
    simp only
    generalize serialiseTold w o = x
    obtain ⟨y, out⟩ := x
    match y with
    | .ok [n] =>
      simp only
      generalize TProg.deserialise r p (Cursor.root n) = z
      obtain ⟨⟨a, c⟩, back⟩ := z
      cases a <;> exact ⟨rfl, rfl, fun _ => rfl, fun h => absurd rfl h⟩
    | .ok [] => exact ⟨rfl, rfl, fun _ => rfl, fun h => absurd rfl h⟩
    | .ok (_ :: _ :: _) => exact ⟨rfl, rfl, fun _ => rfl, fun h => absurd rfl h⟩
    | .throw _ => exact ⟨rfl, rfl, fun _ => rfl, fun h => absurd rfl h⟩
    | .ub _ => exact ⟨rfl, rfl, fun _ => rfl, fun h => absurd rfl h⟩

/-- **C119 with room**: a program that reports success has left the whole file if there was room for it; and if there was not, only where the file could
not be opened and was there already. Other files are as they were. -/
theorem C119_whole_partial (w : Compiled) (f : ProgFiles) (encode : Node → List Byte) (d : Disk) (made : List Str) (o : Obj) (path : Str) (n : Node)
    (h : serialise o = .ok [n]) :
    ((writerOn w f encode d made o [path]).files path = some (wholeFile (encode n))
        ↔ HasRoom d path (wholeFile (encode n)) ∨ d.room path = none ∧ d.files path = some (wholeFile (encode n)))
      ∧ ∀ other, other ≠ path → (writerOn w f encode d made o [path]).files other = d.files other := by
  rw [(C119_run w f encode d made o path n h).2.2]
  refine ⟨?_, fun other ho => by rw [leftOn, if_neg ho]⟩
  rw [leftOn, if_pos rfl, HasRoom]
  cases hr : d.room path with
  | none => simp
  | some k =>
    simp only [Option.some.injEq, exists_eq_left', reduceCtorEq, false_and, or_false]
    rw [take_self]

/-! ### C119: what the programs make of it -/

private theorem inspector_at {files : Str → Option (List Byte)} {path : Str} {b : List Byte} (h : files path = some b) (lf : Bool) :
    blobInspector lf (amqpSystem files) [path] = blobInspector lf (holding b) [path] := by
  simp only [blobInspector, loadAndDump, amqpSystem, holding, h, AMQPBlob.make]

private theorem data_at {files : Str → Option (List Byte)} {path : Str} {b : List Byte} (h : files path = some b) :
    dataDumper (amqpSystem files) [path] = dataDumper (holding b) [path] := by
  simp only [dataDumper, loadAndDump, amqpSystem, holding, h, AMQPBlob.make]

private theorem schema_at {files : Str → Option (List Byte)} {path : Str} {b : List Byte} (h : files path = some b) (mode : Str) :
    schemaDumper (amqpSystem files) [path, mode] = schemaDumper (holding b) [path, mode] := by
  simp only [schemaDumper, loadAndDump, amqpSystem, holding, h, AMQPBlob.make]

private theorem reader_at {files : Str → Option (List Byte)} {path : Str} {b : List Byte} (h : files path = some b) (r : ReadCompiled) (g : ProgFiles) :
    readerTest01 r g (amqpSystem files) [path] = readerTest01 r g (holding b) [path] := by
  simp only [readerTest01, readerMain, amqpSystem, holding, h, AMQPBlob.make]

private theorem toFile_whole (encoded : List Byte) : (CordaBytes.ofBlob encoded).toFile = wholeFile encoded := by
  have : (AMQP_HEADERS[1]'(by decide)).take 7 = magic := by decide
  simp [CordaBytes.toFile, CordaBytes.ofBlob, this, wholeFile]

/-- **C119, with room, shown**: an object that can be shown (C75 has the sample programs), saved where there is room for it, is shown by the blob inspector,
whatever the disk held before. -/
theorem C119_shown (w : Compiled) (f : ProgFiles) (encode : Node → List Byte) (d : Disk) (made : List Str) (o : Obj) (path text : Str) (lf : Bool)
    (h : SavedAndShown lf o text)
    (he : ∀ n, serialise o = .ok [n] → Encodes (encode n) n ∧ (encode n).length < 2 ^ 62 ∧ HasRoom d path (wholeFile (encode n))) :
    blobInspector lf (amqpSystem (writerOn w f encode d made o [path]).files) [path] = .exit 0 (text ++ ['\n']) := by
  obtain ⟨n, hs, hi⟩ := h
  obtain ⟨h1, h2, h3⟩ := he n hs
  rw [inspector_at ((C119_whole_partial w f encode d made o path n hs).1.2 (.inl h3)), ← toFile_whole]
  exact hi _ h1 h2 path

/-- **C119 without room, what is left is not shown**: a file for which there was not enough room is shown by none of the programs, for every object and
every encoding of it; although the program that wrote it reported success. -/
theorem C119_cut (w : Compiled) (f : ProgFiles) (encode : Node → List Byte) (d : Disk) (made : List Str) (o : Obj) (path : Str) (n : Node) (k : Nat)
    (hs : serialise o = .ok [n]) (he : Encodes (encode n) n) (hl : (encode n).length < 2 ^ 62)
    (hr : d.room path = some k) (hk : k < (wholeFile (encode n)).length) (out mode : Str) :
    let after := amqpSystem (writerOn w f encode d made o [path]).files
    (∀ lf, blobInspector lf after [path] ≠ .exit 0 out) ∧ dataDumper after [path] ≠ .exit 0 out ∧ schemaDumper after [path, mode] ≠ .exit 0 out
      ∧ ∀ r g, (readerTest01 r g after [path]).ended ≠ .exit 0 out := by
  have hf : (writerOn w f encode d made o [path]).files path = some ((wholeFile (encode n)).take k) := by
    rw [(C119_run w f encode d made o path n hs).2.2, leftOn, if_pos rfl, hr]
  have key := fun args => C110_saved o n hs (encode n) he hl ((wholeFile (encode n)).take k)
    (.inl ⟨k, by rw [toFile_whole]; exact hk, by rw [toFile_whole]⟩) args out
  refine ⟨fun lf => ?_, ?_, ?_, fun r g => ?_⟩
  · rw [inspector_at hf]; exact (key _).1 lf
  · rw [data_at hf]; exact (key _).2.1
  · rw [schema_at hf]; exact (key _).2.2.1
  · rw [reader_at hf]; exact (key _).2.2.2 r g

/-- **C119 without room, how that is noticed**: if the eight bytes in front did fit, the tools do not say that the file is damaged; an assertion fails. -/
theorem C119_assertion (w : Compiled) (f : ProgFiles) (encode : Node → List Byte) (d : Disk) (made : List Str) (o : Obj) (path : Str) (n : Node) (k : Nat)
    (hs : serialise o = .ok [n]) (he : Encodes (encode n) n) (hl : (encode n).length < 2 ^ 62)
    (hr : d.room path = some (8 + k)) (hk : k < (encode n).length) :
    let after := amqpSystem (writerOn w f encode d made o [path]).files
    (∀ lf, blobInspector lf after [path] = .ub "assert") ∧ dataDumper after [path] = .ub "assert"
      ∧ ∀ mode, mode = "avro".toList ∨ mode = "raw".toList → schemaDumper after [path, mode] = .ub "assert" := by
  have hf : (writerOn w f encode d made o [path]).files path = some (magic ++ 0 :: (encode n).take k) := by
    rw [(C119_run w f encode d made o path n hs).2.2, leftOn, if_pos rfl, hr]
    simp only [wholeFile]
    rw [List.take_append, magic_length, List.take_of_length_le (by rw [magic_length]; omega), show 8 + k - 7 = k + 1 by omega, List.take_succ_cons]
  have hb : Wire.decode (encode n) = some ((encode n).length, n) := by have := C71_decoded he []; rwa [List.append_nil] at this
  have hne : (encode n).drop k ≠ [] := by
    intro h
    have := congrArg List.length h
    simp only [List.length_drop, List.length_nil] at this
    omega
  have key := C110_assertion magic ((encode n).take k) magic_length (by rw [List.length_take]; omega)
    ((C110_damaged ((encode n).take k) _ hne).2 n (by rw [List.take_append_drop]; exact hb)) path
  refine ⟨fun lf => ?_, ?_, fun mode hm => ?_⟩
  · rw [inspector_at hf]; exact key.1 lf
  · rw [data_at hf]; exact (key.2 rfl).1
  · rw [schema_at hf]; exact (key.2 rfl).2 mode hm

/-! ### C119 is violated -/

/-- **C119 is violated**: success is reported on every disk, whatever is left; so also where what is left is not the file.  For every object that can be
serialised there is such a disk for every part of the file. -/
theorem C119_violated (w : Compiled) (f : ProgFiles) (encode : Node → List Byte) (made : List Str) (o : Obj) (path : Str) (n : Node)
    (h : serialise o = .ok [n]) (k : Nat) (hk : k < (wholeFile (encode n)).length) :
    ∃ d : Disk, (writerOn w f encode d made o [path]).ended = .exit 0 []
      ∧ (writerOn w f encode d made o [path]).files path = some ((wholeFile (encode n)).take k)
      ∧ (wholeFile (encode n)).take k ≠ wholeFile (encode n) := by
  refine ⟨⟨fun _ => none, fun _ => some k⟩, (C119_run w f encode _ made o path n h).1, ?_, ?_⟩
  · rw [(C119_run w f encode _ made o path n h).2.2, leftOn, if_pos rfl]
  · rw [Ne, take_self]
    omega

/-- **C119 is violated, the earlier object is shown**: saved where there was room, then the file made read-only, then another object saved under the same
name: success is reported both times, and what is shown is the first. -/
theorem C119_stale_violated (w w' : Compiled) (f f' : ProgFiles) (encode : Node → List Byte) (d later : Disk) (made made' : List Str) (o o' : Obj)
    (path text : Str) (lf : Bool) (h : SavedAndShown lf o text)
    (he : ∀ n, serialise o = .ok [n] → Encodes (encode n) n ∧ (encode n).length < 2 ^ 62 ∧ HasRoom d path (wholeFile (encode n)))
    (n' : Node) (h' : serialise o' = .ok [n']) (hfiles : later.files = (writerOn w f encode d made o [path]).files) (hr : later.room path = none) :
    (writerOn w' f' encode later made' o' [path]).ended = .exit 0 []
      ∧ blobInspector lf (amqpSystem (writerOn w' f' encode later made' o' [path]).files) [path] = .exit 0 (text ++ ['\n']) := by
  refine ⟨(C119_run w' f' encode later made' o' path n' h').1, ?_⟩
  have hsame : (writerOn w' f' encode later made' o' [path]).files = later.files := by
    rw [(C119_run w' f' encode later made' o' path n' h').2.2]
    funext p
    unfold leftOn
    split
    · rename_i hp; rw [hr, hp]
    · rfl
  rw [hsame, hfiles]
  exact C119_shown w f encode d made o path text lf h he

/-- **C119 is violated, the earlier object is lost**: without room for the new one nothing is left of either that any program shows, and success is reported. -/
theorem C119_lost_violated (w : Compiled) (f : ProgFiles) (encode : Node → List Byte) (d : Disk) (made : List Str) (o : Obj) (path : Str) (n : Node)
    (hs : serialise o = .ok [n]) (hr : d.room path = some 0) :
    (writerOn w f encode d made o [path]).ended = .exit 0 [] ∧ (writerOn w f encode d made o [path]).files path = some [] := by
  refine ⟨(C119_run w f encode d made o path n hs).1, ?_⟩
  rw [(C119_run w f encode d made o path n hs).2.2, leftOn, if_pos rfl, hr]
  rfl

/-! ### Examples -/

/-- Three bytes written, then one, then two, with room for five: the last does not fit and what is written later is dropped. -/
example : ((((⟨5, true, []⟩ : OFile).write [1, 2, 3]).write [4]).write [5, 6]).bytes = [1, 2, 3, 4, 5]
    ∧ ((((⟨2, true, []⟩ : OFile).write [1, 2, 3]).write [4]).write [5, 6]).bytes = [1, 2] := by decide

/-- writer-test-01 with 7 and then, when the file is read-only, with 8: it reports success and 7 is shown. -/
example (w : Compiled) (f : ProgFiles) (encode : Node → List Byte) (path : Str) (lf : Bool) (k : Nat)
    (he : ∀ n, serialise (writer01 7) = .ok [n] → Encodes (encode n) n ∧ (encode n).length < 2 ^ 62 ∧ (wholeFile (encode n)).length ≤ k) :
    let first := writerOn w f encode ⟨fun _ => none, fun _ => some k⟩ [] (writer01 7) [path]
    let second := writerOn w f encode ⟨first.files, fun _ => none⟩ [] (writer01 8) [path]
    second.ended = .exit 0 [] ∧ ∃ text, SavedAndShown lf (writer01 7) text
      ∧ blobInspector lf (amqpSystem second.files) [path] = .exit 0 (text ++ ['\n']) := by
  obtain ⟨n', h', -⟩ := C76_reader01_writer01 8
  have hshown := C75_writer01 lf 7
  generalize whole _ = text at hshown
  generalize writer01 8 = o' at h' ⊢
  generalize writer01 7 = o at he hshown ⊢
  intro first second
  obtain ⟨h1, h2⟩ := C119_stale_violated w w f f encode ⟨fun _ => none, fun _ => some k⟩ ⟨first.files, fun _ => none⟩ [] [] o o' path text lf
    hshown (fun n hn => ⟨(he n hn).1, (he n hn).2.1, k, rfl, (he n hn).2.2⟩) n' h' rfl rfl
  exact ⟨h1, text, hshown, h2⟩

#print axioms C119_run
#print axioms C119_unchanged
#print axioms C119_told
#print axioms C119_round_trip
#print axioms C119_whole_partial
#print axioms C119_shown
#print axioms C119_cut
#print axioms C119_assertion
#print axioms C119_violated
#print axioms C119_stale_violated
#print axioms C119_lost_violated

end Corda.Props
