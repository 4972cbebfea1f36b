import Verif.Props.Wire
import Verif.Spec.Sources

/-
C118: names that are not those of ordinary files.
-/

namespace Corda.Props
open Corda Corda.Spec

private theorem read_preamble {hdr rest : List Byte} {e : Byte} (hl : hdr.length = 7) :
    readInto (List.replicate 7 0) 7 (hdr ++ e :: rest) = (hdr, e :: rest) := by
  unfold readInto
  rw [List.take_left' hl, List.drop_left' hl, hl]
  simp

/-- Loading is as for a file of eight bytes, but for the rest. -/
private theorem loadFrom_eq {room : Nat → Bool} {cfg : AMQPConfig} (hc : ValidConfig cfg) {hdr : List Byte} (hl : hdr.length = 7) (e : Byte)
    (rest : List Byte) (size : Nat) :
    CordaBytes.loadFrom room cfg (some ⟨size, hdr ++ e :: rest⟩) =
      match CordaBytes.load cfg (some (hdr ++ e :: [])) with
      | .ok b => if room (subW size 8) then
          .made (.ok { encoding := b.encoding, size := subW size 8, blob := (readInto (List.replicate (subW size 8) 0) (subW size 8) rest).1 })
        else .noRoom
      | .throw m => .made (.throw m)
      | .ub w => .made (.ub w) := by
  have hh : AMQP_HEADERS[cfg.header]? = some magic := by rcases hc with h | h <;> rw [h] <;> decide
  have h8 : magic.length + 1 = 8 := by decide
  unfold CordaBytes.loadFrom CordaBytes.load
  simp only [hh, read_preamble hl, h8]
  split
  · rfl
  · by_cases h : e = 0 ∨ e = 1 ∨ e = 2
    · rw [if_pos h, if_pos h]
    · rw [if_neg h, if_neg h]
      by_cases h3 : e = 3
      · rw [if_pos h3, if_pos h3]
      · rw [if_neg h3, if_neg h3]

private theorem loadFrom_short {room : Nat → Bool} {cfg : AMQPConfig} (hc : ValidConfig cfg) {bytes : List Byte} (h : bytes.length < 8) (size : Nat) :
    CordaBytes.loadFrom room cfg (some ⟨size, bytes⟩) = .made (CordaBytes.load cfg (some bytes)) := by
  have hh : AMQP_HEADERS[cfg.header]? = some magic := by rcases hc with h | h <;> rw [h] <;> decide
  have hd : bytes.drop 7 = [] := List.drop_eq_nil_of_le (by omega)
  unfold CordaBytes.loadFrom CordaBytes.load
  simp only [hh, readInto, hd]
  split <;> rfl

private theorem split8 {bytes : List Byte} (h : 8 ≤ bytes.length) : ∃ hdr e rest, bytes = hdr ++ e :: rest ∧ hdr.length = 7 := by
  refine ⟨bytes.take 7, bytes[7]'(by omega), bytes.drop 8, ?_, by simp; omega⟩
  rw [← List.drop_eq_getElem_cons, List.take_append_drop]

private theorem filled (rest : List Byte) (k j : Nat) :
    (readInto (List.replicate k 0) k rest).1 = (rest ++ List.replicate (j + k) 0).take k := by
  unfold readInto
  rw [List.take_append, List.drop_replicate, List.take_replicate, List.length_take]
  simp only
  rw [show k - min k rest.length = min (k - rest.length) (j + k) by omega]

/-- What is loaded is the file that is seen. -/
private theorem loadFrom_seen {m : Machine} {cfg : AMQPConfig} (hc : ValidConfig cfg) {s : Source} (h : Readable m s) :
    CordaBytes.loadFrom m.room cfg (some s) = .made (CordaBytes.load cfg (some (seen s))) := by
  obtain ⟨size, bytes⟩ := s
  obtain ⟨h1, h2, h3, h4⟩ := h
  simp only at h1 h2 h3 h4
  obtain ⟨hdr, e, rest, rfl, hl⟩ := split8 h1
  obtain ⟨k, rfl⟩ : ∃ k, size = 8 + k := ⟨size - 8, by omega⟩
  have hk : subW (8 + k) 8 = k := by rw [subW_of_le (by omega) (by unfold sizeMod; omega)]; omega
  have hs : seen ⟨8 + k, hdr ++ e :: rest⟩ = hdr ++ e :: (readInto (List.replicate k 0) k rest).1 := by
    unfold seen
    simp only
    rw [filled rest k 8, List.append_assoc, List.take_append, hl, List.take_of_length_le (by omega), show 8 + k - 7 = k + 1 by omega]
    rfl
  have hlen : (readInto (List.replicate k 0) k rest).1.length = k := by
    rw [filled rest k 0, List.length_take, List.length_append, List.length_replicate]; omega
  rw [loadFrom_eq hc hl, hs, load_eq cfg hc hdr hl e [] (by simp [hl]), load_eq cfg hc hdr hl e _ (by simp only [List.length_append, List.length_cons, hl, hlen]; omega), hk,
    hlen]
  have h4' : m.room k = true := by rw [show 8 + k - 8 = k by omega] at h4; exact h4
  by_cases a : cfg.ignoreHeader = true ∨ hdr = magic
  · rw [if_pos a, if_pos a]
    by_cases b : e.toNat ≤ 2
    · rw [if_pos b, if_pos b]
      simp only
      rw [if_pos h4']
    · rw [if_neg b, if_neg b]
      by_cases c : e.toNat ≤ 3
      · rw [if_pos c]
      · rw [if_neg c]
  · rw [if_neg a, if_neg a]

private theorem open_seen {m : Machine} {caught : Res Ended → Ended} {cfg : AMQPConfig} (hc : ValidConfig cfg) {s : Source} {path : Str}
    (hp : m.source path = some s) (h : Readable m s) (dump : Cursor → Res Str) :
    m.openAndDump caught cfg s dump = caught (loadAndDump cfg (Machine.seen m) path dump) := by
  unfold Machine.openAndDump loadAndDump
  rw [loadFrom_seen hc h]
  show _ = caught (do let cb ← CordaBytes.load cfg ((m.source path).map Spec.seen); _)
  rw [hp]
  rfl

/-- **C118**, partial: if the preamble can be read, the size is at least that of the preamble and there is memory for the rest, the tools do what they do
with an ordinary file of that size that begins with the bytes that can be read, and goes on with zeros where these are fewer.  Missing: the other names, see
below, and that zeros take the place of what cannot be read. -/
theorem C118_seen_partial (m : Machine) (args : List Str) (h : ∀ path s, path ∈ args → m.source path = some s → Readable m s) :
    m.dataDumper args = dataDumper (Machine.seen m) args ∧ m.schemaDumper args = schemaDumper (Machine.seen m) args
    ∧ ∀ leftFirst, Machine.blobInspector leftFirst m args = blobInspector leftFirst (Machine.seen m) args := by
  refine ⟨?_, ?_, fun leftFirst => ?_⟩
  · match args, h with
    | [], _ => rfl
    | [path], h =>
      unfold Machine.dataDumper dataDumper
      simp only [Machine.seen]
      cases hp : m.source path with
      | none => rfl
      | some s => exact open_seen (.inr rfl) hp (h path s (by simp) hp) _
    | _ :: _ :: _, _ => rfl
  · match args, h with
    | [], _ => rfl
    | [_], _ => rfl
    | [path, flag], h =>
      unfold Machine.schemaDumper schemaDumper
      simp only [Machine.seen]
      cases hp : m.source path with
      | none => rfl
      | some s =>
        have h' := h path s (by simp) hp
        simp only [Option.map_some]
        rw [open_seen (.inr rfl) hp h', open_seen (.inr rfl) hp h']
        rfl
    | _ :: _ :: _ :: _, _ => rfl
  · match args, h with
    | [], _ => rfl
    | [path], h =>
      unfold Machine.blobInspector blobInspector
      simp only [Machine.seen]
      cases hp : m.source path with
      | none => rfl
      | some s => exact open_seen (.inr rfl) hp (h path s (by simp) hp) _
    | _ :: _ :: _, _ => rfl

/-- What is seen of an ordinary file is the file; of a file that has grown, the file as it was. -/
theorem C118_ordinary (content more : List Byte) : seen ⟨content.length, content⟩ = content ∧ seen ⟨content.length, content ++ more⟩ = content := by
  unfold seen
  simp only
  exact ⟨List.take_left' rfl, by rw [List.append_assoc]; exact List.take_left' rfl⟩

/-- Of a file that has shrunk, what is left, and zeros. -/
theorem C118_shrunk (bytes : List Byte) (k : Nat) : seen ⟨bytes.length + k, bytes⟩ = bytes ++ List.replicate k 0 := by
  unfold seen
  simp only
  rw [List.take_append, List.take_of_length_le (by omega), List.take_replicate]
  congr 2
  omega

/-- **C118, names from which nothing can be read** (a directory, a file without permission): the dumpers refuse them, whatever their size; with the blob
inspector the program has undefined behaviour, always. -/
theorem C118_unreadable_violated (m : Machine) (path : Str) (size : Nat) (h : m.source path = some ⟨size, []⟩) :
    m.dataDumper [path] = .exit 1 [] ∧ (∀ mode, m.schemaDumper [path, mode] = .exit 1 [])
    ∧ ∀ leftFirst, ∃ w, Machine.blobInspector leftFirst m [path] = .ub w := by
  have hr : CordaBytes.loadFrom m.room {} (some ⟨size, []⟩) = .made (.throw "Not a Corda stream") := by
    rw [loadFrom_short (.inr rfl) (by decide)]
    rfl
  have hi : CordaBytes.loadFrom m.room { ignoreHeader := true } (some ⟨size, []⟩) = .made (.ub "encoding read uninitialised") := by
    rw [loadFrom_short (.inr rfl) (by decide)]
    rfl
  refine ⟨?_, fun mode => ?_, fun leftFirst => ⟨"encoding read uninitialised", ?_⟩⟩
  · unfold Machine.dataDumper Machine.openAndDump
    simp only [h, hr]
    rfl
  · unfold Machine.schemaDumper Machine.openAndDump
    simp only [h, hr]
    split
    · rfl
    · split <;> rfl
  · unfold Machine.blobInspector Machine.openAndDump
    simp only [h, hi]
    rfl

/-- There is no memory for what was announced. -/
private theorem open_noRoom {m : Machine} {caught : Res Ended → Ended} {cfg : AMQPConfig} (hc : ValidConfig cfg) {hdr payload : List Byte} (hl : hdr.length = 7)
    (hh : cfg.ignoreHeader = true ∨ hdr = magic) {e : Byte} (he : e.toNat ≤ 2) {size : Nat} (hr : m.room (subW size 8) = false) (dump : Cursor → Res Str) :
    m.openAndDump caught cfg ⟨size, hdr ++ e :: payload⟩ dump = .terminated := by
  unfold Machine.openAndDump
  rw [loadFrom_eq hc hl, load_eq cfg hc hdr hl e [] (by simp [hl]), if_pos hh, if_pos he]
  simp only
  rw [if_neg (by rw [hr]; decide)]

/-- **C118, names without a size** (a pipe, a device, a file of the system under /proc: all have size 0), or with one below eight: although the whole blob
can be read, in a known encoding or not, every tool is aborted by an exception that no one catches, since the size of the preamble is subtracted from zero. -/
theorem C118_pipe_violated (m : Machine) (hm : Machine.Bounded m) (path : Str) (size : Nat) (hs : size < 8) (e : Byte) (he : e.toNat ≤ 2) (payload : List Byte) :
    (m.source path = some ⟨size, magic ++ e :: payload⟩ → m.dataDumper [path] = .terminated
      ∧ ∀ mode, mode = "avro".toList ∨ mode = "raw".toList → m.schemaDumper [path, mode] = .terminated)
    ∧ ∀ hdr : List Byte, hdr.length = 7 → m.source path = some ⟨size, hdr ++ e :: payload⟩ → ∀ leftFirst, Machine.blobInspector leftFirst m [path] = .terminated := by
  have hr : m.room (subW size 8) = false := by
    refine hm _ ?_
    unfold subW sizeMod
    rw [Nat.mod_eq_of_lt (by omega)]
    omega
  refine ⟨fun h => ⟨?_, fun mode hmode => ?_⟩, fun hdr hl h leftFirst => ?_⟩
  · unfold Machine.dataDumper
    simp only [h]
    exact open_noRoom (.inr rfl) magic_length (.inr rfl) he hr _
  · unfold Machine.schemaDumper
    simp only [h]
    rcases hmode with rfl | rfl
    · rw [if_pos rfl]
      exact open_noRoom (.inr rfl) magic_length (.inr rfl) he hr _
    · rw [if_neg (by decide), if_pos rfl]
      exact open_noRoom (.inr rfl) magic_length (.inr rfl) he hr _
  · unfold Machine.blobInspector
    simp only [h]
    exact open_noRoom (.inr rfl) hl (.inl rfl) he hr _

/-- **C118, more than there is memory for**: aborted too, with any size. -/
theorem C118_memory_violated (m : Machine) (path : Str) (size : Nat) (hs : 8 ≤ size) (hl : size < 2 ^ 64) (hr : m.room (size - 8) = false) (e : Byte)
    (he : e.toNat ≤ 2) (payload : List Byte) (h : m.source path = some ⟨size, magic ++ e :: payload⟩) :
    m.dataDumper [path] = .terminated ∧ (∀ mode, mode = "avro".toList ∨ mode = "raw".toList → m.schemaDumper [path, mode] = .terminated)
    ∧ ∀ leftFirst, Machine.blobInspector leftFirst m [path] = .terminated := by
  have hr : m.room (subW size 8) = false := by rw [subW_of_le hs (by unfold sizeMod; omega)]; exact hr
  refine ⟨?_, fun mode hmode => ?_, fun leftFirst => ?_⟩
  · unfold Machine.dataDumper
    simp only [h]
    exact open_noRoom (.inr rfl) magic_length (.inr rfl) he hr _
  · unfold Machine.schemaDumper
    simp only [h]
    rcases hmode with rfl | rfl
    · rw [if_pos rfl]
      exact open_noRoom (.inr rfl) magic_length (.inr rfl) he hr _
    · rw [if_neg (by decide), if_pos rfl]
      exact open_noRoom (.inr rfl) magic_length (.inr rfl) he hr _
  · unfold Machine.blobInspector
    simp only [h]
    exact open_noRoom (.inr rfl) magic_length (.inl rfl) he hr _

/-- A blob with one text in it, `abc`. -/
def threeLetters : List Byte :=
  [0x00, 0x80, 0xc5, 0x62, 0, 0, 0, 0, 0, 1, 0xc0, 0x0d, 1, 0x00, 0xa3, 1, 0x66, 0xc0, 6, 1, 0xa1, 3, 0x61, 0x62, 0x63]

/-- A machine with one name, and memory for a thousand bytes. -/
def oneName (size : Nat) (bytes : List Byte) : Machine := ⟨fun _ => some ⟨size, bytes⟩, fun n => decide (n < 1000), Wire.decode⟩

/-- **C118 fails for files that shrink**: of a file that loses its last two bytes after its size was asked for, the data dumper shows a text that was in no file: where
letters were, there are zeros.  It says that it has succeeded. -/
theorem C118_shrunk_violated :
    (oneName 33 (magic ++ 0 :: threeLetters)).dataDumper ["f".toList] = .exit 0 "f : [ abc ]\n".toList
    ∧ (oneName 33 (magic ++ 0 :: threeLetters.take 23)).dataDumper ["f".toList] = .exit 0 "f : [ a\x00\x00 ]\n".toList := by
  decide +kernel

/-- The same file as a pipe; more than there is memory for; nothing but the preamble; and a directory. -/
example : (oneName 0 (magic ++ 0 :: threeLetters)).dataDumper ["f".toList] = .terminated
    ∧ (oneName 2000 (magic ++ 0 :: threeLetters)).dataDumper ["f".toList] = .terminated
    ∧ (oneName 8 (magic ++ [0])).dataDumper ["f".toList] = .ub "assert"
    ∧ (oneName 4096 []).dataDumper ["f".toList] = .exit 1 [] := by decide +kernel

/-- The machine has bounds, and what is there can be read. -/
example : Machine.Bounded (oneName 33 (magic ++ 0 :: threeLetters)) ∧ Readable (oneName 33 (magic ++ 0 :: threeLetters)) ⟨33, magic ++ 0 :: threeLetters⟩ :=
  ⟨fun n h => by simp only [oneName, decide_eq_false_iff_not]; omega, by decide, by decide, by decide, by decide⟩

end Corda.Props

#print axioms Corda.Props.C118_seen_partial
#print axioms Corda.Props.C118_ordinary
#print axioms Corda.Props.C118_shrunk
#print axioms Corda.Props.C118_unreadable_violated
#print axioms Corda.Props.C118_pipe_violated
#print axioms Corda.Props.C118_memory_violated
#print axioms Corda.Props.C118_shrunk_violated
