import Verif.Model.CordaBytes

/-
C01-C04: the file framing.
-/

namespace Corda.Props
open Corda

/-- Specification: the seven magic bytes `corda\x01\x00`. -/
def magic : List Byte := "corda".toList.map (fun c => UInt8.ofNat c.toNat) ++ [1, 0]

/-- A configuration a caller may legitimately pass: the header index names an entry of the header table. -/
def ValidConfig (cfg : AMQPConfig) : Prop := cfg.header = 0 ∨ cfg.header = 1

/-- Specification of acceptance, in terms of the file's bytes only. -/
def Accepts (cfg : AMQPConfig) (content : List Byte) : Prop :=
  (cfg.ignoreHeader = true ∨ content.take 7 = magic) ∧ ∃ e, content[7]? = some e ∧ e.toNat ≤ 2

private theorem headers_eq (cfg : AMQPConfig) (h : ValidConfig cfg) :
    AMQP_HEADERS[cfg.header]? = some magic := by
  rcases h with h | h <;> rw [h] <;> decide

private theorem contains_headers (l : List Byte) : AMQP_HEADERS.contains l = decide (l = magic) := by
  have : AMQP_HEADERS = [magic, magic] := by decide
  rw [this]
  by_cases h : l = magic <;> simp [h]

private theorem enc_iff (e : Byte) : (e = 0 ∨ e = 1 ∨ e = 2) ↔ e.toNat ≤ 2 := by
  constructor
  · rintro (h | h | h) <;> subst h <;> decide
  · intro h
    have : e.toNat = 0 ∨ e.toNat = 1 ∨ e.toNat = 2 := by omega
    rcases this with h | h | h
    · exact .inl (UInt8.toNat_inj.mp h)
    · exact .inr (.inl (UInt8.toNat_inj.mp h))
    · exact .inr (.inr (UInt8.toNat_inj.mp h))

private theorem enc_three (e : Byte) (h : ¬ e.toNat ≤ 2) : e = 3 ↔ e.toNat ≤ 3 := by
  constructor
  · rintro rfl; decide
  · intro h'
    exact UInt8.toNat_inj.mp (by show e.toNat = 3; omega)

/-- The constructor on a file of at least eight bytes, spelled out. -/
theorem load_eq (cfg : AMQPConfig) (hc : ValidConfig cfg) (hdr : List Byte) (hl : hdr.length = 7)
    (e : Byte) (rest : List Byte) (hsz : (hdr ++ e :: rest).length < 2 ^ 63) :
    CordaBytes.load cfg (some (hdr ++ e :: rest)) =
      if cfg.ignoreHeader = true ∨ hdr = magic then
        if e.toNat ≤ 2 then .ok { encoding := e, size := rest.length, blob := rest }
        else if e.toNat ≤ 3 then .throw "Unknown encoding encountered"
        else .ub "enumeration value out of range"
      else .throw "Not a Corda stream" := by
  have hm : magic.length = 7 := by decide
  have hs : subW (hdr ++ e :: rest).length (magic.length + 1) = rest.length := by
    rw [subW_of_le]
    · simp [hm, hl]; omega
    · simp [hm, hl]; omega
    · unfold sizeMod; omega
  simp only [CordaBytes.load, headers_eq cfg hc, hs]
  have hread : readInto (List.replicate 7 0) 7 (hdr ++ e :: rest) = (hdr, e :: rest) := by
    unfold readInto
    rw [List.take_left' hl, List.drop_left' hl, hl]; simp
  have hread2 : (readInto (List.replicate rest.length 0) rest.length rest).1 = rest := by
    simp [readInto]
  rw [hread]
  simp only [contains_headers, hread2]
  have henc : ∀ {a b c : Res CordaBytes}, (if e = 0 ∨ e = 1 ∨ e = 2 then a else if e = 3 then b else c)
      = if e.toNat ≤ 2 then a else if e.toNat ≤ 3 then b else c := by
    intro a b c
    simp only [enc_iff]
    by_cases h2 : e.toNat ≤ 2
    · simp [h2]
    · simp [h2, enc_three e h2]
  by_cases hi : cfg.ignoreHeader = true
  · simp [hi, henc]
  · by_cases hh : hdr = magic
    · simp [hh, henc]
    · simp [hi, hh]

private theorem split8 (content : List Byte) (h : 8 ≤ content.length) :
    ∃ hdr e rest, content = hdr ++ e :: rest ∧ hdr.length = 7 := by
  refine ⟨content.take 7, content[7]'(by omega), content.drop 8, ?_, by simp; omega⟩
  rw [← List.drop_eq_getElem_cons, List.take_append_drop]

/-- **C01, acceptance.** A file of at least eight bytes loads exactly when the preamble is acceptable; the reported encoding is
the eighth byte. -/
theorem C01_preamble_acceptance (cfg : AMQPConfig) (hc : ValidConfig cfg) (content : List Byte)
    (h8 : 8 ≤ content.length) (hsz : content.length < 2 ^ 63) :
    (Accepts cfg content ↔ ∃ b, CordaBytes.load cfg (some content) = .ok b)
    ∧ ∀ b, CordaBytes.load cfg (some content) = .ok b → content[7]? = some b.encoding := by
  obtain ⟨hdr, e, rest, rfl, hl⟩ := split8 content h8
  rw [load_eq cfg hc hdr hl e rest hsz]
  have ht : (hdr ++ e :: rest).take 7 = hdr := List.take_left' hl
  have hg : (hdr ++ e :: rest)[7]? = some e := by
    rw [List.getElem?_append_right (by omega)]; simp [hl]
  unfold Accepts
  rw [ht, hg]
  by_cases h1 : cfg.ignoreHeader = true ∨ hdr = magic
  · by_cases h2 : e.toNat ≤ 2
    · simp [h1, h2]
    · by_cases h3 : e.toNat ≤ 3 <;> simp [h1, h2, h3]
  · simp [h1]

/-- Specification: the header is fine but the eighth byte is not a value of the enumeration. -/
def OddEncoding (cfg : AMQPConfig) (content : List Byte) : Prop :=
  (cfg.ignoreHeader = true ∨ content.take 7 = magic) ∧ ∃ e, content[7]? = some e ∧ 4 ≤ e.toNat

/-- **C01, rejection (partial).** A file of at least eight bytes whose preamble is not acceptable is rejected by an exception.
Missing from the full statement: the files whose header passes and whose eighth byte is above 3. -/
theorem C01_rejection_partial (cfg : AMQPConfig) (hc : ValidConfig cfg) (content : List Byte)
    (h8 : 8 ≤ content.length) (hsz : content.length < 2 ^ 63) (ha : ¬ Accepts cfg content) (ho : ¬ OddEncoding cfg content) :
    (CordaBytes.load cfg (some content)).Throws := by
  obtain ⟨hdr, e, rest, rfl, hl⟩ := split8 content h8
  rw [load_eq cfg hc hdr hl e rest hsz]
  have ht : (hdr ++ e :: rest).take 7 = hdr := List.take_left' hl
  have hg : (hdr ++ e :: rest)[7]? = some e := by
    rw [List.getElem?_append_right (by omega)]; simp [hl]
  unfold Accepts at ha
  unfold OddEncoding at ho
  rw [ht, hg] at ha ho
  by_cases h1 : cfg.ignoreHeader = true ∨ hdr = magic
  · have h2 : ¬ e.toNat ≤ 2 := fun h => ha ⟨h1, e, rfl, h⟩
    have h3 : e.toNat ≤ 3 := by
      by_cases h : 4 ≤ e.toNat
      · exact absurd ⟨h1, e, rfl, h⟩ ho
      · omega
    simp [h1, h2, h3, Res.Throws]
  · simp [h1, Res.Throws]

/-- **C01 fails** for exactly those: the byte is converted to an enumeration it is not a value of. -/
theorem C01_encoding_violated (cfg : AMQPConfig) (hc : ValidConfig cfg) (content : List Byte)
    (h8 : 8 ≤ content.length) (hsz : content.length < 2 ^ 63) :
    ((CordaBytes.load cfg (some content)).IsUB ↔ OddEncoding cfg content)
    ∧ OddEncoding {} (magic ++ [4]) := by
  refine ⟨?_, .inr (by decide), 4, by decide, by decide⟩
  obtain ⟨hdr, e, rest, rfl, hl⟩ := split8 content h8
  rw [load_eq cfg hc hdr hl e rest hsz]
  have ht : (hdr ++ e :: rest).take 7 = hdr := List.take_left' hl
  have hg : (hdr ++ e :: rest)[7]? = some e := by
    rw [List.getElem?_append_right (by omega)]; simp [hl]
  unfold OddEncoding
  rw [ht, hg]
  by_cases h1 : cfg.ignoreHeader = true ∨ hdr = magic
  · by_cases h2 : e.toNat ≤ 2
    · simp [h1, h2, Res.IsUB]; omega
    · by_cases h3 : e.toNat ≤ 3
      · simp [h1, h2, h3, Res.IsUB]; omega
      · simp [h1, h2, h3, Res.IsUB]; omega
  · simp [h1, Res.IsUB]

/-- A name that cannot be `stat`ed is rejected. -/
theorem C01_missing_file (cfg : AMQPConfig) : (CordaBytes.load cfg none).Throws := by
  simp [CordaBytes.load, Res.Throws]

/-- Non-vacuity of C01: an accepted file, one rejected for its header, one rejected for its encoding. -/
example : Accepts {} (magic ++ [2, 9]) ∧ ¬ Accepts {} ([1] ++ magic ++ [0])
    ∧ ¬ Accepts { ignoreHeader := true } (magic ++ [3]) ∧ ValidConfig {} := by
  refine ⟨⟨.inr (by decide), 2, by decide, by decide⟩, ?_, ?_, .inr rfl⟩
  · rintro ⟨h, -⟩; revert h; decide
  · rintro ⟨-, e, he, hle⟩
    have : e = 3 := by have h : some e = some 3 := he.symm.trans (by decide); exact Option.some.inj h
    subst this; revert hle; decide

/-- **C02.** After a successful load of a file of at least eight bytes the size is the file length minus eight
and the bytes are exactly the rest of the file. -/
theorem C02_payload_exact (cfg : AMQPConfig) (hc : ValidConfig cfg) (content : List Byte)
    (h8 : 8 ≤ content.length) (hsz : content.length < 2 ^ 63) (b : CordaBytes)
    (hb : CordaBytes.load cfg (some content) = .ok b) :
    b.size = content.length - 8 ∧ b.blob = content.drop 8 := by
  obtain ⟨hdr, e, rest, rfl, hl⟩ := split8 content h8
  rw [load_eq cfg hc hdr hl e rest hsz] at hb
  have hd : (hdr ++ e :: rest).drop 8 = rest := by
    rw [List.drop_append]; simp [hl, List.drop_eq_nil_of_le]
  rw [hd]
  split at hb
  · split at hb
    · cases hb; simp [hl]; omega
    · split at hb <;> cases hb
  · cases hb

example : CordaBytes.load {} (some (magic ++ [1, 7, 8, 9])) = .ok ⟨1, 3, [7, 8, 9]⟩ := by decide

/-- **C03 (negation).** Loading a file shorter than eight bytes does not always throw.  With just the seven header
bytes the code reads an uninitialised variable.  So it does with only the first six header bytes, because the
missing seventh byte is taken from the zero-initialised buffer and happens to match.  When headers are ignored
every short file does. -/
theorem C03_short_file_violated :
    (CordaBytes.load {} (some magic)).IsUB
    ∧ (CordaBytes.load {} (some (magic.take 6))).IsUB
    ∧ ∀ content : List Byte, content.length < 8 →
        (CordaBytes.load { ignoreHeader := true } (some content)).IsUB := by
  refine ⟨by decide, by decide, ?_⟩
  intro content h
  have hd : content.drop 7 = [] := List.drop_eq_nil_of_le (by omega)
  simp [CordaBytes.load, AMQP_HEADERS, readInto, hd, Res.IsUB]

/-- **C03 (partial).** With header checking on, every file of fewer than eight bytes is rejected with an exception,
except the header itself and the header without its last byte.  Missing from the full statement: those two
files, and every short file when headers are ignored (see `C03_short_file_violated`). -/
theorem C03_short_file_partial (cfg : AMQPConfig) (hc : ValidConfig cfg) (hi : cfg.ignoreHeader = false)
    (content : List Byte) (h : content.length < 8) (h7 : content ≠ magic) (h6 : content ≠ magic.take 6) :
    (CordaBytes.load cfg (some content)).Throws := by
  have hne' : (readInto (List.replicate 7 0) 7 content).1 ≠ magic := by
    unfold readInto
    have ht : content.take 7 = content := List.take_of_length_le (by omega)
    simp only [ht, List.drop_replicate]
    have hm : magic = [99, 111, 114, 100, 97, 1, 0] := by decide
    rw [hm] at h7 h6 ⊢
    intro heq
    match content, h with
    | [], _ => revert heq; decide
    | [a], _ => simp at heq
    | [a, b], _ => simp at heq
    | [a, b, c], _ => simp at heq
    | [a, b, c, d], _ => simp at heq
    | [a, b, c, d, e], _ => simp at heq
    | [a, b, c, d, e, f], _ => simp at heq h6; simp_all
    | [a, b, c, d, e, f, g], _ => simp at heq h7; simp_all
    | _ :: _ :: _ :: _ :: _ :: _ :: _ :: _ :: _, h => simp at h; omega
  simp only [CordaBytes.load, headers_eq cfg hc, contains_headers, hne', hi]
  simp [Res.Throws]

example : CordaBytes.load {} (some [99, 111, 114]) = .throw "Not a Corda stream" := by decide

/-- **C04.** Writing any payload with `toFile` and loading the file with the default configuration succeeds,
reports the plain encoding and returns the identical payload. -/
theorem C04_save_load (payload : List Byte) (hsz : payload.length + 8 < 2 ^ 63) :
    CordaBytes.load {} (some (CordaBytes.ofBlob payload).toFile)
      = .ok { encoding := 0, size := payload.length, blob := payload } := by
  have hf : (CordaBytes.ofBlob payload).toFile = magic ++ 0 :: payload := by
    have : (AMQP_HEADERS[1]'(by decide)).take 7 = magic := by decide
    simp [CordaBytes.toFile, CordaBytes.ofBlob, this]
  have hm : magic.length = 7 := by decide
  rw [hf, load_eq {} (.inr rfl) magic hm 0 payload (by simp [hm]; omega)]
  simp

/-- Bytes made in memory say what loading them from the file they are saved to will say: the plain-data encoding, the
size, and the very bytes. -/
theorem C04_made (payload : List Byte) (hsz : payload.length + 8 < 2 ^ 63) :
    (CordaBytes.ofBlob payload).encoding = 0
    ∧ (CordaBytes.ofBlob payload).size = payload.length
    ∧ (CordaBytes.ofBlob payload).blob = payload
    ∧ CordaBytes.load {} (some (CordaBytes.ofBlob payload).toFile) = .ok (CordaBytes.ofBlob payload) :=
  ⟨rfl, rfl, rfl, C04_save_load payload hsz⟩

/-- Re-saving a loaded file keeps the payload, whatever its encoding byte was (the encoding byte itself is reset). -/
theorem C04_load_save_load (cfg : AMQPConfig) (hc : ValidConfig cfg) (content : List Byte)
    (h8 : 8 ≤ content.length) (hsz : content.length < 2 ^ 63) (b : CordaBytes)
    (hb : CordaBytes.load cfg (some content) = .ok b) :
    CordaBytes.load {} (some b.toFile) = .ok { encoding := 0, size := b.size, blob := b.blob } := by
  obtain ⟨hs, hbl⟩ := C02_payload_exact cfg hc content h8 hsz b hb
  have hlen : b.blob.length = b.size := by rw [hs, hbl]; simp
  have : b.toFile = (CordaBytes.ofBlob b.blob).toFile := by
    simp [CordaBytes.toFile, CordaBytes.ofBlob, hlen]
  rw [this, C04_save_load b.blob (by omega), hlen]

example : (CordaBytes.ofBlob [5, 6]).toFile = [99, 111, 114, 100, 97, 1, 0, 0, 5, 6] := by decide

#print axioms C01_preamble_acceptance
#print axioms C01_rejection_partial
#print axioms C01_encoding_violated
#print axioms C02_payload_exact
#print axioms C03_short_file_violated
#print axioms C03_short_file_partial
#print axioms C04_save_load
#print axioms C04_made
#print axioms C04_load_save_load

end Corda.Props
