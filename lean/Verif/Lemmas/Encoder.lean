import Verif.Model.Encoder
import Verif.Lemmas.Wire

/-
What the model of proton's encoder writes is an encoding.
-/

namespace Corda.Wire
open Corda Corda.Spec

private theorem bytesBE_snoc (w n : Nat) : bytesBE (w + 1) n = bytesBE w (n / 256) ++ [UInt8.ofNat n] := by
  induction w generalizing n with
  | zero => simp [bytesBE]
  | succ w ih =>
    rw [bytesBE, ih n]
    conv => rhs; rw [bytesBE]
    rw [Nat.div_div_eq_div_mul, List.cons_append, Nat.pow_succ, Nat.mul_comm 256]

theorem octets_eq (w n : Nat) : octets w n = bytesBE w n := by
  induction w generalizing n with
  | zero => rfl
  | succ w ih => rw [octets, ih, ← bytesBE_snoc]

theorem signedOctets_eq (w : Nat) (i : Int) : signedOctets w i = bytesSigned w i := by
  rw [signedOctets, bytesSigned, octets_eq, Nat.pow_mul]

private theorem sized_encodes {a8 a32 : Byte} {k : Str → Atom} (h8 : TextForm a8 1 k) (h32 : TextForm a32 4 k) {s : Str} (hs : ByteText s)
    (hl : s.length < 2 ^ 32) : Enc none (sizedText a8 a32 s) (.mk (k s) []) := by
  unfold sizedText
  split
  · rw [octets_eq]; exact .value _ _ _ (.text _ _ _ s h8 hs (by omega))
  · rw [octets_eq]; exact .value _ _ _ (.text _ _ _ s h32 hs (by omega))

theorem encode_atom {a : Atom} (h : InRange a) : Enc none (encodeAtom a) (.mk a []) := by
  cases a with
  | null => exact .value _ _ _ (.fixed _ _ _ .null)
  | bool b =>
    cases b
    · exact .value _ _ _ (.fixed _ _ _ .false)
    · exact .value _ _ _ (.fixed _ _ _ .true)
  | ubyte n => rw [encodeAtom, octets_eq]; exact .value _ _ _ (.fixed _ _ _ (.ubyte n h))
  | byte i => rw [encodeAtom, signedOctets_eq]; exact .value _ _ _ (.fixed _ _ _ (.byte i h))
  | ushort n => rw [encodeAtom, octets_eq]; exact .value _ _ _ (.fixed _ _ _ (.ushort n h))
  | short i => rw [encodeAtom, signedOctets_eq]; exact .value _ _ _ (.fixed _ _ _ (.short i h))
  | uint n =>
    rw [encodeAtom, octets_eq, octets_eq]
    split
    · exact .value _ _ _ (.fixed _ _ _ (.smalluint n (by assumption)))
    · exact .value _ _ _ (.fixed _ _ _ (.uint n h))
  | int i =>
    rw [encodeAtom, signedOctets_eq, signedOctets_eq]
    split
    · rename_i hi
      exact .value _ _ _ (.fixed _ _ _ (.smallint i (by unfold Signed; omega)))
    · exact .value _ _ _ (.fixed _ _ _ (.int i h))
  | char n => rw [encodeAtom, octets_eq]; exact .value _ _ _ (.fixed _ _ _ (.char n h))
  | ulong n =>
    rw [encodeAtom, octets_eq, octets_eq]
    split
    · exact .value _ _ _ (.fixed _ _ _ (.smallulong n (by assumption)))
    · exact .value _ _ _ (.fixed _ _ _ (.ulong n h))
  | long i =>
    rw [encodeAtom, signedOctets_eq, signedOctets_eq]
    split
    · rename_i hi
      exact .value _ _ _ (.fixed _ _ _ (.smalllong i (by unfold Signed; omega)))
    · exact .value _ _ _ (.fixed _ _ _ (.long i h))
  | timestamp i => rw [encodeAtom, signedOctets_eq]; exact .value _ _ _ (.fixed _ _ _ (.timestamp i h))
  | float n => rw [encodeAtom, octets_eq]; exact .value _ _ _ (.fixed _ _ _ (.float n h))
  | double n => rw [encodeAtom, octets_eq]; exact .value _ _ _ (.fixed _ _ _ (.double n h))
  | decimal32 n => rw [encodeAtom, octets_eq]; exact .value _ _ _ (.fixed _ _ _ (.decimal32 n h))
  | decimal64 n => rw [encodeAtom, octets_eq]; exact .value _ _ _ (.fixed _ _ _ (.decimal64 n h))
  | decimal128 n => rw [encodeAtom, octets_eq]; exact .value _ _ _ (.fixed _ _ _ (.decimal128 n h))
  | uuid n => rw [encodeAtom, octets_eq]; exact .value _ _ _ (.fixed _ _ _ (.uuid n h))
  | binary s => exact sized_encodes .vbin8 .vbin32 h.1 h.2
  | string s => exact sized_encodes .str8 .str32 h.1 h.2
  | symbol s => exact sized_encodes .sym8 .sym32 h.1 h.2
  | described => exact h.elim
  | array => exact h.elim
  | list => exact h.elim
  | map => exact h.elim

private theorem encode_of_atom {a : Atom} (h : InRange a) : encode (.mk a []) = encodeAtom a := by
  cases a <;> first | exact h.elim | rfl

private theorem encodeAll_eq (ks : List Node) : encodeAll ks = (ks.map fun k => (k, encode k)).flatMap Prod.snd := by
  induction ks with
  | nil => rfl
  | cons k ks ih => rw [encodeAll, ih]; rfl

private theorem fst_of_pairs (ks : List Node) : (ks.map fun k => (k, encode k)).map Prod.fst = ks := by
  rw [List.map_map]
  conv => rhs; rw [← List.map_id ks]
  exact List.map_congr_left fun k _ => rfl

private theorem encodes_ne_nil {b : List Byte} {n : Node} (h : Enc none b n) : 1 ≤ b.length := by
  cases h
  simp

private theorem encode_ne_nil {n : Node} (h : Proper n) : 1 ≤ (encode n).length := by
  cases h with
  | atom a h => rw [encode_of_atom h]; exact encodes_ne_nil (encode_atom h)
  | described d v hd hv => simp [encode]
  | list ks h => cases ks <;> simp [encode]
  | map ks h hm => simp [encode]

private theorem length_le_encodeAll {ks : List Node} (h : ∀ k ∈ ks, Proper k) : ks.length ≤ (encodeAll ks).length := by
  induction ks with
  | nil => simp
  | cons k ks ih =>
    have h1 := encode_ne_nil (h k (by simp))
    have h2 := ih fun k hk => h k (by simp [hk])
    simp only [encodeAll, List.length_append, List.length_cons]
    omega

private theorem encode_le_encodeAll {ks : List Node} {k : Node} (h : k ∈ ks) : (encode k).length ≤ (encodeAll ks).length := by
  induction ks with
  | nil => cases h
  | cons m ks ih =>
    simp only [encodeAll, List.length_append]
    rcases List.mem_cons.mp h with rfl | h
    · omega
    · have := ih h; omega

/-- What is written for a proper tree is an encoding of it. -/
theorem encode_encodes {n : Node} (h : Proper n) (hl : (encode n).length < 2 ^ 32) : Enc none (encode n) n := by
  induction h with
  | atom a h => rw [encode_of_atom h]; exact encode_atom h
  | described d v hd hv ihd ihv =>
    simp only [encode, encodeAll, List.append_nil, List.length_cons, List.length_append] at hl ⊢
    exact .value _ _ _ (.described _ _ d v (ihd (by omega)) (ihv (by omega)))
  | list ks h ih =>
    cases ks with
    | nil => exact .value _ _ _ .list0
    | cons k0 ks0 =>
      have hc := length_le_encodeAll h
      generalize hks : k0 :: ks0 = ks at *
      have e : encode (.mk .list ks) = 0xd0 :: (octets 4 (4 + (encodeAll ks).length) ++ (octets 4 ks.length ++ encodeAll ks)) := by
        rw [← hks, encode]
      rw [e, octets_eq, octets_eq] at hl ⊢
      simp only [List.length_cons, List.length_append, length_bytesBE] at hl
      have key := Enc.compound 0xd0 4 .list (ks.map fun k => (k, encode k)) .list32
        (by
          intro p hp
          obtain ⟨k, hk, rfl⟩ := List.mem_map.mp hp
          exact ih k hk (by have := encode_le_encodeAll hk; omega))
        (by simp) (by rw [← encodeAll_eq]; omega) (by rw [List.length_map]; omega)
      rw [fst_of_pairs, ← encodeAll_eq, List.length_map] at key
      exact .value _ _ _ key
  | map ks h hm ih =>
    have hc := length_le_encodeAll h
    rw [encode, octets_eq, octets_eq] at hl ⊢
    simp only [List.length_cons, List.length_append, length_bytesBE] at hl
    have key := Enc.compound 0xd1 4 .map (ks.map fun k => (k, encode k)) .map32
      (by
        intro p hp
        obtain ⟨k, hk, rfl⟩ := List.mem_map.mp hp
        exact ih k hk (by have := encode_le_encodeAll hk; omega))
      (by intro _; rw [List.length_map]; exact hm) (by rw [← encodeAll_eq]; omega) (by rw [List.length_map]; omega)
    rw [fst_of_pairs, ← encodeAll_eq, List.length_map] at key
    exact .value _ _ _ key

end Corda.Wire
