import Verif.Model.CordaBytes
import Verif.Model.Proton

/-
Model of `pn_data_encode` of qpid-proton, which CordaBytes.cxx:87-89 calls. It is not part of the repository; what is here follows the
library (`pni_node2code` in its encoder.c) and is compared with files that were saved by the real programs (Props/SavedFiles.lean).
-/

namespace Corda.Wire
open Corda

/-- A number in that many bytes, most significant first: proton's `pn_encoder_writef8` to `writef64`, called for CordaBytes.cxx:89. -/
def octets : Nat → Nat → List Byte
  | 0, _ => []
  | w + 1, n => octets w (n / 256) ++ [UInt8.ofNat n]

/-- A signed number in that many bytes, as above: two's complement. -/
def signedOctets (w : Nat) (i : Int) : List Byte := octets w (i % (2 ^ (8 * w) : Nat)).toNat

/-- A text with its length in front: in one byte if that is enough, in four if not. Proton's `PN_BINARY`, `PN_STRING`, `PN_SYMBOL`. Longer
ones than fit into four are not modelled: the length is cut (CordaBytes.cxx:87-89 does not look at errors). -/
def sizedText (short long : Byte) (s : Str) : List Byte :=
  let bytes := s.map fun c => UInt8.ofNat c.toNat
  if s.length < 256 then short :: (octets 1 s.length ++ bytes) else long :: (octets 4 s.length ++ bytes)

/-- A value without parts, as proton writes it: the short form for numbers from -128 to 127, or below 256 if there is no sign. Called for
CordaBytes.cxx:89. -/
def encodeAtom : Atom → List Byte
  | .null => [0x40]
  | .bool b => [if b then 0x41 else 0x42]
  | .ubyte n => 0x50 :: octets 1 n
  | .byte i => 0x51 :: signedOctets 1 i
  | .ushort n => 0x60 :: octets 2 n
  | .short i => 0x61 :: signedOctets 2 i
  | .uint n => if n < 256 then 0x52 :: octets 1 n else 0x70 :: octets 4 n
  | .int i => if -128 ≤ i ∧ i ≤ 127 then 0x54 :: signedOctets 1 i else 0x71 :: signedOctets 4 i
  | .char n => 0x73 :: octets 4 n
  | .ulong n => if n < 256 then 0x53 :: octets 1 n else 0x80 :: octets 8 n
  | .long i => if -128 ≤ i ∧ i ≤ 127 then 0x55 :: signedOctets 1 i else 0x81 :: signedOctets 8 i
  | .timestamp i => 0x83 :: signedOctets 8 i
  | .float n => 0x72 :: octets 4 n
  | .double n => 0x82 :: octets 8 n
  | .decimal32 n => 0x74 :: octets 4 n
  | .decimal64 n => 0x84 :: octets 8 n
  | .decimal128 n => 0x94 :: octets 16 n
  | .uuid n => 0x98 :: octets 16 n
  | .binary s => sizedText 0xa0 0xb0 s
  | .string s => sizedText 0xa1 0xb1 s
  | .symbol s => sizedText 0xa3 0xb3 s
  | _ => []

mutual

/-- A tree: a list without elements has a form of its own, other lists, and maps, have size and count in four bytes. Arrays are not modelled
(nothing in /repo puts one). Called in CordaBytes.cxx:89. -/
def encode : Node → List Byte
  | .mk .described ks => 0 :: encodeAll ks
  | .mk .list [] => [0x45]
  | .mk .list (k :: ks) =>
    0xd0 :: (octets 4 (4 + (encodeAll (k :: ks)).length) ++ (octets 4 (k :: ks).length ++ encodeAll (k :: ks)))
  | .mk .map ks => 0xd1 :: (octets 4 (4 + (encodeAll ks).length) ++ (octets 4 ks.length ++ encodeAll ks))
  | .mk a _ => encodeAtom a

/-- One after the other, as above (CordaBytes.cxx:89). -/
def encodeAll : List Node → List Byte
  | [] => []
  | k :: ks => encode k ++ encodeAll ks

end

end Corda.Wire
