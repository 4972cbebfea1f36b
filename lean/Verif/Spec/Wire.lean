import Verif.Model.CordaBytes
import Verif.Model.Writer

/-
The wire format of AMQP 1.0, part 1, section 1.6, in the direction from values to bytes: which byte sequences encode a tree.  A tree has
several encodings, as there are short and wide forms.
-/

namespace Corda.Spec
open Corda

/-- A number in that many bytes, most significant first. -/
def bytesBE : Nat → Nat → List Byte
  | 0, _ => []
  | w + 1, n => UInt8.ofNat (n / 256 ^ w) :: bytesBE w n

/-- A signed number in that many bytes. -/
def bytesSigned (w : Nat) (i : Int) : List Byte := bytesBE w (i % (256 ^ w : Nat)).toNat

/-- It fits into that many bytes as a signed number. -/
def Signed (w : Nat) (i : Int) : Prop := -(256 ^ w : Nat) ≤ 2 * i ∧ 2 * i < (256 ^ w : Nat)

/-- The bytes of a text. -/
def textBytes (s : Str) : List Byte := s.map fun c => UInt8.ofNat c.toNat

/-- Each `char` is a byte. -/
def ByteText (s : Str) : Prop := ∀ c ∈ s, c.toNat < 256

/-- Values of fixed width: format code, bytes, value (1.6.1-1.6.18). -/
inductive Fixed : Byte → List Byte → Atom → Prop where
  | null : Fixed 0x40 [] .null
  | true : Fixed 0x41 [] (.bool true)
  | false : Fixed 0x42 [] (.bool false)
  | bool (b : Bool) : Fixed 0x56 [if b then 1 else 0] (.bool b)
  | ubyte (n : Nat) (h : n < 256) : Fixed 0x50 (bytesBE 1 n) (.ubyte n)
  | ushort (n : Nat) (h : n < 2 ^ 16) : Fixed 0x60 (bytesBE 2 n) (.ushort n)
  | uint (n : Nat) (h : n < 2 ^ 32) : Fixed 0x70 (bytesBE 4 n) (.uint n)
  | smalluint (n : Nat) (h : n < 256) : Fixed 0x52 (bytesBE 1 n) (.uint n)
  | uint0 : Fixed 0x43 [] (.uint 0)
  | ulong (n : Nat) (h : n < 2 ^ 64) : Fixed 0x80 (bytesBE 8 n) (.ulong n)
  | smallulong (n : Nat) (h : n < 256) : Fixed 0x53 (bytesBE 1 n) (.ulong n)
  | ulong0 : Fixed 0x44 [] (.ulong 0)
  | byte (i : Int) (h : Signed 1 i) : Fixed 0x51 (bytesSigned 1 i) (.byte i)
  | short (i : Int) (h : Signed 2 i) : Fixed 0x61 (bytesSigned 2 i) (.short i)
  | int (i : Int) (h : Signed 4 i) : Fixed 0x71 (bytesSigned 4 i) (.int i)
  | smallint (i : Int) (h : Signed 1 i) : Fixed 0x54 (bytesSigned 1 i) (.int i)
  | long (i : Int) (h : Signed 8 i) : Fixed 0x81 (bytesSigned 8 i) (.long i)
  | smalllong (i : Int) (h : Signed 1 i) : Fixed 0x55 (bytesSigned 1 i) (.long i)
  | float (n : Nat) (h : n < 2 ^ 32) : Fixed 0x72 (bytesBE 4 n) (.float n)
  | double (n : Nat) (h : n < 2 ^ 64) : Fixed 0x82 (bytesBE 8 n) (.double n)
  | decimal32 (n : Nat) (h : n < 2 ^ 32) : Fixed 0x74 (bytesBE 4 n) (.decimal32 n)
  | decimal64 (n : Nat) (h : n < 2 ^ 64) : Fixed 0x84 (bytesBE 8 n) (.decimal64 n)
  | decimal128 (n : Nat) (h : n < 2 ^ 128) : Fixed 0x94 (bytesBE 16 n) (.decimal128 n)
  | char (n : Nat) (h : n < 2 ^ 32) : Fixed 0x73 (bytesBE 4 n) (.char n)
  | timestamp (i : Int) (h : Signed 8 i) : Fixed 0x83 (bytesSigned 8 i) (.timestamp i)
  | uuid (n : Nat) (h : n < 2 ^ 128) : Fixed 0x98 (bytesBE 16 n) (.uuid n)

/-- Texts: format code, width of the length, kind (1.6.19-1.6.21). -/
inductive TextForm : Byte → Nat → (Str → Atom) → Prop where
  | vbin8 : TextForm 0xa0 1 .binary
  | vbin32 : TextForm 0xb0 4 .binary
  | str8 : TextForm 0xa1 1 .string
  | str32 : TextForm 0xb1 4 .string
  | sym8 : TextForm 0xa3 1 .symbol
  | sym32 : TextForm 0xb3 4 .symbol

/-- Lists and maps: format code, width of size and count, kind (1.6.22, 1.6.23). -/
inductive CompoundForm : Byte → Nat → Atom → Prop where
  | list8 : CompoundForm 0xc0 1 .list
  | list32 : CompoundForm 0xd0 4 .list
  | map8 : CompoundForm 0xc1 1 .map
  | map32 : CompoundForm 0xd1 4 .map

/-- Arrays: format code, width of size and count (1.6.24). -/
inductive ArrayForm : Byte → Nat → Prop where
  | array8 : ArrayForm 0xe0 1
  | array32 : ArrayForm 0xf0 4

/-- `Enc (some c) bs n`: after the format code `c` these bytes encode the tree; `Enc none bs n`: these bytes, with a format code in
front, do. -/
inductive Enc : Option Byte → List Byte → Node → Prop where
  | value (c : Byte) (bs : List Byte) (n : Node) (h : Enc (some c) bs n) : Enc none (c :: bs) n
  | described (b1 b2 : List Byte) (d v : Node) (h1 : Enc none b1 d) (h2 : Enc none b2 v) :
      Enc (some 0) (b1 ++ b2) (.mk .described [d, v])
  | fixed (c : Byte) (bs : List Byte) (a : Atom) (h : Fixed c bs a) : Enc (some c) bs (.mk a [])
  | text (c : Byte) (w : Nat) (k : Str → Atom) (s : Str) (hf : TextForm c w k) (hs : ByteText s) (hl : s.length < 256 ^ w) :
      Enc (some c) (bytesBE w s.length ++ textBytes s) (.mk (k s) [])
  | list0 : Enc (some 0x45) [] (.mk .list [])
  | compound (c : Byte) (w : Nat) (a : Atom) (ks : List (Node × List Byte)) (hf : CompoundForm c w a)
      (hk : ∀ p ∈ ks, Enc none p.2 p.1) (hm : a = .map → ks.length % 2 = 0)
      (hs : w + (ks.flatMap Prod.snd).length < 256 ^ w) (hc : ks.length < 256 ^ w) :
      Enc (some c) (bytesBE w (w + (ks.flatMap Prod.snd).length) ++ (bytesBE w ks.length ++ ks.flatMap Prod.snd))
        (.mk a (ks.map Prod.fst))
  | array (c : Byte) (w : Nat) (e : Byte) (ks : List (Node × List Byte)) (hf : ArrayForm c w) (he : e ≠ 0)
      (hk : ∀ p ∈ ks, Enc (some e) p.2 p.1)
      (hs : w + 1 + (ks.flatMap Prod.snd).length < 256 ^ w) (hc : ks.length < 256 ^ w) :
      Enc (some c) (bytesBE w (w + 1 + (ks.flatMap Prod.snd).length) ++ (bytesBE w ks.length ++ e :: ks.flatMap Prod.snd))
        (.mk .array (ks.map Prod.fst))

/-- These bytes encode the tree. -/
def Encodes (bs : List Byte) (n : Node) : Prop := Enc none bs n

/-! One encoding, with the wide forms. -/

/-- The wide form of a value without parts. -/
def wideAtom : Atom → List Byte
  | .null => [0x40]
  | .bool b => [if b then 0x41 else 0x42]
  | .ubyte n => 0x50 :: bytesBE 1 n
  | .byte i => 0x51 :: bytesSigned 1 i
  | .ushort n => 0x60 :: bytesBE 2 n
  | .short i => 0x61 :: bytesSigned 2 i
  | .uint n => 0x70 :: bytesBE 4 n
  | .int i => 0x71 :: bytesSigned 4 i
  | .char n => 0x73 :: bytesBE 4 n
  | .ulong n => 0x80 :: bytesBE 8 n
  | .long i => 0x81 :: bytesSigned 8 i
  | .timestamp i => 0x83 :: bytesSigned 8 i
  | .float n => 0x72 :: bytesBE 4 n
  | .double n => 0x82 :: bytesBE 8 n
  | .decimal32 n => 0x74 :: bytesBE 4 n
  | .decimal64 n => 0x84 :: bytesBE 8 n
  | .decimal128 n => 0x94 :: bytesBE 16 n
  | .uuid n => 0x98 :: bytesBE 16 n
  | .binary s => 0xb0 :: (bytesBE 4 s.length ++ textBytes s)
  | .string s => 0xb1 :: (bytesBE 4 s.length ++ textBytes s)
  | .symbol s => 0xb3 :: (bytesBE 4 s.length ++ textBytes s)
  | _ => []

/-- A value without parts that is in the range of its type. -/
def InRange : Atom → Prop
  | .null => True
  | .bool _ => True
  | .ubyte n => n < 256
  | .byte i => Signed 1 i
  | .ushort n => n < 2 ^ 16
  | .short i => Signed 2 i
  | .uint n => n < 2 ^ 32
  | .int i => Signed 4 i
  | .char n => n < 2 ^ 32
  | .ulong n => n < 2 ^ 64
  | .long i => Signed 8 i
  | .timestamp i => Signed 8 i
  | .float n => n < 2 ^ 32
  | .double n => n < 2 ^ 64
  | .decimal32 n => n < 2 ^ 32
  | .decimal64 n => n < 2 ^ 64
  | .decimal128 n => n < 2 ^ 128
  | .uuid n => n < 2 ^ 128
  | .binary s => ByteText s ∧ s.length < 2 ^ 32
  | .string s => ByteText s ∧ s.length < 2 ^ 32
  | .symbol s => ByteText s ∧ s.length < 2 ^ 32
  | _ => False

mutual

/-- The encoding with wide forms of a tree without arrays. -/
def wide : Node → List Byte
  | .mk .described ks => 0 :: wides ks
  | .mk .list ks => 0xd0 :: (bytesBE 4 (4 + (wides ks).length) ++ (bytesBE 4 ks.length ++ wides ks))
  | .mk .map ks => 0xd1 :: (bytesBE 4 (4 + (wides ks).length) ++ (bytesBE 4 ks.length ++ wides ks))
  | .mk a _ => wideAtom a

/-- One after the other. -/
def wides : List Node → List Byte
  | [] => []
  | k :: ks => wide k ++ wides ks

end

/-- Trees without arrays as AMQP has them: values in range, described values have a descriptor and a value, maps come in pairs. -/
inductive Proper : Node → Prop where
  | atom (a : Atom) (h : InRange a) : Proper (.mk a [])
  | described (d v : Node) (hd : Proper d) (hv : Proper v) : Proper (.mk .described [d, v])
  | list (ks : List Node) (h : ∀ k ∈ ks, Proper k) : Proper (.mk .list ks)
  | map (ks : List Node) (h : ∀ k ∈ ks, Proper k) (hm : ks.length % 2 = 0) : Proper (.mk .map ks)

/-! Objects a C++ program can hold. -/

/-- Made of bytes, and not longer than AMQP allows. -/
def TextFits (s : Str) : Prop := ByteText s ∧ s.length < 2 ^ 32

/-- In the range of the C++ type. -/
def PrimFits : Prim → Prop
  | .int n => Signed 4 n
  | .string s => TextFits s
  | .bool _ => True
  | .float n => n < 2 ^ 32
  | .double n => n < 2 ^ 64
  | .long n => Signed 8 n
  | .char _ => True

mutual

/-- All names, fingerprints, types and values in an object are. -/
def ObjFits : Obj → Prop
  | .comp n f ms => TextFits n ∧ TextFits f ∧ MembersFit ms
  | .list n f es => TextFits n ∧ TextFits f ∧ ElemsFit es
  | .map n f es => TextFits n ∧ TextFits f ∧ EntriesFit es

def MemberFits : Member → Prop
  | .prim n _ v => TextFits n ∧ PrimFits v
  | .nullPrim n _ => TextFits n
  | .obj n t _ o => TextFits n ∧ TextFits t ∧ ObjFits o
  | .nullObj n t => TextFits n ∧ TextFits t

def ElemFits : Elem → Prop
  | .prim v => PrimFits v
  | .nullPrim _ => True
  | .obj o => ObjFits o

def MembersFit : List Member → Prop
  | [] => True
  | m :: ms => MemberFits m ∧ MembersFit ms

def ElemsFit : List Elem → Prop
  | [] => True
  | e :: es => ElemFits e ∧ ElemsFit es

def EntriesFit : List Entry → Prop
  | [] => True
  | .mk k v :: es => ElemFits k ∧ ElemFits v ∧ EntriesFit es

end

end Corda.Spec
