import Verif.Model.Tools

/-
The wire format of AMQP 1.0 (OASIS standard, part 1, section 1.6), as `pn_data_decode` of qpid-proton reads it.  This is not code
of the repository: it makes the parameter `System.decode` concrete, so that whole files can be followed.
-/

namespace Corda.Wire
open Corda

/-- A number of several bytes, most significant first. AMQP 1.0 part 1; `pn_data_decode`, called in AMQPBlob.cxx:37. -/
def be (bs : List Byte) : Nat := bs.foldl (fun n b => n * 256 + b.toNat) 0

/-- Two's complement with that many bits. AMQP 1.0 part 1; `pn_data_decode`, called in AMQPBlob.cxx:37. -/
def signed (bits n : Nat) : Int := if n < 2 ^ (bits - 1) then n else n - 2 ^ bits

/-- One `char` of a string. AMQP 1.0 part 1; `pn_data_decode`, called in AMQPBlob.cxx:37. -/
def unit (b : Byte) : Char := Char.ofNat b.toNat

/-- The first bytes and the others, if there are that many. AMQP 1.0 part 1; `pn_data_decode`, called in AMQPBlob.cxx:37. -/
def split (n : Nat) (bs : List Byte) : Option (List Byte × List Byte) :=
  if n ≤ bs.length then some (bs.take n, bs.drop n) else none

/-- Codes of values of fixed width (1.6.1-1.6.18): the width and the value. AMQP 1.0 part 1; `pn_data_decode`, called in AMQPBlob.cxx:37. -/
def fixed (code : Nat) : Option (Nat × (Nat → Atom)) :=
  match code with
  | 0x40 => some (0, fun _ => .null)
  | 0x41 => some (0, fun _ => .bool true)
  | 0x42 => some (0, fun _ => .bool false)
  | 0x43 => some (0, fun _ => .uint 0)
  | 0x44 => some (0, fun _ => .ulong 0)
  | 0x50 => some (1, fun n => .ubyte n)
  | 0x51 => some (1, fun n => .byte (signed 8 n))
  | 0x52 => some (1, fun n => .uint n)
  | 0x53 => some (1, fun n => .ulong n)
  | 0x54 => some (1, fun n => .int (signed 8 n))
  | 0x55 => some (1, fun n => .long (signed 8 n))
  | 0x56 => some (1, fun n => .bool (n != 0))
  | 0x60 => some (2, fun n => .ushort n)
  | 0x61 => some (2, fun n => .short (signed 16 n))
  | 0x70 => some (4, fun n => .uint n)
  | 0x71 => some (4, fun n => .int (signed 32 n))
  | 0x72 => some (4, fun n => .float n)
  | 0x73 => some (4, fun n => .char n)
  | 0x74 => some (4, fun n => .decimal32 n)
  | 0x80 => some (8, fun n => .ulong n)
  | 0x81 => some (8, fun n => .long (signed 64 n))
  | 0x82 => some (8, fun n => .double n)
  | 0x83 => some (8, fun n => .timestamp (signed 64 n))
  | 0x84 => some (8, fun n => .decimal64 n)
  | 0x94 => some (16, fun n => .decimal128 n)
  | 0x98 => some (16, fun n => .uuid n)
  | _ => none

/-- Codes of values with a length in front (1.6.19-1.6.21): the width of the length and the value. AMQP 1.0 part 1; `pn_data_decode`, called
in AMQPBlob.cxx:37. -/
def sized (code : Nat) : Option (Nat × (Str → Atom)) :=
  match code with
  | 0xa0 => some (1, fun s => .binary s)
  | 0xa1 => some (1, fun s => .string s)
  | 0xa3 => some (1, fun s => .symbol s)
  | 0xb0 => some (4, fun s => .binary s)
  | 0xb1 => some (4, fun s => .string s)
  | 0xb3 => some (4, fun s => .symbol s)
  | _ => none

/-- Codes of lists and maps (1.6.22, 1.6.23): the width of size and count, and the value. AMQP 1.0 part 1; `pn_data_decode`, called in
AMQPBlob.cxx:37. -/
def compound (code : Nat) : Option (Nat × Atom) :=
  match code with
  | 0xc0 => some (1, .list)
  | 0xc1 => some (1, .map)
  | 0xd0 => some (4, .list)
  | 0xd1 => some (4, .map)
  | _ => none

/-- Codes of arrays (1.6.24): the width of size and count. AMQP 1.0 part 1; `pn_data_decode`, called in AMQPBlob.cxx:37. -/
def arrayWidth (code : Nat) : Option Nat :=
  match code with
  | 0xe0 => some 1
  | 0xf0 => some 4
  | _ => none

/-- Several values, all bytes used. AMQP 1.0 part 1; `pn_data_decode`, called in AMQPBlob.cxx:37. -/
def many (one : List Byte → Option (Node × List Byte)) : Nat → List Byte → Option (List Node)
  | 0, [] => some []
  | 0, _ :: _ => none
  | n + 1, bs =>
    match one bs with
    | none => none
    | some (v, rest) => (many one n rest).map (v :: ·)

/-- What follows a format code. `0x45` is the empty list. The sizes are taken at their word. Arrays of described values are left out. AMQP
1.0 part 1; `pn_data_decode`, called in AMQPBlob.cxx:37. -/
def body : Nat → Byte → List Byte → Option (Node × List Byte)
  | 0, _, _ => none
  | f + 1, code, bs =>
    let value : List Byte → Option (Node × List Byte) := fun bs => match bs with
      | [] => none
      | c :: r => body f c r
    if code = 0 then
      match value bs with
      | none => none
      | some (d, r) => (value r).map fun x => (.mk .described [d, x.1], x.2)
    else if code = 0x45 then some (.mk .list [], bs)
    else match fixed code.toNat with
    | some (w, mk) => (split w bs).map fun x => (.mk (mk (be x.1)) [], x.2)
    | none => match sized code.toNat with
      | some (w, mk) =>
        match split w bs with
        | none => none
        | some (l, r) => (split (be l) r).map fun x => (.mk (mk (x.1.map unit)) [], x.2)
      | none => match compound code.toNat with
        | some (w, a) =>
          match split w bs with
          | none => none
          | some (l, r) =>
            match split (be l) r with
            | none => none
            | some (inner, r) =>
              match split w inner with
              | none => none
              | some (n, inner) => (many value (be n) inner).map fun ks => (.mk a ks, r)
        | none => match arrayWidth code.toNat with
          | some w =>
            match split w bs with
            | none => none
            | some (l, r) =>
              match split (be l) r with
              | none => none
              | some (inner, r) =>
                match split w inner with
                | some (n, c :: inner) =>
                  if c = 0 then none else (many (body f c) (be n) inner).map fun ks => (.mk .array ks, r)
                | _ => none
          | none => none

/-- `pn_data_decode`: the first value, and how many bytes it took. AMQP 1.0 part 1; `pn_data_decode`, called in AMQPBlob.cxx:37. -/
def decode (bs : List Byte) : Option (Nat × Node) :=
  match bs with
  | [] => none
  | c :: r => (body bs.length c r).map fun x => (bs.length - x.2.length, x.1)

end Corda.Wire
