import Verif.Model.Basic

/-
Model of libs/amqp/src/CordaBytes.cxx: the on-disk framing of a Corda AMQP blob.
-/

namespace Corda

/-- One byte of a file. `char` in CordaBytes.cxx:36-37, 59-60, 73-76. -/
abbrev Byte := UInt8

/-- libs/amqp/include/AMQPConfig.h:11-15 -/
structure AMQPConfig where
  ignoreHeader : Bool := false
  header : Nat := 1          -- header::AMQP_DEFAULT = AMQP_V2 = 1 (AMQPHeader.h:13-19)
  deriving DecidableEq, Repr

/-- libs/amqp/include/AMQPHeader.h:27-29, `AMQP_HEADER_V1` -/
def AMQP_HEADER_V1 : List Byte := [99, 111, 114, 100, 97, 1, 0]

/-- libs/amqp/include/AMQPHeader.h:31-33, `AMQP_HEADER_DP` -/
def AMQP_HEADER_DP : List Byte := [99, 111, 114, 100, 97, 1, 0]

/-- libs/amqp/include/AMQPHeader.h:35-38, `AMQP_HEADERS` -/
def AMQP_HEADERS : List (List Byte) := [AMQP_HEADER_V1, AMQP_HEADER_DP]

/-- libs/amqp/include/CordaBytes.h:29-34.  `encoding` is the numeric value of the section id
(AMQPSectionId.h:11-15: DATA_AND_STOP = 0, ALT_DATA_AND_STOP = 1, ENCODING = 2). -/
structure CordaBytes where
  encoding : Byte
  size : Nat
  blob : List Byte
  deriving DecidableEq, Repr

/-- `std::ifstream::read(buf, n)` into a buffer holding `old`: what is available overwrites a prefix of the buffer; the rest of the buffer
keeps its old contents. Returns the buffer and the unread rest of the file. Not in /repo (standard library); called in CordaBytes.cxx:37,
60, 76. -/
def readInto (old : List Byte) (n : Nat) (file : List Byte) : List Byte × List Byte :=
  (file.take n ++ old.drop (file.take n).length, file.drop n)

/-- libs/amqp/src/CordaBytes.cxx:19-77, `CordaBytes(const std::string &, uPtr<AMQPConfig>)`.

`file` is `none` when `stat` fails, otherwise the whole content of the file.  `config_->header` outside the
header table is an out-of-range `std::array` access (line 33).  The local `char encoding` (59) is not
initialised, so when the file has no eighth byte the `switch` on it (63) reads an indeterminate value: `ub`.
The enumeration has no fixed underlying type and its values are 0..3, the numbers of two bits, so converting any other
byte to it (62) is `ub` ([expr.static.cast]); compilers usually keep the value, and then the `switch` throws.
What it writes to `std::cerr` (49-52) is in Model/StdErr.lean. -/
def CordaBytes.load (cfg : AMQPConfig) (file : Option (List Byte)) : Res CordaBytes :=
  match file with
  | none => .throw "Not a file"                                                   -- 28-30
  | some content =>
    match AMQP_HEADERS[cfg.header]? with
    | none => .ub "AMQP_HEADERS index out of range"                               -- 33
    | some hdr =>
      let m_size := subW content.length (hdr.length + 1)                          -- 33
      let (header, rest) := readInto (List.replicate 7 0) 7 content                -- 36-37
      if !AMQP_HEADERS.contains header && !cfg.ignoreHeader then                  -- 45-46
        .throw "Not a Corda stream"                                               -- 47
      else
        match rest with
        | [] => .ub "encoding read uninitialised"                                 -- 59-63
        | enc :: rest =>                                                          -- 60
          if enc = 0 ∨ enc = 1 ∨ enc = 2 then                                     -- 63-67
            .ok { encoding := enc
                  size := m_size
                  blob := (readInto (List.replicate m_size 0) m_size rest).1 }    -- 73-76
          else if enc = 3 then .throw "Unknown encoding encountered"              -- 69
          else .ub "enumeration value out of range"                               -- 62

/-- libs/amqp/src/CordaBytes.cxx:81-90, `CordaBytes(const AMQPBlob &, uPtr<AMQPConfig>)`.
`encoded` is what `pn_data_encode` produces (external library). -/
def CordaBytes.ofBlob (encoded : List Byte) : CordaBytes :=
  { encoding := 0, size := encoded.length, blob := encoded }

/-- libs/amqp/src/CordaBytes.cxx:94-104, `toFile`: the content of the written file. -/
def CordaBytes.toFile (b : CordaBytes) : List Byte :=
  (AMQP_HEADERS[1]'(by decide)).take 7 ++ [0] ++ b.blob.take b.size

end Corda
