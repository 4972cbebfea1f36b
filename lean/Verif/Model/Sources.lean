import Verif.Model.Tools

/-
Model of what the tools do with a name that is not that of an ordinary file, or of a file that changes while it is read: the size is what `stat` says,
the content what can be read afterwards, and memory is not without bounds.  The functions of Model/CordaBytes and Model/Tools once more.
-/

namespace Corda

/-- What a name that `stat` finds stands for: `st_size`, and the bytes that reading delivers until it fails, none if the file cannot be opened or
is a directory. Not in /repo (operating system); used in libs/amqp/src/CordaBytes.cxx:25-33, 37, 60, 76. -/
structure Source where
  size : Nat
  bytes : List Byte

/-- What a tool runs on, as `System` has it, and whether `new char[n]` succeeds. Not in /repo (operating system, standard library); `new` is in
libs/amqp/src/CordaBytes.cxx:73. -/
structure Machine where
  source : Str → Option Source
  room : Nat → Bool
  decode : List Byte → Option (Nat × Node)

/-- What comes of the constructor of `CordaBytes`; `noRoom` is the `std::bad_alloc` (or `std::bad_array_new_length`) of `new`, which is no
`std::runtime_error`. libs/amqp/src/CordaBytes.cxx:19-77. -/
inductive Opening where
  | made (r : Res CordaBytes)
  | noRoom

/-- libs/amqp/src/CordaBytes.cxx:19-77, as `CordaBytes.load` has it, with the size from `stat` (33) and with `new` (73). -/
def CordaBytes.loadFrom (room : Nat → Bool) (cfg : AMQPConfig) (src : Option Source) : Opening :=
  match src with
  | none => .made (.throw "Not a file")                                           -- 28-30
  | some s =>
    match AMQP_HEADERS[cfg.header]? with
    | none => .made (.ub "AMQP_HEADERS index out of range")                       -- 33
    | some hdr =>
      let m_size := subW s.size (hdr.length + 1)                                  -- 33
      let (header, rest) := readInto (List.replicate 7 0) 7 s.bytes               -- 36-37
      if !AMQP_HEADERS.contains header && !cfg.ignoreHeader then                  -- 45-46
        .made (.throw "Not a Corda stream")                                       -- 47
      else
        match rest with
        | [] => .made (.ub "encoding read uninitialised")                         -- 59-63
        | enc :: rest =>                                                          -- 60
          if enc = 0 ∨ enc = 1 ∨ enc = 2 then                                     -- 63-67
            if room m_size then                                                   -- 73
              .made (.ok { encoding := enc
                           size := m_size
                           blob := (readInto (List.replicate m_size 0) m_size rest).1 }) -- 75-76
            else .noRoom
          else if enc = 3 then .made (.throw "Unknown encoding encountered")      -- 69
          else .made (.ub "enumeration value out of range")                       -- 62

/-- The part of `loadAndDump` behind the constructor of `CordaBytes`. bin/data-dumper/main.cxx:32-43, bin/schema-dumper/main.cxx:44-55,
bin/blob-inspector/main.cxx:27-39. -/
def dumpLoaded (m : Machine) (dump : Cursor → Res Str) (cb : CordaBytes) : Res Ended :=
  if cb.encoding = 0 then do
    let c ← AMQPBlob.make ⟨fun _ => none, m.decode⟩ cb
    let s ← dump c
    pure (.exit exitSuccess (s ++ nl))
  else pure (.exit exitFailure [])

/-- Loading and dumping; `caught` is what is around it.  No `catch` of the tools catches a `std::bad_alloc`. bin/data-dumper/main.cxx:30-47,
bin/schema-dumper/main.cxx:42-59, bin/blob-inspector/main.cxx:23-39. -/
def Machine.openAndDump (m : Machine) (caught : Res Ended → Ended) (cfg : AMQPConfig) (src : Source) (dump : Cursor → Res Str) : Ended :=
  match CordaBytes.loadFrom m.room cfg (some src) with
  | .noRoom => .terminated
  | .made r => caught (r.bind (dumpLoaded m dump))

/-- bin/data-dumper/main.cxx:17-48 -/
def Machine.dataDumper (m : Machine) (args : List Str) : Ended :=
  match args with
  | [path] =>
    match m.source path with
    | none => .exit exitFailure []
    | some src => m.openAndDump catchRuntime {} src fun c => (Prog.dumpData c).1
  | _ => .exit exitFailure []

/-- bin/schema-dumper/main.cxx:18-60 -/
def Machine.schemaDumper (m : Machine) (args : List Str) : Ended :=
  match args with
  | [path, flag] =>
    match m.source path with
    | none => .exit exitFailure []
    | some src =>
      if flag = "avro".toList then m.openAndDump catchRuntime {} src fun c => (Prog.dumpSchema .avro c).1
      else if flag = "raw".toList then m.openAndDump catchRuntime {} src fun c => (Prog.dumpSchema .raw c).1
      else .exit exitFailure []
  | _ => .exit exitFailure []

/-- bin/blob-inspector/main.cxx:11-40 -/
def Machine.blobInspector (leftFirst : Bool) (m : Machine) (args : List Str) : Ended :=
  match args with
  | [path] =>
    match m.source path with
    | none => .exit exitFailure []
    | some src => m.openAndDump uncaught { ignoreHeader := true } src fun c => (inspect leftFirst c).1
  | _ => .exit exitFailure []

end Corda
