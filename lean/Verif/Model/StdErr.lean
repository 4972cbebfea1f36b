import Verif.Model.Tools

/-
What the programs write to standard error: libs/amqp/src/CordaBytes.cxx:49-52, bin/data-dumper/main.cxx, bin/schema-dumper/main.cxx,
bin/blob-inspector/main.cxx, the usage lines of bin/writer-tests and bin/reader-tests.

Simplifications: not here are the line for a number where a described value is expected (proton_wrapper.cxx:180-182), what the runtime says when an
exception leaves `main`, what a failed assertion says, and `ARSE` (bin/reader-tests/reader-test-02-nested-composite/DeSerialiseMe.cxx:27).
-/

namespace Corda

/-- A piece of standard error: a text, or `e.what()` of the exception that the model calls `m` (bin/data-dumper/main.cxx:45,
bin/schema-dumper/main.cxx:57); the real text has more in it, such as the line of the program. -/
inductive ErrPiece where
  | text (s : Str)
  | what (m : String)
  deriving DecidableEq, Repr

/-- `static_cast<int>` of a `char`, which may have a sign or not: `std::ostream_iterator<int>`, CordaBytes.cxx:50-51. -/
def charInt (signed : Bool) (b : Byte) : Int := if signed ∧ 128 ≤ b.toNat then (b.toNat : Int) - 256 else b.toNat

/-- CordaBytes.cxx:49-52 -/
def badHeader (signed : Bool) (header : List Byte) : Str :=
  "Bad Header: ".toList ++ (header.map fun b => intStr (charInt signed b) ++ " ".toList).flatten ++ nl

/-- CordaBytes.cxx:45-54: what the constructor writes. -/
def CordaBytes.loadErr (signed : Bool) (cfg : AMQPConfig) (file : Option (List Byte)) : List ErrPiece :=
  match file with
  | none => []
  | some content =>
    match AMQP_HEADERS[cfg.header]? with
    | none => []
    | some _ =>
      let header := (readInto (List.replicate 7 0) 7 content).1
      if AMQP_HEADERS.contains header then []
      else if cfg.ignoreHeader then [.text (badHeader signed header)] else []

/-- bin/data-dumper/main.cxx:37-38, bin/schema-dumper/main.cxx:49-50, bin/blob-inspector/main.cxx:33-34; the enumeration is written as a number. -/
def badEncoding (e : Byte) : Str := "BAD ENCODING ".toList ++ natStr e.toNat ++ " != ".toList ++ natStr 0 ++ nl

/-- `loadAndDump` with standard error. bin/data-dumper/main.cxx:30-43, bin/schema-dumper/main.cxx:42-55, bin/blob-inspector/main.cxx:23-39. -/
def loadAndDumpErr (signed : Bool) (cfg : AMQPConfig) (sys : System) (path : Str) (dump : Cursor → Res Str) : Res Ended × List ErrPiece :=
  let said := CordaBytes.loadErr signed cfg (sys.file path)
  match CordaBytes.load cfg (sys.file path) with
  | .ok cb =>
    if cb.encoding = 0 then
      (do
        let c ← AMQPBlob.make sys cb
        let s ← dump c
        pure (.exit exitSuccess (s ++ nl)), said)
    else (.ok (.exit exitFailure []), said ++ [.text (badEncoding cb.encoding)])
  | .throw m => (.throw m, said)
  | .ub w => (.ub w, said)

/-- The `catch` with standard error: bin/data-dumper/main.cxx:44-47, bin/schema-dumper/main.cxx:56-59. -/
def catchRuntimeErr : Res Ended × List ErrPiece → Ended × List ErrPiece
  | (.ok e, said) => (e, said)
  | (.throw m, said) => if isRuntimeError m then (.exit exitFailure [], said ++ [.what m, .text nl]) else (.terminated, said)
  | (.ub w, said) => (.ub w, said)

/-- bin/data-dumper/main.cxx:17-48, with standard error; the usage is in line 20. -/
def dataDumperErr (signed : Bool) (sys : System) (args : List Str) : Ended × List ErrPiece :=
  match args with
  | [path] =>
    match sys.file path with
    | none => (.exit exitFailure [], [])
    | some _ => catchRuntimeErr (loadAndDumpErr signed {} sys path fun c => (Prog.dumpData c).1)
  | _ => (.exit exitFailure [], [.text ("ERROR! - usage".toList ++ nl ++ "\t./data-dumper file".toList ++ nl)])

/-- bin/schema-dumper/main.cxx:21, 38 -/
def schemaDumperUsage : Str := "ERROR! - usage".toList ++ nl ++ "\t./schema-dumper file <mode>".toList ++ nl

/-- bin/schema-dumper/main.cxx:18-60, with standard error. -/
def schemaDumperErr (signed : Bool) (sys : System) (args : List Str) : Ended × List ErrPiece :=
  match args with
  | [path, flag] =>
    match sys.file path with
    | none => (.exit exitFailure [], [])
    | some _ =>
      if flag = "avro".toList then catchRuntimeErr (loadAndDumpErr signed {} sys path fun c => (Prog.dumpSchema .avro c).1)
      else if flag = "raw".toList then catchRuntimeErr (loadAndDumpErr signed {} sys path fun c => (Prog.dumpSchema .raw c).1)
      else (.exit exitFailure [], [.text schemaDumperUsage])
  | _ => (.exit exitFailure [], [.text schemaDumperUsage])

/-- bin/blob-inspector/main.cxx:11-40, with standard error. -/
def blobInspectorErr (signed leftFirst : Bool) (sys : System) (args : List Str) : Ended × List ErrPiece :=
  match args with
  | [path] =>
    match sys.file path with
    | none => (.exit exitFailure [], [])
    | some _ =>
      match loadAndDumpErr signed { ignoreHeader := true } sys path fun c => (inspect leftFirst c).1 with
      | (r, said) => (uncaught r, said)
  | _ => (.exit exitFailure [], [])

/-- The sample programs that want the name of a file: what they are called (`add_executable` in the `CMakeLists.txt` of bin/writer-tests/writer-test-01
to -12 and bin/reader-tests/reader-test-01), and what they are called in what they say without one (line 14 or 15 of their `main.cxx`). -/
def sampleUsages : List (String × String) :=
  [("writer-test-1", "writer-test-1"), ("writer-test-2", "writer-test-2"), ("writer-test-3", "writer-test-3"), ("writer-test-4", "writer-test-4"),
   ("writer-test-5", "writer-test-5"), ("writer-test-06", "writer-test-06"), ("writer-test-07", "writer-test-06"),
   ("writer-test-08", "writer-test-06"), ("writer-test-09", "writer-test-06"), ("writer-test-10", "writer-test-06"),
   ("writer-test-11", "writer-test-06"), ("writer-test-12", "writer-test-06"), ("reader-test-01", "reader-test-1")]

end Corda
