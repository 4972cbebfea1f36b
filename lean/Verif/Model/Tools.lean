import Verif.Model.CordaBytes
import Verif.Model.RawDump
import Verif.Model.SchemaDump

/-
Model of the command line tools: bin/blob-inspector/main.cxx, bin/data-dumper/main.cxx, bin/schema-dumper/main.cxx with the
constructor of the blob, libs/amqp/src/AMQPBlob.cxx:30-41.
-/

namespace Corda

/-- What a tool runs on: the files (`none` where `stat` fails) and `pn_data_decode` of qpid-proton, which answers how many
bytes the first value took and what it is, or fails with a negative code. -/
structure System where
  file : Str → Option (List Byte)
  decode : List Byte → Option (Nat × Node)

/-- How a process ends.  `out` is what `main` itself wrote to standard output, which each tool does in one statement, the last before it
returns.  Not here: standard error (Model/StdErr.lean), and the trace that the library writes to standard output before that (`DBG`, which is switched on
unconditionally in corda-utils/include/debug.h:5, and `STRING` lines, proton_wrapper.cxx:578); it is in Model/Trace.lean, Model/SchemaTrace.lean and Model/InspectTrace.lean. -/
inductive Ended where
  /-- `main` returned. -/
  | exit (code : Nat) (out : Str)
  /-- An exception left `main`: `std::terminate`, the process is aborted. -/
  | terminated
  | ub (why : String)
  deriving DecidableEq, Repr

/-- `EXIT_SUCCESS`, `EXIT_FAILURE` (cstdlib). bin/data-dumper/main.cxx, bin/schema-dumper/main.cxx, bin/blob-inspector/main.cxx. -/
def exitSuccess : Nat := 0
/-- `EXIT_FAILURE` (cstdlib): bin/data-dumper/main.cxx, bin/schema-dumper/main.cxx, bin/blob-inspector/main.cxx. -/
def exitFailure : Nat := 1

/-- Which of the exceptions of the model derive from `std::runtime_error`: all but the `std::out_of_range` of `std::string::substr` and
`std::bad_cast`. The `catch` of bin/data-dumper/main.cxx:44-47, bin/schema-dumper/main.cxx:56-59. -/
def isRuntimeError (m : String) : Bool := m ≠ "basic_string::substr" && m ≠ "std::bad_cast" && m ≠ "bad_cast"

/-- AMQPBlob.cxx:29-39: decode; line 38 asserts that all bytes were used. -/
def AMQPBlob.make (sys : System) (cb : CordaBytes) : Res Cursor :=
  match sys.decode cb.blob with
  | some (used, n) => if used = cb.size then .ok (Cursor.root n) else .ub "assert"
  | none => .ub "assert"

/-- What happens when an exception arrives at a `catch (const std::runtime_error &)` around everything
(bin/data-dumper/main.cxx:44-47, bin/schema-dumper/main.cxx:56-59). -/
def catchRuntime : Res Ended → Ended
  | .ok e => e
  | .throw m => if isRuntimeError m then .exit exitFailure [] else .terminated
  | .ub w => .ub w

/-- The same without a `catch`. bin/blob-inspector/main.cxx:11-40. -/
def uncaught : Res Ended → Ended
  | .ok e => e
  | .throw _ => .terminated
  | .ub w => .ub w

/-- bin/data-dumper/main.cxx:30-43, bin/schema-dumper/main.cxx:42-55, bin/blob-inspector/main.cxx:23-39: load, check the encoding, make the
blob, dump, print. -/
def loadAndDump (cfg : AMQPConfig) (sys : System) (path : Str) (dump : Cursor → Res Str) : Res Ended := do
  let cb ← CordaBytes.load cfg (sys.file path)
  if cb.encoding = 0 then do
    let c ← AMQPBlob.make sys cb
    let s ← dump c
    pure (.exit exitSuccess (s ++ nl))
  else pure (.exit exitFailure [])

/-- bin/data-dumper/main.cxx:17-48; `args` are the arguments without the name of the program. -/
def dataDumper (sys : System) (args : List Str) : Ended :=
  match args with
  | [path] =>
    match sys.file path with
    | none => .exit exitFailure []
    | some _ => catchRuntime (loadAndDump {} sys path fun c => (Prog.dumpData c).1)
  | _ => .exit exitFailure []

/-- bin/schema-dumper/main.cxx:18-60 -/
def schemaDumper (sys : System) (args : List Str) : Ended :=
  match args with
  | [path, flag] =>
    match sys.file path with
    | none => .exit exitFailure []
    | some _ =>
      if flag = "avro".toList then catchRuntime (loadAndDump {} sys path fun c => (Prog.dumpSchema .avro c).1)
      else if flag = "raw".toList then catchRuntime (loadAndDump {} sys path fun c => (Prog.dumpSchema .raw c).1)
      else .exit exitFailure []
  | _ => .exit exitFailure []

/-- bin/blob-inspector/main.cxx:11-40; the header is not looked at (22). -/
def blobInspector (leftFirst : Bool) (sys : System) (args : List Str) : Ended :=
  match args with
  | [path] =>
    match sys.file path with
    | none => .exit exitFailure []
    | some _ => uncaught (loadAndDump { ignoreHeader := true } sys path fun c => (inspect leftFirst c).1)
  | _ => .exit exitFailure []

end Corda
