import Verif.Model.Programs
import Verif.Model.ReadTrace
import Verif.Model.WriteTrace
import Verif.Model.Tools

/-
Model of the sample programs in bin/reader-tests and bin/writer-tests as processes: how they end, all they print on standard output, and the
files they write.
-/

namespace Corda.Programs
open Corda

/-- What a program runs on: as `System`, and `pn_data_encode` of qpid-proton (called in CordaBytes.cxx:87-89, which does not look at what it
returns: that it succeeds is assumed) and which files can be opened for writing (CordaBytes.cxx:99). -/
structure World extends System where
  encode : Node → List Byte
  creates : Str → Bool

/-- What a process did: how it ended, its standard output piece by piece, the files it wrote.  After an exception that is not caught the
output is that with the destructors run, which the language leaves open. E.g. bin/reader-tests/reader-test-02-nested-composite/main.cxx:12-31. -/
structure Process where
  ended : Ended
  out : List Str
  written : List (Str × List Byte)
  deriving DecidableEq

/-- The answers of `__FILE__` (libs/corda-utils/include/debug.h:18) in the files of a program, in types.h and in CordaBytes.cxx. -/
structure ProgFiles where
  main : Str
  own : Str
  types : Str
  bytes : Str

/-- What `javaTypeName<decltype(this)> ()` in a constructor prints for a class in no namespace: types.h:125, 138. -/
def nameTold (f : ProgFiles) (n : Str) : List Str :=
  [traceLine f.types 125 ("javaTypeName = ".toList ++ n), traceLine f.types 138 ("javaTypeName RTN = ".toList ++ javaClassName n)]

/-- CordaBytes.cxx:94-104, `toFile`: what it prints. -/
def toFileTold (f : ProgFiles) (path : Str) : Str := traceLine f.bytes 97 ("toFile - ".toList ++ path)

/-- CordaBytes.cxx:94-104, `toFile`: what it writes; that the file cannot be opened is not noticed (99), and writing to it then does
nothing (100-103). -/
def saved (world : World) (path : Str) (n : Node) : List (Str × List Byte) :=
  if world.creates path then [(path, (CordaBytes.ofBlob (world.encode n)).toFile)] else []

/-- The programs in bin/writer-tests: make an object (`made` is what the constructors print), serialise it, save it.  E.g.
bin/writer-tests/writer-test-02/main.cxx:11-27; the others differ in the object. A blob has one tree (ModifiableAMQPBlobImpl.cxx:256-259);
the last case of the inner `match` does not occur. -/
def writerMain (w : Compiled) (f : ProgFiles) (world : World) (made : List Str) (o : Obj) (args : List Str) : Process :=
  match args with
  | [path] =>
    match serialiseTold w o with
    | (.ok [n], out) => ⟨.exit exitSuccess [], made ++ out ++ [toFileTold f path], saved world path n⟩
    | (.ok _, out) => ⟨.ub "not one tree", made ++ out, []⟩
    | (.throw _, out) => ⟨.terminated, made ++ out, []⟩
    | (.ub m, out) => ⟨.ub m, made ++ out, []⟩
  | _ => ⟨.exit exitFailure [], [], []⟩

/-- bin/reader-tests/reader-test-01/main.cxx:12-30: load a file, deserialise an object from it, show it (`shown`). The encoding is not
looked at. -/
def readerMain (w : ReadCompiled) (sys : System) (p : NProp) (shown : RVal → List Str) (args : List Str) : Process :=
  match args with
  | [path] =>
    match CordaBytes.load {} (sys.file path) with
    | .ok cb =>
      match AMQPBlob.make sys cb with
      | .ok c =>
        match TProg.deserialise w p c with
        | ((.ok v, _), out) => ⟨.exit exitSuccess (shown v).flatten, out ++ shown v, []⟩
        | ((.throw _, _), out) => ⟨.terminated, out, []⟩
        | ((.ub m, _), out) => ⟨.ub m, out, []⟩
      | .throw _ => ⟨.terminated, [], []⟩
      | .ub m => ⟨.ub m, [], []⟩
    | .throw _ => ⟨.terminated, [], []⟩
    | .ub m => ⟨.ub m, [], []⟩
  | _ => ⟨.exit exitFailure [], [], []⟩

/-- The other programs in bin/reader-tests: make an object, serialise it, save it to `serialized.bin`, deserialise it from the blob and show
it. E.g. bin/reader-tests/reader-test-02-nested-composite/main.cxx:12-31; the others differ in the object and in what they show. -/
def roundTripMain (w : Compiled) (r : ReadCompiled) (f : ProgFiles) (world : World) (made : List Str) (o : Obj) (between : List Str)
    (p : NProp) (shown : RVal → List Str) (args : List Str) : Process :=
  match args with
  | [] =>
    match serialiseTold w o with
    | (.ok [n], out) =>
      let before := made ++ out ++ [toFileTold f "serialized.bin".toList] ++ between
      let files := saved world "serialized.bin".toList n
      match TProg.deserialise r p (Cursor.root n) with
      | ((.ok v, _), back) => ⟨.exit exitSuccess (shown v).flatten, before ++ back ++ shown v, files⟩
      | ((.throw _, _), back) => ⟨.terminated, before ++ back, files⟩
      | ((.ub m, _), back) => ⟨.ub m, before ++ back, files⟩
    | (.ok _, out) => ⟨.ub "not one tree", made ++ out, []⟩
    | (.throw _, out) => ⟨.terminated, made ++ out, []⟩
    | (.ub m, out) => ⟨.ub m, made ++ out, []⟩
  | _ => ⟨.exit exitFailure [], [], []⟩

/-- `DBG ("\n\nDESERIALISE\n\n")`: reader-test-02-nested-composite/main.cxx:24, reader-test-03-composite-ptr/main.cxx:27,
reader-test-04-many-prims/main.cxx:27, reader-test-05-many-diff-prims/main.cxx:27. -/
def banner (f : ProgFiles) (line : Nat) : List Str :=
  ["[".toList ++ f.main ++ "::".toList ++ natStr line ++ "] \n\nDESERIALISE\n\n".toList]

/-! ### bin/reader-tests/reader-test-01 -/

/-- bin/reader-tests/reader-test-01/DeSerialiseMe.cxx:42-52, with the name of the class. -/
def class01 : NProp := .obj false nDSM (.mk [.prim false .int, .prim true .int])

/-- The constructor, bin/reader-tests/reader-test-01/DeSerialiseMe.cxx:28-37; there is nothing else than two `int` (48-49). -/
def compiled01 (r : ReadCompiled) (f : ProgFiles) : ReadCompiled :=
  { r with
    before := fun _ => []
    after := fun n v => nameTold f n ++ match v with
      | .obj [.prim (.int a), .prim (.int b)] =>
        [traceLine f.own 35 ("m_val = ".toList ++ intStr a), traceLine f.own 36 ("m_val2 = ".toList ++ intStr b)]
      | _ => [] }

/-- bin/reader-tests/reader-test-01/main.cxx:26-27 -/
def shown01 : RVal → List Str
  | .obj [.prim (.int a), .prim (.int b)] =>
    [intStr a ++ ", ".toList ++ intStr b ++ nl, "Fingerprint = ".toList ++ fDSM123 ++ nl]
  | _ => []

/-- bin/reader-tests/reader-test-01/main.cxx:12-30 -/
def readerTest01 (r : ReadCompiled) (f : ProgFiles) (sys : System) (args : List Str) : Process :=
  readerMain (compiled01 r f) sys class01 shown01 args

/-! ### The programs that write and read -/

/-- The types of the members of `Outer` in reader-test-02 to 05: SerialiserFactoryWriters.h:145, 168. -/
def innerMembers (w : Compiled) : Compiled := { w with memberType := fun _ => .other nInner, impl := fun _ => [] }

/-- What the classes of reader-test-02 to 05 print when they are read: `Inner::deserialiseImpl` says the number of values (`word` before
it), then the constructors have their names asked for.  reader-test-02-nested-composite/DeSerialiseMe.cxx:18-29, 52, 62-66,
reader-test-03-composite-ptr/DeSerialiseMe.cxx:18-25, 49, 59-67, reader-test-04-many-prims/DeSerialiseMe.cxx:12-22, 55, 65-69,
reader-test-05-many-diff-prims/DeSerialiseMe.cxx:18-30, 63, 73-77. -/
def innerReads (r : ReadCompiled) (f : ProgFiles) (word : Str) : ReadCompiled :=
  { r with
    before := fun _ => []
    after := fun n v => (match v with
      | .obj vs => if n = nInner then [word ++ natStr vs.length ++ nl] else []
      | .prim _ => []) ++ nameTold f n }

/-- bin/reader-tests/reader-test-02-nested-composite/DeSerialiseMe.cxx:44-54, 81-89, with the names of the classes. -/
def class02 : NProp := .obj false nOuter (.mk [.obj false nInner (.mk [.prim false .int])])

/-- bin/reader-tests/reader-test-02-nested-composite/main.cxx:28 -/
def shown02 : RVal → List Str
  | .obj [.obj [.prim (.int a)]] => [javaClassName nOuter ++ ":: ".toList ++ intStr a ++ nl]
  | _ => []

/-- bin/reader-tests/reader-test-02-nested-composite/main.cxx:12-31, with any number for the 100; DeSerialiseMe.h:36-39, 68-71 (what is printed
when the object is made). -/
def readerTest02 (w : Compiled) (r : ReadCompiled) (f : ProgFiles) (world : World) (val : Int) (args : List Str) : Process :=
  roundTripMain (innerMembers w) (innerReads r f "Inner::deserialiseImple:".toList) f world (nameTold f nOuter ++ nameTold f nInner)
    (reader02Obj val) (banner f 24) class02 shown02 args

/-- bin/reader-tests/reader-test-03-composite-ptr/DeSerialiseMe.cxx:40-51, 82-91, with the names of the classes. -/
def class03 : NProp := .obj false nOuter (.mk [.obj false nInner (.mk [.prim false .int, .prim false .int]),
  .obj true nInner (.mk [.prim false .int, .prim false .int])])

/-- bin/reader-tests/reader-test-03-composite-ptr/main.cxx:31 -/
def shown03 : RVal → List Str
  | .obj [.obj [.prim (.int a), .prim (.int b)], .obj [.prim (.int c), .prim (.int d)]] =>
    [intStr a ++ " ".toList ++ intStr b ++ " ".toList ++ intStr c ++ " ".toList ++ intStr d ++ nl]
  | _ => []

/-- bin/reader-tests/reader-test-03-composite-ptr/main.cxx:12-34, with any numbers for 1 to 4 (DeSerialiseMe.h:29-33, 61-65). -/
def readerTest03 (w : Compiled) (r : ReadCompiled) (f : ProgFiles) (world : World) (a b : Int × Int) (args : List Str) : Process :=
  roundTripMain (innerMembers w) (innerReads r f "Inner::deserialiseImpl:".toList) f world
    (nameTold f nOuter ++ nameTold f nInner ++ nameTold f nInner) (reader03Obj a b) (banner f 27) class03 shown03 args

/-- bin/reader-tests/reader-test-04-many-prims/DeSerialiseMe.cxx:42-57, 84-92, with the names of the classes. -/
def class04 : NProp := .obj false nOuter (.mk [.obj false nInner (.mk [.prim false .int, .prim false .int, .prim false .int,
  .prim false .int, .prim false .int, .prim false .int])])

/-- bin/reader-tests/reader-test-04-many-prims/main.cxx:31-37 -/
def shown04 : RVal → List Str
  | .obj [.obj [.prim (.int a), .prim (.int b), .prim (.int c), .prim (.int d), .prim (.int e), .prim (.int g)]] =>
    [javaClassName nOuter ++ ":: ".toList ++ nl, "  ".toList ++ intStr a ++ nl, "  ".toList ++ intStr b ++ nl, "  ".toList ++ intStr c ++ nl,
     "  ".toList ++ intStr d ++ nl, "  ".toList ++ intStr e ++ nl, "  ".toList ++ intStr g ++ nl]
  | _ => []

/-- bin/reader-tests/reader-test-04-many-prims/main.cxx:12-41, with any numbers for 100 to 600. -/
def readerTest04 (w : Compiled) (r : ReadCompiled) (f : ProgFiles) (world : World) (a b c d e g : Int) (args : List Str) : Process :=
  roundTripMain (innerMembers w) (innerReads r f "Inner::deserialiseImpl:".toList) f world (nameTold f nOuter ++ nameTold f nInner)
    (reader04Obj a b c d e g) (banner f 27) class04 shown04 args

/-- bin/reader-tests/reader-test-05-many-diff-prims/DeSerialiseMe.cxx:50-65, 92-100, with the names of the classes. -/
def class05 : NProp := .obj false nOuter (.mk [.obj false nInner (.mk [.prim false .int, .prim false .string, .prim false .double,
  .prim false .long, .prim false .bool, .prim false .float])])

/-- bin/reader-tests/reader-test-05-many-diff-prims/main.cxx:31-37; `<<` as in the library. -/
def shown05 (r : ReadCompiled) : RVal → List Str
  | .obj [.obj [.prim a, .prim b, .prim c, .prim d, .prim e, .prim g]] =>
    [javaClassName nOuter ++ ":: ".toList ++ nl, "  ".toList ++ a.readShown r ++ nl, "  ".toList ++ b.readShown r ++ nl,
     "  ".toList ++ c.readShown r ++ nl, "  ".toList ++ d.readShown r ++ nl, "  ".toList ++ e.readShown r ++ nl,
     "  ".toList ++ g.readShown r ++ nl]
  | _ => []

/-- bin/reader-tests/reader-test-05-many-diff-prims/main.cxx:12-40, with any values for 100, "Hello World", 300, 4000000000, true, 69.96. -/
def readerTest05 (w : Compiled) (r : ReadCompiled) (f : ProgFiles) (world : World) (a : Int) (b : Str) (c : Nat) (d : Int) (e : Bool) (g : Nat)
    (args : List Str) : Process :=
  roundTripMain (innerMembers w) (innerReads r f "Inner::deserialiseImpl:".toList) f world (nameTold f nOuter ++ nameTold f nInner)
    (reader05Obj a b c d e g) (banner f 27) class05 (shown05 r) args

/-- bin/reader-tests/reader-test-06-int-list/DeSerialiseMe.cxx:39-50, with the names of the classes; that of the vector is up to the
compiler. -/
def class06 (vector : Str) : NProp := .obj false nDSM (.mk [.vector vector])

/-- bin/reader-tests/reader-test-06-int-list/main.cxx:12-27, with any numbers for 1 to 4.  Nothing is shown. DeSerialiseMe.cxx:44 prints when
the object is read; the names asked for when it is made: DeSerialiseMe.h:24-27 and SerializableVector.h:69-73. -/
def readerTest06 (w : Compiled) (r : ReadCompiled) (f : ProgFiles) (world : World) (vector : Str) (l : List Int) (args : List Str) : Process :=
  roundTripMain { w with impl := fun _ => [] }
    { r with before := fun _ => [traceLine f.own 44 "deserialiseImpl".toList], after := fun n _ => nameTold f n } f world
    (nameTold f nDSM ++ nameTold f "int".toList) (reader06Obj l) [] (class06 vector) (fun _ => []) args

end Corda.Programs
