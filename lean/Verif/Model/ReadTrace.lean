import Verif.Model.RoundTrip
import Verif.Model.SchemaDump
import Verif.Model.Descriptors
import Verif.Model.SchemaTrace
import Verif.Model.InspectTrace

/-
Model of what the library prints on standard output while an object is deserialised.  The functions of Model/RoundTrip once more, with the
prints in their places.
-/

namespace Corda

/-- The files that print while an object is deserialised: SerialiserFactory.h, SerialiserFactoryReaders.h and ReadNonPrimitive.h in
libs/amqp/include/assembler, libs/amqp/src/serialiser/PrimToSerializer.h, libs/amqp/src/AMQPBlob.cxx,
libs/proton-wrapper/src/proton_wrapper.cxx, libs/amqp/include/serializable/SerializableVector.h. -/
inductive RSrc where
  | factory | readers | nonPrim | prims | blob | wrapper | vector
  deriving DecidableEq, Repr

/-- What the compiler decides: the answers of `__FILE__` (libs/corda-utils/include/debug.h:18) and of `typeName<T>` for the primitive types
(libs/corda-utils/include/types.h:51-63, which takes up to two `*` away), and how `std::ostream` prints floating point numbers. -/
structure ReadCompiled where
  /-- `__FILE__`; libs/corda-utils/include/debug.h:18 -/
  file : RSrc → Str
  /-- `typeName<T> ()`; types.h:51-63 -/
  primName : PrimType → Str
  /-- how `<<` prints floating point numbers; PrimToSerializer.h:115, 134 -/
  float : Nat → Str
  double : Nat → Str
  /-- what the `deserialiseImpl` of a class prints before it reads anything, by the name of the class: e.g.
  bin/reader-tests/reader-test-06-int-list/DeSerialiseMe.cxx:44 -/
  before : Str → List Str
  /-- what it prints after it has read everything, and what the constructor of the class prints, by what was read: e.g.
  bin/reader-tests/reader-test-02-nested-composite/DeSerialiseMe.cxx:52, bin/reader-tests/reader-test-01/DeSerialiseMe.cxx:35-36 -/
  after : Str → RVal → List Str

mutual

/-- `Shape` where the properties tell the names of their types: RoundTripTests.cxx:66-74. -/
inductive NShape where
  | mk (props : List NProp)

/-- `PropShape` with `typeName<T> ()`, where `T` is a class or a vector: SerialiserFactory.h:88-95, types.h:51-63. -/
inductive NProp where
  | prim (ptr : Bool) (t : PrimType)
  | obj (ptr : Bool) (name : Str) (cls : NShape)
  | vector (name : Str)

end

mutual

/-- Without the names. Framework of the model: no code of its own in /repo. -/
def NShape.plain : NShape → Shape
  | .mk ps => .mk (NShape.plainAll ps)

/-- Framework of the model: no code of its own in /repo. -/
def NProp.plain : NProp → PropShape
  | .prim ptr t => .prim ptr t
  | .obj ptr _ s => .obj ptr s.plain
  | .vector _ => .vector

/-- Framework of the model: no code of its own in /repo. -/
def NShape.plainAll : List NProp → List PropShape
  | [] => []
  | p :: ps => p.plain :: NShape.plainAll ps

end

/-- `typeName<T> ()`: types.h:51-63. -/
def NProp.name (w : ReadCompiled) : NProp → Str
  | .prim _ t => w.primName t
  | .obj _ n _ => n
  | .vector n => n

/-- `<<` of a value: a `bool` as 0 or 1, a `char` as itself. PrimToSerializer.h:58, 77, 96, 115, 134, 153, 172. -/
def Prim.readShown (w : ReadCompiled) : Prim → Str
  | .int n => intStr n
  | .string s => s
  | .bool b => if b then "1".toList else "0".toList
  | .float n => w.float n
  | .double n => w.double n
  | .long n => intStr n
  | .char n => [Char.ofNat (n % 256).toNat]

/-- The line in which `get` prints: PrimToSerializer.h:58, 77, 96, 115, 134, 153, 172. -/
def getLine : PrimType → Nat
  | .int => 58
  | .string => 77
  | .bool => 96
  | .float => 115
  | .double => 134
  | .long => 153
  | .char => 172

/-- What it says before the value: PrimToSerializer.h:58, 77, 96, 115, 134, 153, 172.  The one for `float` says `bool`. -/
def getText : PrimType → Str
  | .int => "PrimToSerializer<int>::get - return ".toList
  | .string => "PrimToSerializer<std::string>::get - return ".toList
  | .bool => "PrimToSerializer<bool>::get - return ".toList
  | .float => "PrimToSerializer<bool>::get - return ".toList
  | .double => "PrimToSerializer<double>::get - return ".toList
  | .long => "PrimToSerializer<long>::get - return ".toList
  | .char => "PrimToSerializer<char>::get - return ".toList

namespace TProg

/-- `DBG (text << std::endl)` in line `line` of a file: libs/corda-utils/include/debug.h:18. -/
def note (w : ReadCompiled) (file : RSrc) (line : Nat) (text : Str) : TProg Unit := fun c =>
  ((.ok (), c), [traceLine (w.file file) line text])

/-- What a class prints of its own. E.g. bin/reader-tests/reader-test-02-nested-composite/DeSerialiseMe.cxx:52. -/
def say (out : List Str) : TProg Unit := fun c => ((.ok (), c), out)

/-- A scope with a destructor that prints and moves the cursor, at its end and when there is an exception (which has to be caught somewhere;
whether anything is unwound for an exception that is not is up to the implementation).  After undefined behaviour nothing can be said.
SerialiserFactoryReaders.h:44-47, 74-77. -/
def guarded {α : Type} (body : TProg α) (stop : Cursor → Cursor) (farewell : List Str) : TProg α := fun c =>
  let r := body c
  match r.1.1 with
  | .ub m => ((.ub m, stop r.1.2), r.2)
  | x => ((x, stop r.1.2), r.2 ++ farewell)

/-- `PrimToSerialiser<T>::get`: PrimToSerializer.h:55-59, 74-78, 93-97, 112-116, 131-135, 150-154, 169-173. -/
def primGet (w : ReadCompiled) (t : PrimType) : TProg Prim := do
  let v ← quiet (Prog.primGet t)
  note w .prims (getLine t) (getText t ++ v.readShown w)
  pure v

/-- proton_wrapper.cxx:286-301, `attest_is_list`. -/
def listHere (w : ReadCompiled) : TProg Unit := do
  quiet Prog.attestList
  note w .wrapper 299 "YEP! it's a list".toList

/-- AMQPBlob.cxx:338-341: a descriptor that is not that of an envelope is only mentioned. -/
def strange (w : ReadCompiled) (key : Nat) : TProg Unit :=
  if stripCorda key ≠ 1 then note w .blob 340 ("Strip Key ".toList ++ natStr (stripCorda key) ++ " != 1".toList) else pure ()

/-- AMQPBlob.cxx:326-351, `readyPayload`. -/
def readyPayload (w : ReadCompiled) : TProg Unit := do
  note w .blob 329 "readyPayload".toList
  quiet Prog.attestDescribed
  quiet Prog.enterFirst
  let key ← quiet Prog.readUint64
  note w .blob 336 ("KEY == ".toList ++ natStr key)
  strange w key
  listHere w
  quiet Prog.enterFirst
  quiet Prog.attestDescribed
  autoEnter (do
    let d ← quiet (Prog.look Cursor.shown)
    let k ← quiet (Prog.look Prog.getUlong)
    note w .blob 348 ("readyPayload::".toList ++ d ++ " ".toList ++ describedToString k))

/-- AMQPBlob.cxx:355-368, `startComposite`. -/
def startRead (w : ReadCompiled) : TProg Unit := do
  note w .blob 358 "startComposite".toList
  quiet Prog.attestDescribed
  quiet Prog.enterFirst
  let key ← quiet Prog.readUint64
  note w .blob 362 ("startComposite::".toList ++ describedToString key ++ " ".toList ++ natStr key)
  listHere w
  let n ← quiet (Prog.look Cursor.getList)
  note w .blob 364 ("startComposite:: list sz ".toList ++ natStr n)
  quiet Prog.enterFirst

/-- What the destructor of `AutoComposite` prints, itself and through `endComposite`: SerialiserFactoryReaders.h:74-77, AMQPBlob.cxx:372-379. -/
def compositeOver (w : ReadCompiled) : List Str :=
  [traceLine (w.file .readers) 75 "~AutoComposite".toList, traceLine (w.file .blob) 375 "endComposite".toList]

/-- SerialiserFactoryReaders.h:60-83: the constructor of `AutoComposite`, then the rest of the scope.  An exception from the
constructor leaves without the destructor. -/
def composite {α : Type} (w : ReadCompiled) (name : Str) (body : TProg α) : TProg α := do
  note w .readers 64 ("read::Composite::".toList ++ name)
  note w .readers 70 "AutoComposite".toList
  startRead w
  guarded body Prog.endRead (compositeOver w)

/-- ReadNonPrimitive.h:35-36 (which prints `is_ptr` as 0) and 55. -/
def announce (w : ReadCompiled) (ptr : Bool) (name : Str) : TProg Unit :=
  if ptr then note w .nonPrim 55 ("read<".toList ++ name ++ ", true>".toList)
  else note w .nonPrim 35 ("read<".toList ++ name ++ ", is_ptr 0>".toList)

/-- SerialiserFactoryReaders.h:33-55 and AMQPBlob.cxx:383-400, `AutoPrim` around `get`. -/
def primitive (w : ReadCompiled) (t : PrimType) : TProg RVal := do
  note w .readers 50 ("read::Primitive::".toList ++ w.primName t)
  note w .readers 40 "AutoPrim".toList
  note w .blob 386 "startPrim".toList
  guarded (do let v ← primGet w t; pure (.prim v)) (fun c => c.next.2) [traceLine (w.file .readers) 45 "~AutoPrim".toList]

mutual

/-- `PropertyReader<T>::read`: SerialiserFactoryReaders.h:33-55, 60-83 with ReadNonPrimitive.h:28-61, 72-83 and SerializableVector.h:115-136 for a vector.  (What the constructor of the vector prints between line 122
and the end of the function without `return` is left out.) -/
def readProp (w : ReadCompiled) : NProp → TProg RVal
  | .prim _ t => primitive w t
  | .obj ptr name s => composite w name (do
    announce w ptr name
    say (w.before name)
    let v ← readShape w s
    say (w.after name v)
    pure v)
  | .vector name => composite w name (do
    note w .nonPrim 77 "read".toList
    listHere w
    listHere w
    note w .vector 122 "ARSE".toList
    quiet (Prog.ub "missing return"))

/-- `T::deserialiseImpl` and the construction from its result. ReadNonPrimitive.h:37-39, 57-59. -/
def readShape (w : ReadCompiled) : NShape → TProg RVal
  | .mk ps => do
    let vs ← readProps w ps
    pure (.obj vs)

/-- The `read` calls one after the other, each of which prints the name of the type: SerialiserFactory.h:88-95. E.g. RoundTripTests.cxx:66-74. -/
def readProps (w : ReadCompiled) : List NProp → TProg (List RVal)
  | [] => pure []
  | p :: ps => do
    note w .factory 93 ("read - ".toList ++ p.name w)
    let v ← readProp w p
    let vs ← readProps w ps
    pure (v :: vs)

end

/-- SerialiserFactory.h:106-113, `deserialise<T>`. -/
def deserialise (w : ReadCompiled) (p : NProp) : TProg RVal := do
  note w .factory 109 ("deserialise:-:".toList ++ p.name w)
  readyPayload w
  readProp w p

end TProg

end Corda
