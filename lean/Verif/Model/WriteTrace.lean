import Verif.Model.Writer
import Verif.Model.SchemaUtils
import Verif.Model.InspectTrace

/-
Model of what the library prints on standard output while an object is serialised.  The functions of Model/Writer once more, with the prints
in their places.
-/

namespace Corda

/-- The files that print while an object is serialised: libs/amqp/src/ModifiableAMQPBlobImpl.cxx and .h, libs/amqp/src/serializable/Serializable.cxx,
libs/amqp/include/serializable/SerializableVector.h and SerializableMap.h, libs/amqp/include/assembler/SerialiserFactoryWriters.h,
libs/corda-utils/include/types.h, FieldDescriptor.cxx and CompositeDescriptor.cxx in libs/amqp/src/schema/descriptors/corda-descriptors. -/
inductive WSrc where
  | blob | blobHeader | serializable | vector | map | writers | types | field | composite
  deriving DecidableEq, Repr

/-- A C++ type as `javaTypeName<T>` sees it: types.h:78-141 and the specialisation for `std::string` in libs/corda-utils/src/types.cxx:7-11,
which `CppType` does not tell from a class of that name. -/
inductive AskedType where
  | string
  | other (demangled : Str)
  | vector (elem : AskedType)
  | map (key value : AskedType)
  deriving DecidableEq, Repr

/-- What the program that serialises and the compiler decide: the answers of `__FILE__` (libs/corda-utils/include/debug.h:18), `typeid`
and `abi::__cxa_demangle` (types.cxx:7-11), and how `std::ostream` prints addresses and floating point numbers. -/
structure Compiled where
  /-- `__FILE__`; libs/corda-utils/include/debug.h:18 -/
  file : WSrc → Str
  /-- the type `T` of `writeSingle<T>`: SerialiserFactory.h:79-86 -/
  elemType : Elem → AskedType
  /-- whether that is a pointer -/
  elemPointer : Elem → Bool
  /-- the type of the property without `&` and `*`: SerialiserFactoryWriters.h:145, 168 -/
  memberType : Member → AskedType
  /-- `typeid(A).name() << ", " << typeid(B).name()` for a vector: SerialiserFactoryWriters.h:112 -/
  ids : Member → Str
  /-- how `<<` prints an address; which address it is is not modelled -/
  address : Str
  /-- how `<<` prints a null pointer -/
  null : Str
  /-- how `<<` prints floating point numbers -/
  float : Nat → Str
  double : Nat → Str
  /-- whether in `a + f () + b + g () + c` (types.h:104) the compiler calls `f` first; the language leaves it open -/
  keyFirst : Bool
  /-- what the `serialiseImpl` of a class prints before it writes anything, by the name and fingerprint of the class: e.g.
  bin/writer-tests/writer-test-04/SerialiseMe.cxx:19, 35 -/
  impl : Str × Str → List Str

/-- types.h:110-141, types.cxx:7-11: `javaTypeName<T> ()`. -/
def AskedType.name : AskedType → Str
  | .string => "string".toList
  | .other n => javaClassName n
  | .vector t => cppListOpen ++ t.name ++ ['>']
  | .map k v => cppMapOpen ++ k.name ++ [','] ++ v.name ++ ['>']

/-- types.h:110-141: what `javaTypeName<T> ()` prints (125, 138). -/
def AskedType.told (w : Compiled) : AskedType → List Str
  | .string => []
  | .other n => [traceLine (w.file .types) 125 ("javaTypeName = ".toList ++ n),
      traceLine (w.file .types) 138 ("javaTypeName RTN = ".toList ++ javaClassName n)]
  | .vector t => t.told w
  | .map k v => if w.keyFirst then k.told w ++ v.told w else v.told w ++ k.told w

/-- `DBG (before << javaTypeName<T> () << after << std::endl)`: the first part is printed before the function is called, as the language
demands since C++17 (CMakeLists.txt:41). SerialiserFactoryWriters.h:60, SerializableMap.h:45-46. -/
def dbgType (w : Compiled) (file : WSrc) (line : Nat) (before : Str) (t : AskedType) (after : Str) : List Str :=
  ["[".toList ++ w.file file ++ "::".toList ++ natStr line ++ "] ".toList ++ before] ++ t.told w ++ [t.name ++ after ++ nl]

/-- `<<` of a value: a `bool` as 0 or 1, a `char` as itself. ModifiableAMQPBlobImpl.h:207, 241. -/
def Prim.shown (w : Compiled) : Prim → Str
  | .int n => intStr n
  | .string s => s
  | .bool b => if b then "1".toList else "0".toList
  | .float n => w.float n
  | .double n => w.double n
  | .long n => intStr n
  | .char n => [Char.ofNat (n % 256).toNat]

/-- `<<` of a pointer to a value: an address; a `char *` is taken for a text, and is only defined if that is empty (`Prim.pointerPrints`).
ModifiableAMQPBlobImpl.h:207. -/
def Prim.pointerShown (w : Compiled) : Prim → Str
  | .char _ => []
  | _ => w.address

/-- As `Wr`, with what is printed. The members of ModifiableAMQPBlobImpl.h:114-157. -/
abbrev TWr : Type := WState → (Res Unit × WState) × List Str

namespace TWr

/-- A step that prints nothing. Framework of the model, for all of /repo: no code of its own. -/
def quiet (p : Wr) : TWr := fun s => (p s, [])

/-- Printing. Framework of the model, for all of /repo: no code of its own. -/
def say (out : List Str) : TWr := fun s => ((.ok (), s), out)

/-- One `DBG`: libs/corda-utils/include/debug.h:18. -/
def dbg (w : Compiled) (file : WSrc) (line : Nat) (text : Str) : TWr := say [traceLine (w.file file) line text]

/-- Sequencing. Framework of the model, for all of /repo: no code of its own. -/
def seq (p q : TWr) : TWr := fun s =>
  match p s with
  | ((.ok _, s'), o) => ((q s').1, o ++ (q s').2)
  | ((.throw m, s'), o) => ((.throw m, s'), o)
  | ((.ub m, s'), o) => ((.ub m, s'), o)

/-- As `Wr.guarded`; the destructor prints `farewell`. Serializable.cxx:19-31, RestrictedSerializable.cxx:6-18. -/
def guarded (start : TWr) (body : TWr) (stop : Cursor → Cursor) (farewell : Str) : TWr := fun s =>
  match start s with
  | ((.ok _, s1), o) =>
    let r := body s1
    ((r.1.1, { r.1.2 with payload := stop r.1.2.payload }), o ++ r.2 ++ [farewell])
  | ((.throw m, s1), o) => ((.throw m, s1), o)
  | ((.ub m, s1), o) => ((.ub m, s1), o)

/-- ModifiableAMQPBlobImpl.cxx:34-47, `startSerializable`. -/
def startSerializable (w : Compiled) (fp : Str) : TWr :=
  seq (dbg w .blob 39 ("  startSerializable: ".toList ++ fp)) (quiet (Wr.startSerializable fp))

/-- ModifiableAMQPBlobImpl.cxx:58-79, `startComposite`. -/
def startComposite (w : Compiled) (key : Str × Str) : TWr :=
  seq (dbg w .blob 63 ("startComposite - ".toList ++ key.1 ++ " - ".toList ++ key.2))
  (seq (quiet (Wr.register key (.comp [])))
  (seq (startSerializable w key.2)
  (quiet (Wr.seq (Wr.data (Cursor.put .list)) (Wr.data Cursor.enter)))))

/-- ModifiableAMQPBlobImpl.cxx:83-112, `startRestricted`. -/
def startRestricted (w : Compiled) (key : Str × Str) (isMap : Bool) : TWr :=
  seq (dbg w .blob 88 ("startRestricted - ".toList ++ key.1 ++ " - ".toList ++ key.2))
  (seq (quiet (Wr.register key (.list (if isMap then "map".toList else "list".toList))))
  (seq (startSerializable w key.2)
  (quiet (Wr.seq (Wr.data (Cursor.put (if isMap then .map else .list))) (Wr.data Cursor.enter)))))

/-- ModifiableAMQPBlobImpl.cxx:121 -/
def endComposite (w : Compiled) (name : Str) : Str := traceLine (w.file .blob) 121 ("endComposite - ".toList ++ name)

/-- ModifiableAMQPBlobImpl.cxx:170 -/
def endRestricted (w : Compiled) (name : Str) : Str := traceLine (w.file .blob) 170 ("endRestricted - ".toList ++ name)

/-- As `Wr.property`: ModifiableAMQPBlobImpl.h:209-226, .cxx:140-156, 187-199, 213-226.  If there is no description of that name yet,
`FieldDescriptor::makeProton` makes one and prints (FieldDescriptor.cxx:284). -/
def property (w : Compiled) (key : Str × Str) (name : Str) (desc : List Node) : TWr := fun s =>
  (Wr.property key name desc s,
    match s.schemas.lookup key with
    | some (.comp fields) =>
      match fields.lookup name with
      | some _ => []
      | none => [traceLine (w.file .field) 284 ("makeProton - ".toList ++ name)]
    | _ => [])

/-- `DBG (... << propertyValue_ << std::endl)`, as `Wr.trace`: ModifiableAMQPBlobImpl.h:207, 241. -/
def trace (w : Compiled) (prints : Bool) (line : Nat) (text : Str) : TWr := fun s =>
  (Wr.trace prints s, if prints then [traceLine (w.file .blobHeader) line text] else [])

/-- ModifiableAMQPBlobImpl.h:199-231, `writePrimitive`: `shown` is what `<<` makes of the argument. -/
def writePrimitive (w : Compiled) (key : Str × Str) (name : Str) (t : PrimType) (ptr prints : Bool) (shown : Str) (v : Atom) : TWr :=
  seq (trace w prints 207 ("writePrimitive::".toList ++ name ++ "::".toList ++ shown))
  (seq (property w key name (Wr.primDesc name t ptr))
  (seq (dbg w .blobHeader 228 "WRITE IT".toList)
  (quiet (Wr.data (Cursor.put v)))))

/-- ModifiableAMQPBlobImpl.h:235-244, `writePrimitiveSingle`. -/
def writePrimitiveSingle (w : Compiled) (prints : Bool) (shown : Str) (v : Atom) : TWr :=
  seq (trace w prints 241 ("writePrimitiveSingle::".toList ++ shown)) (quiet (Wr.data (Cursor.put v)))

/-- ModifiableAMQPBlobImpl.cxx:177-200, `writeComposite`; the object given to it is the one that has the property. -/
def writeComposite (w : Compiled) (key : Str × Str) (name type : Str) : TWr :=
  seq (dbg w .blob 184 ("writeComposite::".toList ++ key.1)) (property w key name (Wr.compositeDesc name type))

/-- ModifiableAMQPBlobImpl.cxx:204-227, `writeRestricted`. -/
def writeRestricted (w : Compiled) (key : Str × Str) (name type : Str) : TWr :=
  seq (dbg w .blob 211 ("writeRestricted::".toList ++ key.1)) (property w key name (Wr.restrictedDesc name type))

/-- ModifiableAMQPBlobImpl.cxx:128-161, `writeNull`: line 147 prints if there is no description of that name yet, then
`makeProton`. `NULL` is printed as 0. -/
def writeNull (w : Compiled) (key : Str × Str) (name type : Str) : TWr :=
  seq (dbg w .blob 135 ("writeNull::".toList ++ name ++ "::".toList ++ "0".toList ++ " ".toList ++ "PARENT: ".toList ++ key.1))
  (seq (fun s =>
    let r := property w key name (Wr.nullDesc name type) s
    (r.1, (if r.2 = [] then [] else [name ++ " missing :(".toList ++ nl]) ++ r.2))
  (seq (dbg w .blob 158 "WRITE IT".toList)
  (quiet (Wr.data (Cursor.put .null)))))

/-- `NonPrimWriter<T>::write`: SerialiserFactoryWriters.h:90-129. -/
def nonPrimWriter (w : Compiled) (key : Str × Str) (m : Member) (name type : Str) (ptr : Bool) : Obj → TWr
  | .comp _ _ _ => writeComposite w key name type
  | .list _ _ _ =>
    if ptr then writeComposite w key name type
    else seq (dbg w .writers 112 ("write::VECTOR<".toList ++ w.ids m ++ ">".toList)) (writeRestricted w key name type)
  | .map _ _ _ =>
    if ptr then writeComposite w key name type
    else writeRestricted w key name type

mutual

/-- `o.serialise (sf_, blob_)`, and with `outermost` the part of `o.serialise (sf_)` before `toBlob`: Serializable.cxx:74-85, 42-51 (which
does not print); SerializableVector.h:39-50, SerializableMap.h:37-51. -/
def object (w : Compiled) (outermost : Bool) : Obj → TWr
  | .comp n f ms => seq (if outermost then say [] else dbg w .serializable 80 ("serialise::".toList ++ n))
      (guarded (startComposite w (n, f)) (seq (say (w.impl (n, f))) (members w (n, f) ms)) Wr.stop (endComposite w n))
  | .list n f es => seq (dbg w .vector 43 ("_serialise::".toList ++ n))
      (guarded (startRestricted w (n, f) false) (elems w es) Wr.stop (endRestricted w n))
  | .map n f es => seq (dbg w .map 41 ("_serialise::".toList ++ f))
      (guarded (startRestricted w (n, f) true) (entries w es) Wr.stop (endRestricted w n))

/-- A user's `serialiseImpl`, after what it prints of its own at the beginning; that it prints nothing later is assumed. E.g. libs/amqp/src/test/RoundTripTests.cxx:50-57. -/
def members (w : Compiled) (key : Str × Str) : List Member → TWr
  | [] => say []
  | m :: ms => seq (member w key m) (members w key ms)

/-- `PropertyWriter<T>::write`: SerialiserFactoryWriters.h:70-86, 136-152, 159-179. -/
def member (w : Compiled) (key : Str × Str) : Member → TWr
  | .prim n ptr v => writePrimitive w key n v.type ptr (!ptr || v.pointerPrints) (if ptr then v.pointerShown w else v.shown w) v.atom
  | .nullPrim n t => writePrimitive w key n t true t.nullPrints w.null .null
  | .obj n t ptr o =>
    seq (say ((w.memberType (.obj n t ptr o)).told w)) (seq (nonPrimWriter w key (.obj n t ptr o) n t ptr o) (object w false o))
  | .nullObj n t =>
    seq (say ((w.memberType (.nullObj n t)).told w)) (seq (writeComposite w key n t) (writeNull w key n t))

/-- The loop in SerializableVector.h:47-49. -/
def elems (w : Compiled) : List Elem → TWr
  | [] => say []
  | e :: es => seq (elem w e) (elems w es)

/-- `SingleWriter<T>::write`: SerialiserFactoryWriters.h:36-63. -/
def elem (w : Compiled) : Elem → TWr
  | .prim v =>
    seq (say ((w.elemType (.prim v)).told w
      ++ [traceLine (w.file .writers) 44 ("  SingleWriter::".toList ++ (w.elemType (.prim v)).name ++ " - primitive".toList)]))
    (writePrimitiveSingle w true (if w.elemPointer (.prim v) then w.address else v.shown w) v.atom)
  | .nullPrim t =>
    seq (say ((w.elemType (.nullPrim t)).told w
      ++ [traceLine (w.file .writers) 44 ("  SingleWriter::".toList ++ (w.elemType (.nullPrim t)).name ++ " - primitive".toList)]))
    (writePrimitiveSingle w t.nullPrints w.null .null)
  | .obj o => seq (say (dbgType w .writers 60 "  SingleWriter::".toList (w.elemType (.obj o)) " - serialise".toList)) (object w false o)

/-- The loop in SerializableMap.h:44-50. -/
def entries (w : Compiled) : List Entry → TWr
  | [] => say []
  | e :: es => seq (entry w e) (entries w es)

/-- SerializableMap.h:45-49 -/
def entry (w : Compiled) : Entry → TWr
  | .mk k v =>
    seq (say (dbgType w .map 45 "  * ".toList (w.elemType k) [] ++ dbgType w .map 46 "  * ".toList (w.elemType v) []))
    (seq (elem w k) (elem w v))

end

end TWr

/-- `BaseBlob::size`: ModifiableAMQPBlobImpl.h:58-60, 77-79. -/
def Blob.size : Blob → Nat
  | .comp fields => fields.length
  | .list _ => 0

/-- `BaseBlob::make` (ModifiableAMQPBlobImpl.h:62-69, 85-94) with `CompositeDescriptor::makeProton` (CompositeDescriptor.cxx:239): what
they print. -/
def Blob.makeTold (w : Compiled) (key : Str × Str) : Blob → List Str
  | .comp fields => [traceLine (w.file .blobHeader) 66 "make".toList,
      traceLine (w.file .composite) 239 ("makeProton - ".toList ++ key.1 ++ " fields: #".toList ++ natStr fields.length)]
  | .list _ => [traceLine (w.file .blobHeader) 89 "make".toList]

/-- ModifiableAMQPBlobImpl.cxx:231-261, `toBlob`: what it prints. -/
def WState.toBlobTold (w : Compiled) (s : WState) : List Str :=
  traceLine (w.file .blob) 234 ("toBlob".toList ++ ":: m_schemas.size() = ".toList ++ natStr s.schemas.length)
    :: s.schemas.flatMap fun e => traceLine (w.file .blob) 244 ("    * ".toList ++ e.1.1 ++ ": ".toList ++ natStr e.2.size) :: e.2.makeTold w e.1

/-- ModifiableAMQPBlobImpl.cxx:267-277, `dump`: what it prints. -/
def WState.dump (s : WState) : List Str :=
  s.schemas.map fun e => "  *    [ ".toList ++ e.1.1 ++ ", ".toList ++ e.1.2 ++ "] : ".toList ++ natStr e.2.size ++ nl

/-- `o.serialise (sf_)`, with all that is printed: Serializable.cxx:42-53, SerializableVector.h:94-101, SerializableMap.h:85-92. -/
def serialiseTold (w : Compiled) (o : Obj) : Res (List Node) × List Str :=
  match TWr.object w true o WState.init with
  | ((.ok _, s), out) => (.ok s.toBlob, out ++ s.toBlobTold w)
  | ((.throw m, _), out) => (.throw m, out)
  | ((.ub m, _), out) => (.ub m, out)

end Corda
