import Verif.Model.Wrapper
import Verif.Model.Writer

/-
Model of deserialisation into C++ objects: libs/amqp/include/assembler/{SerialiserFactory,SerialiserFactoryReaders,
ReadPrimitive,ReadNonPrimitive}.h, the `get` side of libs/amqp/src/serialiser/PrimToSerializer.h and the cursor
movements in libs/amqp/src/AMQPBlob.cxx.
-/

namespace Corda

mutual

/-- A class as its `deserialiseImpl` reads it: the `sf_.read<T> (blob_)` calls in order.  (That is how every
`deserialiseImpl` in the repository is written, e.g. libs/amqp/src/test/RoundTripTests.cxx:66-74.) -/
inductive Shape where
  | mk (props : List PropShape)

/-- One call `sf_.read<T> (blob_)`: `T` a primitive or a pointer to one; a class or a pointer to one; a `SerializableVector`.
SerialiserFactory.h:88-95, SerialiserFactoryReaders.h:30-84. -/
inductive PropShape where
  | prim (ptr : Bool) (t : PrimType)
  | obj (ptr : Bool) (cls : Shape)
  | vector

end

/-- What is read: a primitive (or a new primitive pointed to), an object built from what its `deserialiseImpl` returned (or a new one
pointed to). ReadPrimitive.h, ReadNonPrimitive.h:28-83. -/
inductive RVal where
  | prim (v : Prim)
  | obj (fields : List RVal)

namespace RVal

mutual

/-- Equality of values is decidable (for examples). Framework of the model, for all of /repo: no code of its own. -/
def decEq : (a b : RVal) → Decidable (a = b)
  | .prim v, .prim w =>
    if h : v = w then isTrue (by rw [h]) else isFalse (by intro e; injection e with e; exact h e)
  | .obj vs, .obj ws =>
    match decEqs vs ws with
    | isTrue g => isTrue (by rw [g])
    | isFalse g => isFalse (by intro e; injection e with e; exact g e)
  | .prim _, .obj _ => isFalse (by simp)
  | .obj _, .prim _ => isFalse (by simp)

/-- Framework of the model, for all of /repo: no code of its own. -/
def decEqs : (as bs : List RVal) → Decidable (as = bs)
  | [], [] => isTrue rfl
  | [], _ :: _ => isFalse (by simp)
  | _ :: _, [] => isFalse (by simp)
  | a :: as, b :: bs =>
    match decEq a b with
    | isTrue g =>
      match decEqs as bs with
      | isTrue k => isTrue (by rw [g, k])
      | isFalse k => isFalse (by intro e; injection e with _ e2; exact k e2)
    | isFalse g => isFalse (by intro e; injection e with e1 _; exact g e1)

end

instance : DecidableEq RVal := decEq

end RVal

namespace Prog

/-- The conversion `char = pn_char_t` (a 32-bit unsigned number; `char` is signed with 8 bits). PrimToSerializer.h:171. -/
def narrow (n : Nat) : Int := ((n : Int) % 256 + 128) % 256 - 128

/-- `std::string (pn_data_get_string (data_).start)`, PrimToSerializer.h:76: up to the first NUL (proton keeps strings
NUL-terminated); the `start` is null if the value is not a string. -/
def cString (c : Cursor) : Res Str :=
  match c.val with
  | some (.string s) => .ok (s.takeWhile (· ≠ '\x00'))
  | _ => .ub "std::string from a null pointer"

/-- `PrimToSerialiser<T>::get`: PrimToSerializer.h:55-59, 74-78, 93-97, 112-116, 131-135, 150-154, 169-173. -/
def primGet : PrimType → Prog Prim
  | .int => do attestInt; let v ← look getInt; pure (.int v)
  | .string => do attestString; let v ← lookR cString; pure (.string v)
  | .bool => do attestBool; let v ← look getBool; pure (.bool v)
  | .float => do attestFloat; let v ← look getFloat; pure (.float v)
  | .double => do attestDouble; let v ← look getDouble; pure (.double v)
  | .long => do attestLong; let v ← look getLong; pure (.long v)
  | .char => do attestChar; let v ← look getChar; pure (.char (narrow v))

/-- `proton::pn_data_enter (m_data)`: proton_wrapper.cxx:121-125, used as a statement. -/
def enterFirst : Prog Unit := fun c => (.ok (), c.enter.next.2)

/-- AMQPBlob.cxx:326-351, `readyPayload`. -/
def readyPayload : Prog Unit := do
  attestDescribed
  enterFirst
  let _ ← readUint64
  attestList
  enterFirst
  attestDescribed
  autoEnter (pure ())

/-- AMQPBlob.cxx:355-368, `startComposite`. -/
def startRead : Prog Unit := do
  attestDescribed
  enterFirst
  let _ ← readUint64
  attestList
  enterFirst

/-- AMQPBlob.cxx:372-379, `endComposite`. -/
def endRead (c : Cursor) : Cursor := c.exit.exit.next.2

/-- `AutoComposite` in SerialiserFactoryReaders.h:66-80 around the rest of the scope; an exception from the
constructor leaves without the destructor. -/
def composite {α : Type} (body : Prog α) : Prog α := fun c =>
  match startRead c with
  | (.ok _, c1) =>
    let r := body c1
    (r.1, endRead r.2)
  | (.throw m, c1) => (.throw m, c1)
  | (.ub w, c1) => (.ub w, c1)

mutual

/-- `PropertyReader<T>::read`: SerialiserFactoryReaders.h:33-55 with `ReadPrimitive` (ReadPrimitive.h:24-53; the pointer
version reads into a new object), 60-83 with `ReadNonPrim` (ReadNonPrimitive.h:28-61).  For a vector
(ReadNonPrimitive.h:72-83, SerializableVector.h:115-136) there are two checks and then a function without a `return`. -/
def readProp : PropShape → Prog RVal
  | .prim _ t => autoNext (do let v ← primGet t; pure (.prim v))
  | .obj _ s => composite (readShape s)
  | .vector => composite (do attestList; attestList; ub "missing return")

/-- `T::deserialiseImpl` and the construction from its result. ReadNonPrimitive.h:37-39, 57-59. -/
def readShape : Shape → Prog RVal
  | .mk ps => do
    let vs ← readProps ps
    pure (.obj vs)

/-- The `read` calls one after the other. E.g. libs/amqp/src/test/RoundTripTests.cxx:66-74. -/
def readProps : List PropShape → Prog (List RVal)
  | [] => pure []
  | p :: ps => do
    let v ← readProp p
    let vs ← readProps ps
    pure (v :: vs)

end

/-- SerialiserFactory.h:106-113, `deserialise<T>`. -/
def deserialise (p : PropShape) : Prog RVal := do
  readyPayload
  readProp p

end Prog

end Corda
