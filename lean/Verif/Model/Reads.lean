import Verif.Model.Readers

/-
Model of `read` and `readString` of the serialisers (IReader.h:51-52), the second way of getting at a value.  A
`std::any` is told apart by the type it holds.
-/

namespace Corda

/-- What the `std::any` results of `read` hold. IReader.h:51, and the `read` functions of serialisers/reader. -/
inductive AnyVal where
  | int32 (n : Int)
  | int64 (n : Int)
  | double (bits : Nat)
  | bool (b : Bool)
  | string (s : Str)
  | nullptr
  deriving DecidableEq, Repr

namespace Prog

/-- property-readers/*.cxx, `read`: Int 14-18; Long, Double, Bool and Float 11-15; String 13-17; Binary 13-17
(which reads a `bool`).  For `float` the primary template of `readAndNext` runs and throws
(proton_wrapper.h:140-152). -/
def readAny : PrimReader → Prog AnyVal
  | .int => do let n ← readInt32; pure (.int32 n)
  | .long => do let n ← readInt64; pure (.int64 n)
  | .double => do let b ← readDouble; pure (.double b)
  | .boolean => do let b ← readBool; pure (.bool b)
  | .string => do let s ← Prog.readString; pure (.string s)
  | .float => throw "This is very bad"
  | .binary => do let b ← readBool; pure (.bool b)

/-- property-readers/*.cxx, `readString`: Int 22-26; Long, Double, Bool and Float 19-23; String 21-25; Binary 21-25, which
reads a `char`, for which there is no specialisation of `readAndNext`. -/
def readText : PrimReader → Prog Str
  | .int => do let n ← readInt32; pure (intStr n)
  | .long => do let n ← readInt64; pure (intStr n)
  | .double => do let b ← readDouble; pure (doubleStr b)
  | .boolean => do let b ← readBool; pure (boolStr b)
  | .string => Prog.readString
  | .float => throw "This is very bad"
  | .binary => throw "This is very bad"

/-- CompositeReader.cxx:35 -/
def compositeWord : Str := "Composite".toList
/-- RestrictedReader.h:36 -/
def helloWord : Str := "hello".toList

/-- `read` of a serialiser (Serialiser.h:29-31): CompositeReader.cxx:21-25, RestrictedReader.h:28-30,
PublicKeySerialiser.cxx:41-45.  The latter stands for the serialisers supplied by the user. -/
def serRead (o : Ser) : Prog AnyVal :=
  match o.kind with
  | .prim p => readAny p
  | .composite => pure (.int32 1)
  | .list | .array | .map | .enum _ => pure (.int32 1)
  | .custom _ => pure .nullptr

/-- `readString` of a serialiser: CompositeReader.cxx:29-36, RestrictedReader.h:35-37, PublicKeySerialiser.cxx:49-53. -/
def serReadString (o : Ser) : Prog Str :=
  match o.kind with
  | .prim p => readText p
  | .composite => do
    let _ ← next
    autoEnter (pure compositeWord)
  | .list | .array | .map | .enum _ => pure helloWord
  | .custom _ => pure []

/-- `write` of a serialiser: Writer.cxx:6-10, which puts nothing; PublicKeySerialiser.cxx:100-104, which throws.  The latter stands for the
serialisers supplied by the user. -/
def serWrite (o : Ser) (_ : AnyVal) : Prog Unit :=
  match o.kind with
  | .custom _ => throw "NOT IMPLEMENTED"
  | _ => pure ()

end Prog

end Corda
