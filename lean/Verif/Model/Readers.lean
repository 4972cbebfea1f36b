import Verif.Model.Factory
import Verif.Model.Render
import Verif.Model.Descriptors

/-
Model of the readers, which turn a payload into a value tree (libs/amqp/src/serialiser/serialisers/reader), and of
`AMQPBlob::dumpContents`.
-/

namespace Corda

/-- What the serialisers supplied by the user do: `dump (name_, data_, schema_)` and `dump (data_, schema_)`. IReader.h:54-62; e.g.
PublicKeySerialiser.cxx:57-93. -/
abbrev Customs : Type := Nat → Schema → Option Str → Prog Val

namespace Prog

/-- A `TypedPair<std::string>` or `TypedSingle<std::string>`, depending on which of the two `dump` functions runs. serialisers/reader/Reader.h:54-80, 115-150.
-/
def text (name_ : Option Str) (s : Str) : Val :=
  match name_ with
  | some n => .pair n s
  | none => .single s

/-- property-readers/BinaryPropertyReader.cxx:39 -/
def binaryOpen : Str := "<<<binary: ".toList
/-- property-readers/BinaryPropertyReader.cxx:39 -/
def binaryClose : Str := " bytes>>>".toList

/-- The text a property reader makes: property-readers/*.cxx, `dump` (Int 30-67; Long, Double, Bool
and Float 27-49; String 29-53; Binary 29-61).  There is no `readAndNext<float>`, so the primary template runs and throws
(proton_wrapper.h:140-152). -/
def propertyText : PrimReader → Prog Str
  | .int => do let n ← readInt32; pure (intStr n)
  | .long => do let n ← readInt64; pure (intStr n)
  | .double => do let b ← readDouble; pure (doubleStr b)
  | .boolean => do let b ← readBool; pure (boolStr b)
  | .string => do let s ← Prog.readString; pure ('"' :: s ++ ['"'])
  | .float => throw "This is very bad"
  | .binary => do let s ← readBinary; pure (binaryOpen ++ natStr s.length ++ binaryClose)

/-- Do something `n` times. `for (size_t i { 0 } ; i < ale.elements() ; ++i)`, ListReader.cxx:75, ArrayReader.cxx:75; MapReader.cxx:56-63.
-/
def times {α : Type} (p : Prog α) : Nat → Prog (List α)
  | 0 => pure []
  | n + 1 => do
    let a ← p
    let as ← times p n
    pure (a :: as)

/-- Run a reader held through a `weak_ptr`; null is dereferenced. ListReader.cxx:73-76, ArrayReader.cxx:73-76, MapReader.cxx:53-63. -/
def useReader (F : Factory) (rec : Nat → Option Str → Prog Val) (i : Nat) : Prog Val :=
  match F.lock i with
  | none => ub "null reader"
  | some _ => rec i none

/-- CompositeReader.cxx:71-83: the loop over the fields. -/
def dumpFields (F : Factory) (rec : Nat → Option Str → Prog Val) : List (Field × Nat) → Prog (List Val)
  | [] => pure []
  | (f, i) :: rest =>
    match F.lock i with
    | none => throw "null field reader"
    | some _ => do
      let v ← rec i (some f.name)
      let vs ← dumpFields F rec rest
      pure (v :: vs)

/-- CompositeReader.cxx:40-86, `_dump`. -/
def compositeDump (F : Factory) (s : Schema) (rec : Nat → Option Str → Prog Val) (subs : List Nat) :
    Prog (List Val) := do
  attestDescribed
  autoEnter (do
    let d ← getSymbol
    let t ← lift (s.fromDescriptor d)
    match t with
    | .restr _ => throw "std::bad_cast"
    | .comp c =>
      if c.fields.length = subs.length then do
        let _ ← next
        attestList
        autoEnter (dumpFields F rec (c.fields.zip subs))
      else ub "assert")

/-- restricted-readers/ListReader.cxx:52-83 and ArrayReader.cxx:52-82, `dump_`. -/
def listDump (F : Factory) (s : Schema) (rec : Nat → Option Str → Prog Val) (subs : List Nat) :
    Prog (List Val) := do
  attestDescribed
  autoEnter (do
    let d ← Prog.readString
    let _ ← lift (s.fromDescriptor d)
    autoListEnter (fun n =>
      match subs with
      | [] => ub "serialisers()[0]"
      | i :: _ => times (useReader F rec i) n) true)

/-- restricted-readers/MapReader.cxx:57-62: one key and one value.  The two `dump` calls are arguments of one call;
C++ leaves their order open. -/
def mapEntry (leftFirst : Bool) (key value : Prog Val) : Prog Val :=
  if leftFirst then do
    let k ← key
    let v ← value
    pure (.valuePair k v)
  else do
    let v ← value
    let k ← key
    pure (.valuePair k v)

/-- restricted-readers/MapReader.cxx:22-67, `dump_`. -/
def mapDump (leftFirst : Bool) (F : Factory) (s : Schema) (rec : Nat → Option Str → Prog Val) (subs : List Nat) :
    Prog (List Val) := do
  attestDescribed
  autoEnter (do
    let d ← Prog.readString
    let _ ← lift (s.fromDescriptor d)
    autoMapEnter (fun n =>
      match subs with
      | [k, v] => times (mapEntry leftFirst (useReader F rec k) (useReader F rec v)) ((n + 1) / 2)
      | _ => ub "assert") true)

/-- restricted-readers/EnumReader.cxx:12-48, `getValue`. -/
def enumValue : Prog Str := do
  attestDescribed
  autoEnter (do
    let t ← look Cursor.type
    let id ← look getUlong
    if t = .ulong ∧ stripCorda id = REFERENCED_OBJECT then throw "Currently don't support referenced objects"
    else do
      let _ ← Prog.readString
      autoListEnter (fun _ => Prog.readString) true)

/-- `dump` of a serialiser object, with a name or without: CompositeReader.cxx:90-127, ListReader.cxx:22-48,
ArrayReader.cxx:22-48, MapReader.cxx:71-100, EnumReader.cxx:53-80, and the property readers.  `rec` is `dump` of the
readers inside it. -/
def dumpWith (cu : Customs) (leftFirst : Bool) (F : Factory) (s : Schema) (rec : Nat → Option Str → Prog Val) (o : Ser)
    (name_ : Option Str) : Prog Val :=
  match o.kind with
  | .prim p => do
    let t ← propertyText p
    pure (text name_ t)
  | .enum _ => autoNext (do
      attestDescribed
      let t ← enumValue
      pure (text name_ t))
  | .composite => autoNext (do
      let null ← isNull
      if null then
        pure (match name_ with | some n => .nullPair n | none => .nullSingle)
      else do
        let vs ← compositeDump F s rec o.subs
        pure (match name_ with | some n => .pairVec n vs | none => .singleVec vs))
  | .list => autoNext (do
      let vs ← listDump F s rec o.subs
      pure (match name_ with | some n => .pairList n vs | none => .singleList vs))
  | .array => autoNext (do
      let vs ← listDump F s rec o.subs
      pure (match name_ with | some n => .pairList n vs | none => .singleList vs))
  | .map => autoNext (do
      let vs ← mapDump leftFirst F s rec o.subs
      pure (match name_ with | some n => .pairVec n vs | none => .singleVec vs))
  | .custom n => cu n s name_

/-- `dump` of the serialiser object `i`. `fuel` bounds the nesting; the height of the tree always suffices. Serialiser.h:37-50; the classes
of serialisers/reader. -/
def dump (cu : Customs) (leftFirst : Bool) (F : Factory) (s : Schema) : Nat → Nat → Option Str → Prog Val
  | 0, _, _ => ub "fuel"
  | fuel + 1, i, name_ =>
    match F.objs[i]? with
    | none => ub "no such object"
    | some o => dumpWith cu leftFirst F s (dump cu leftFirst F s fuel) o name_

/-- libs/corda-custom-types/src/java/security/PublicKeySerialiser.cxx:80 -/
def publicKeyText : Str := "<<<Public Key>>>".toList

/-- libs/corda-custom-types/src/java/security/PublicKeySerialiser.cxx:57-93, `PublicKeySeraliser::dump`. -/
def publicKeyDump (name_ : Option Str) : Prog Val :=
  match name_ with
  | none => throw "NOT IMPLEMENTED"
  | some n => autoNext (do
      attestDescribed
      autoEnter (do
        let _ ← next
        attestBinary
        let _ ← readBinary
        pure (.pair n publicKeyText)))

/-- AMQPBlob.cxx:308 -/
def parsedName : Str := "{ Parsed".toList

/-- AMQPBlob.cxx:293-313: going to the payload and dumping it with the reader `i`. -/
def dumpPayload (cu : Customs) (leftFirst : Bool) (F : Factory) (s : Schema) (i : Nat) : Prog Str := fun c =>
  (autoEnter (do
    attestList
    let n ← look Cursor.getList
    if n = 3 then
      autoEnter (do
        let v ← dump cu leftFirst F s (c.fuel + 1) i (some parsedName)
        pure (v.dump ++ mapClose))
    else ub "assert") true : Prog Str) c

/-- AMQPBlob.cxx:273-314, `dumpContents`.  The factory is changed as well. -/
def dumpContents (cu : Customs) (leftFirst : Bool) (F : Factory) : Cursor → (Res Str × Cursor) × Factory := fun c =>
  match readEnvelope c with
  | (.throw m, c') => ((.throw m, c'), F)
  | (.ub w, c') => ((.ub w, c'), F)
  | (.ok (s, d), c') =>
    match FProg.process leftFirst s F with
    | (.throw m, F') => ((.throw m, c'), F')
    | (.ub w, F') => ((.ub w, c'), F')
    | (.ok (), F') =>
      match F'.findDesc d with
      | none => ((.ub "assert", c'), F')
      | some i => (dumpPayload cu leftFirst F' s i c', F')

end Prog

/-- libs/corda-custom-types/src/java/security/PublicKeySerialiser.cxx:18-21 -/
def publicKeyType : Str := "java.security.PublicKey".toList

/-- bin/blob-inspector/BlobInspector.cxx:18-25, `BlobInspector::dump`. -/
def inspect (leftFirst : Bool) (c : Cursor) : Res Str × Cursor :=
  (Prog.dumpContents (fun _ _ => Prog.publicKeyDump) leftFirst (Factory.empty.installCustom 0 publicKeyType) c).1

end Corda
