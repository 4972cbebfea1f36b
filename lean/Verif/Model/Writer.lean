import Verif.Model.Descriptors

/-
Model of serialisation: libs/amqp/src/ModifiableAMQPBlobImpl.{h,cxx}, libs/amqp/src/serializable/*.cxx,
libs/amqp/include/serializable/*.h, libs/amqp/include/assembler/SerialiserFactoryWriters.h and the `put` side of
libs/amqp/src/serialiser/PrimToSerializer.h.
-/

namespace Corda

/-- The C++ types `PrimToSerialiser` is specialised for: PrimToSerializer.h:43-174. -/
inductive PrimType where
  | int | string | bool | float | double | long | char
  deriving DecidableEq, Repr

/-- A value of one of these types. Floating point numbers are bit patterns. PrimToSerializer.h:43-174. -/
inductive Prim where
  | int (n : Int)
  | string (s : Str)
  | bool (b : Bool)
  | float (bits : Nat)
  | double (bits : Nat)
  | long (n : Int)
  | char (n : Int)
  deriving DecidableEq, Repr

/-- PrimToSerializer.h:43-174: which specialisation is used. -/
def Prim.type : Prim → PrimType
  | .int _ => .int
  | .string _ => .string
  | .bool _ => .bool
  | .float _ => .float
  | .double _ => .double
  | .long _ => .long
  | .char _ => .char

/-- `m_type` of the `...PropertySerialiserBase` classes (property-serialisers/*PropertySerialiserBase.cxx:15-17). -/
def PrimType.typeName : PrimType → Str
  | .int => "int".toList
  | .string => "string".toList
  | .bool => "boolean".toList
  | .float => "float".toList
  | .double => "double".toList
  | .long => "long".toList
  | .char => "char".toList

/-- `PrimToSerialiser<T>::put` of a value: PrimToSerializer.h:47-53 and alike.  `pn_char_t` is an unsigned 32-bit
number, so a negative `char` is sign-extended into it. -/
def Prim.atom : Prim → Atom
  | .int n => .int n
  | .string s => .string s
  | .bool b => .bool b
  | .float n => .float n
  | .double n => .double n
  | .long n => .long n
  | .char n => .char (n % 2 ^ 32).toNat

/-- Printing a pointer to the value with `<<`: an address, except that a pointer to a character is taken for a C string, and read up to the
NUL: only a pointer to a NUL stays within the object pointed to. ModifiableAMQPBlobImpl.h:207, the trace of `writePrimitive`. -/
def Prim.pointerPrints : Prim → Bool
  | .char n => n == 0
  | _ => true

/-- Printing a null pointer with `<<`: undefined for a pointer to a character. ModifiableAMQPBlobImpl.h:207, 241. -/
def PrimType.nullPrints : PrimType → Bool
  | .char => false
  | _ => true

mutual

/-- An object given to `serialise`: a user class with what its `serialiseImpl` writes, in that order; a `SerializableVector`; a
`SerializableMap`. `name` is `name()`, `fp` is `fingerprint()`. Serializable.h:78-122, SerializableVector.h:26-137, SerializableMap.h:28-97.
-/
inductive Obj where
  | comp (name fp : Str) (members : List Member)
  | list (name fp : Str) (elems : List Elem)
  | map (name fp : Str) (entries : List Entry)

/-- One call `sf_.write<T> (value, name, *this, blob_)` in a `serialiseImpl`; `type` is `javaTypeName<T> ()`. A pointer is to a single
value, not into an array. SerialiserFactory.h:69-77, SerialiserFactoryWriters.h:70-179. -/
inductive Member where
  | prim (name : Str) (ptr : Bool) (v : Prim)
  | nullPrim (name : Str) (t : PrimType)
  | obj (name type : Str) (ptr : Bool) (o : Obj)
  | nullObj (name type : Str)

/-- One call `sf_.writeSingle<T> (value, ...)`: a value or a pointer to one, but not a pointer to a character, which can only be null here.
SerialiserFactory.h:79-86, SerialiserFactoryWriters.h:36-63. -/
inductive Elem where
  | prim (v : Prim)
  | nullPrim (t : PrimType)
  | obj (o : Obj)

/-- Key and value of a map. SerializableMap.h:44-50. -/
inductive Entry where
  | mk (k v : Elem)

end

/-- `name()`. Serializable.cxx:89-93. -/
def Obj.name : Obj → Str
  | .comp n _ _ => n
  | .list n _ _ => n
  | .map n _ _ => n

/-- `fingerprint()`. Serializable.h:115-117. -/
def Obj.fp : Obj → Str
  | .comp _ f _ => f
  | .list _ f _ => f
  | .map _ f _ => f

/-- Is it a `SerializableVector` or `SerializableMap`. SerializableVector.h:27, SerializableMap.h:33. -/
def Obj.isContainer : Obj → Bool
  | .comp _ _ _ => false
  | .list _ _ _ => true
  | .map _ _ _ => true

/-- ModifiableAMQPBlobImpl.cxx:25-30, `key`. -/
def Obj.key (o : Obj) : Str × Str := (o.name, o.fp)

/-- `std::string::operator<`: lexicographic by code unit. Not in /repo (standard library); the order of the map in
ModifiableAMQPBlobImpl.h:52. -/
def strLt : Str → Str → Bool
  | [], [] => false
  | [], _ :: _ => true
  | _ :: _, [] => false
  | a :: as, b :: bs => if a.val < b.val then true else if b.val < a.val then false else strLt as bs

/-- `operator<` of pairs of strings. Not in /repo (standard library); the order of the map in ModifiableAMQPBlobImpl.h:110-112. -/
def keyLt (a b : Str × Str) : Bool := if strLt a.1 b.1 then true else if strLt b.1 a.1 then false else strLt a.2 b.2

/-- `m[k] = v` for a `std::map` (kept as a list in key order) that does not have `k`. Not in /repo (standard library);
ModifiableAMQPBlobImpl.cxx:72, 97, ModifiableAMQPBlobImpl.h:214. -/
def mapPut {κ ν : Type} (lt : κ → κ → Bool) (k : κ) (v : ν) : List (κ × ν) → List (κ × ν)
  | [] => [(k, v)]
  | e :: m => if lt k e.1 then (k, v) :: e :: m else e :: mapPut lt k v m

/-- `m[k] = v` for a `std::map` that has `k`. Not in /repo (standard library); the change of a `CompositeBlob` in place,
ModifiableAMQPBlobImpl.cxx:148, 194, 220. -/
def mapSet {κ ν : Type} [DecidableEq κ] (k : κ) (v : ν) (m : List (κ × ν)) : List (κ × ν) :=
  m.map (fun e => if e.1 = k then (e.1, v) else e)

/-- `BaseBlob`: `CompositeBlob` (ModifiableAMQPBlobImpl.h:51-70) with its field descriptions by name, `ListBlob`
(72-95) with its source. -/
inductive Blob where
  | comp (fields : List (Str × List Node))
  | list (source : Str)

/-- `ModifiableAMQPBlobImpl` (ModifiableAMQPBlobImpl.h:103-112). -/
structure WState where
  payload : Cursor
  schemas : List ((Str × Str) × Blob)

/-- ModifiableAMQPBlobImpl.cxx:16-21. -/
def WState.init : WState := ⟨Cursor.empty, []⟩

/-- Serialisation steps; the state is returned also when an exception is thrown. The members of ModifiableAMQPBlobImpl.h:114-157. -/
abbrev Wr : Type := WState → Res Unit × WState

namespace Wr

/-- Nothing. Framework of the model, for all of /repo: no code of its own. -/
def skip : Wr := fun s => (.ok (), s)

/-- Sequencing. Framework of the model, for all of /repo: no code of its own. -/
def seq (p q : Wr) : Wr := fun s =>
  match p s with
  | (.ok _, s') => q s'
  | (.throw m, s') => (.throw m, s')
  | (.ub w, s') => (.ub w, s')

/-- A `pn_data_*` call on the payload. E.g. ModifiableAMQPBlobImpl.cxx:40-42. -/
def data (f : Cursor → Cursor) : Wr := fun s => (.ok (), { s with payload := f s.payload })

/-- An object whose constructor does `start` and whose destructor, run also when an exception passes, does `stop`. Serializable.cxx:19-31,
RestrictedSerializable.cxx. -/
def guarded (start : Wr) (body : Wr) (stop : Cursor → Cursor) : Wr := fun s =>
  match start s with
  | (.ok _, s1) =>
    let r := body s1
    (r.1, { r.2 with payload := stop r.2.payload })
  | (.throw m, s1) => (.throw m, s1)
  | (.ub w, s1) => (.ub w, s1)

/-- `if (m_schemas.find (id) == m_schemas.end()) m_schemas[id] = ...`. ModifiableAMQPBlobImpl.cxx:70-73, 95-98. -/
def register (key : Str × Str) (b : Blob) : Wr := fun s =>
  match s.schemas.lookup key with
  | some _ => (.ok (), s)
  | none => (.ok (), { s with schemas := mapPut keyLt key b s.schemas })

/-- ModifiableAMQPBlobImpl.cxx:34-47, `startSerializable`. -/
def startSerializable (fp : Str) : Wr :=
  seq (data (Cursor.put .described)) (seq (data Cursor.enter) (data (Cursor.put (.symbol fp))))

/-- ModifiableAMQPBlobImpl.cxx:58-79, `startComposite`. -/
def startComposite (key : Str × Str) : Wr :=
  seq (register key (.comp []))
  (seq (startSerializable key.2)
  (seq (data (Cursor.put .list)) (data Cursor.enter)))

/-- ModifiableAMQPBlobImpl.cxx:83-112, `startRestricted`; `isMap` says which of the two `javaType()` is ("map" or
"list": SerializableVector.h:146, SerializableMap.h:114, the only restricted classes). -/
def startRestricted (key : Str × Str) (isMap : Bool) : Wr :=
  seq (register key (.list (if isMap then "map".toList else "list".toList)))
  (seq (startSerializable key.2)
  (seq (data (Cursor.put (if isMap then .map else .list))) (data Cursor.enter)))

/-- ModifiableAMQPBlobImpl.cxx:116-124 `endComposite`, 165-173 `endRestricted`. -/
def stop (c : Cursor) : Cursor := c.exit.exit

/-- The common part of `writePrimitive`, `writeNull`, `writeComposite`, `writeRestricted`
(ModifiableAMQPBlobImpl.h:209-226, .cxx:140-156, 187-199, 213-226): record the description of a property unless there
is one of that name.  `key` must be registered (`assert`); `dynamic_cast` to a reference throws if it was registered
by a container. -/
def property (key : Str × Str) (name : Str) (desc : List Node) : Wr := fun s =>
  match s.schemas.lookup key with
  | none => (.ub "assert", s)
  | some (.list _) => (.throw "bad_cast", s)
  | some (.comp fields) =>
    match fields.lookup name with
    | some _ => (.ok (), s)
    | none => (.ok (), { s with schemas := mapSet key (.comp (mapPut strLt name desc fields)) s.schemas })

/-- `DBG (... << propertyValue_ << std::endl)`, which is switched on (debug.h:5): ModifiableAMQPBlobImpl.h:207 in
`writePrimitive`, 241 in `writePrimitiveSingle`. -/
def trace (prints : Bool) : Wr := fun s => (if prints then .ok () else .ub "char pointer", s)

/-- The description `writePrimitive<T>` records: ModifiableAMQPBlobImpl.h:213-226. -/
def primDesc (name : Str) (t : PrimType) (ptr : Bool) : List Node :=
  Prog.fieldProton name t.typeName [] [] [] ptr false

/-- The description `writeComposite` records: ModifiableAMQPBlobImpl.cxx:193-199 (defaults in
FieldDescriptor.h:32-40). -/
def compositeDesc (name type : Str) : List Node := Prog.fieldProton name type [] [] [] false false

/-- The description `writeRestricted` records: ModifiableAMQPBlobImpl.cxx:219-226. -/
def restrictedDesc (name type : Str) : List Node := Prog.fieldProton name "*".toList [type] [] [] false false

/-- The description `writeNull` would record: ModifiableAMQPBlobImpl.cxx:146-156. -/
def nullDesc (name type : Str) : List Node := Prog.fieldProton name type [] [] [] true false

mutual

/-- `o.serialise (sf_, blob_)`: Serializable.cxx:74-85 with `AutoComposite` 19-31; SerializableVector.h:39-50 and
SerializableMap.h:37-51 with `AutoRestrictedWrite` RestrictedSerializable.cxx:6-18. -/
def object : Obj → Wr
  | .comp n f ms => guarded (startComposite (n, f)) (members (n, f) ms) stop
  | .list n f es => guarded (startRestricted (n, f) false) (elems es) stop
  | .map n f es => guarded (startRestricted (n, f) true) (entries es) stop

/-- A user's `serialiseImpl`. E.g. libs/amqp/src/test/RoundTripTests.cxx:50-57, bin/writer-tests/writer-test-02/SerialiseMe.cxx:9-17. -/
def members (key : Str × Str) : List Member → Wr
  | [] => skip
  | m :: ms => seq (member key m) (members key ms)

/-- `PropertyWriter<T>::write`: SerialiserFactoryWriters.h:70-86 (primitives and pointers to them,
ModifiableAMQPBlobImpl.h:199-231), 136-152 (objects), 159-179 (pointers to objects).  For an object by value
`NonPrimWriter<T>` (90-129) tells containers from others; for a pointer the specialisations do not match. -/
def member (key : Str × Str) : Member → Wr
  | .prim n ptr v =>
    seq (trace (!ptr || v.pointerPrints)) (seq (property key n (primDesc n v.type ptr)) (data (Cursor.put v.atom)))
  | .nullPrim n t =>
    seq (trace t.nullPrints) (seq (property key n (primDesc n t true)) (data (Cursor.put .null)))
  | .obj n t ptr o =>
    seq (property key n (if !ptr && o.isContainer then restrictedDesc n t else compositeDesc n t)) (object o)
  | .nullObj n t =>
    seq (property key n (compositeDesc n t)) (seq (property key n (nullDesc n t)) (data (Cursor.put .null)))

/-- The loop in SerializableVector.h:47-49. -/
def elems : List Elem → Wr
  | [] => skip
  | e :: es => seq (elem e) (elems es)

/-- `SingleWriter<T>::write`: SerialiserFactoryWriters.h:36-63, ModifiableAMQPBlobImpl.h:235-244. -/
def elem : Elem → Wr
  | .prim v => data (Cursor.put v.atom)
  | .nullPrim t => seq (trace t.nullPrints) (data (Cursor.put .null))
  | .obj o => object o

/-- The loop in SerializableMap.h:44-50. -/
def entries : List Entry → Wr
  | [] => skip
  | e :: es => seq (entry e) (entries es)

/-- Key, then value. SerializableMap.h:48-49. -/
def entry : Entry → Wr
  | .mk k v => seq (elem k) (elem v)

end

end Wr

/-- `BaseBlob::make`: ModifiableAMQPBlobImpl.h:62-69, 85-94. -/
def Blob.make (key : Str × Str) : Blob → List Node
  | .comp fields => Prog.compositeProton key.1 [] key.2 (fields.map Prod.snd) []
  | .list source => Prog.restrictedProton key.1 source key.2

/-- ModifiableAMQPBlobImpl.cxx:231-261, `toBlob`: the contents of the resulting `AMQPBlob`. -/
def WState.toBlob (s : WState) : List Node :=
  Prog.envelopeProton s.payload.forest (Prog.schemaProton (s.schemas.map fun e => e.2.make e.1))

/-- `o.serialise (sf_)`: Serializable.cxx:42-53, SerializableVector.h:94-101, SerializableMap.h:85-92. -/
def serialise (o : Obj) : Res (List Node) :=
  match Wr.object o WState.init with
  | (.ok _, s) => .ok s.toBlob
  | (.throw m, _) => .throw m
  | (.ub w, _) => .ub w

/-- What can be done with a blob that can be written to: write an object, or make a blob of what there is. Serializable.h:98-100,
ModifiableAMQPBlob.h:33. -/
inductive Act where
  | write (o : Obj)
  | make

/-- A program that does this one after the other with one blob (Serializable.h:98-100 `serialise (sf_, blob_)`,
SerialiserFactory.h:39 `blob()`, ModifiableAMQPBlob.h:33 `toBlob()`), and catches every exception.  `toBlob` leaves the payload
alone: `pn_data_append` restores the position in what it copies from. -/
def useBlob : WState → List Act → List (Res (List Node))
  | _, [] => []
  | s, .make :: as => .ok s.toBlob :: useBlob s as
  | s, .write o :: as =>
    match Wr.object o s with
    | (.ok _, s') => .ok [] :: useBlob s' as
    | (.throw m, s') => .throw m :: useBlob s' as
    | (.ub w, _) => [.ub w]

end Corda
