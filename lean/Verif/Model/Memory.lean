import Verif.Model.Writer
import Verif.Model.Tools

/-
Model of the memory the library takes and gives back: the `pn_data_t` of qpid-proton, which are made with `pn_data` and would be given back with
`pn_data_free`, and the arrays of CordaBytes.  The functions of Model/Writer once more, with the calls of `pn_data` in their places.
There is no call of `pn_data_free` anywhere in /repo.  Not modelled: what the standard library takes (strings, maps, `std::unique_ptr`, all of which
give it back), that memory may run out, and what the objects that a user's class makes take (assembler/ReadPrimitive.h:47, ReadNonPrimitive.h:59).
-/

namespace Corda

/-- A `pn_data_t`, by what it is made for: ModifiableAMQPBlobImpl.cxx:18, FieldDescriptor.cxx:286, CompositeDescriptor.cxx:241 and
RestrictedDescriptor.cxx:230, SchemaDescriptor.cxx:155, EnvelopeDescriptor.cxx:151, AMQPBlob.cxx:31.  `pn_data (0)` in AMQPBlob.cxx:22 is in a
constructor that nothing calls. -/
inductive TreeOf where
  | payload
  | field (key : Str × Str) (name : Str)
  | type (key : Str × Str)
  | schema
  | envelope
  | decoded
  deriving DecidableEq, Repr

/-- As `Wr`, with the `pn_data_t` that are made. The members of ModifiableAMQPBlobImpl.h:114-157. -/
abbrev MWr : Type := WState → (Res Unit × WState) × List TreeOf

namespace MWr

/-- A step that makes none. Framework of the model, for all of /repo: no code of its own. -/
def none (p : Wr) : MWr := fun s => (p s, [])

/-- Sequencing. Framework of the model, for all of /repo: no code of its own. -/
def seq (p q : MWr) : MWr := fun s =>
  match p s with
  | ((.ok _, s'), o) => ((q s').1, o ++ (q s').2)
  | ((.throw m, s'), o) => ((.throw m, s'), o)
  | ((.ub m, s'), o) => ((.ub m, s'), o)

/-- As `Wr.guarded`. Serializable.cxx:19-31, RestrictedSerializable.cxx:6-18: the beginning and the end make none. -/
def guarded (start : Wr) (body : MWr) (stop : Cursor → Cursor) : MWr := fun s =>
  match start s with
  | (.ok _, s1) =>
    let r := body s1
    ((r.1.1, { r.1.2 with payload := stop r.1.2.payload }), r.2)
  | (.throw m, s1) => ((.throw m, s1), [])
  | (.ub m, s1) => ((.ub m, s1), [])

/-- As `Wr.property`: ModifiableAMQPBlobImpl.h:209-226, .cxx:140-156, 187-199, 213-226.  If there is no description of that name yet
`FieldDescriptor::makeProton` makes one (FieldDescriptor.cxx:286), which stays in the map. -/
def property (key : Str × Str) (name : Str) (desc : List Node) : MWr := fun s =>
  (Wr.property key name desc s,
    match s.schemas.lookup key with
    | some (.comp fields) =>
      match fields.lookup name with
      | some _ => []
      | Option.none => [.field key name]
    | _ => [])

mutual

/-- `o.serialise (sf_, blob_)`: Serializable.cxx:74-85, SerializableVector.h:39-50, SerializableMap.h:37-51. -/
def object : Obj → MWr
  | .comp n f ms => guarded (Wr.startComposite (n, f)) (members (n, f) ms) Wr.stop
  | .list n f es => guarded (Wr.startRestricted (n, f) false) (elems es) Wr.stop
  | .map n f es => guarded (Wr.startRestricted (n, f) true) (entries es) Wr.stop

/-- A user's `serialiseImpl`. E.g. libs/amqp/src/test/RoundTripTests.cxx:50-57. -/
def members (key : Str × Str) : List Member → MWr
  | [] => none Wr.skip
  | m :: ms => seq (member key m) (members key ms)

/-- `PropertyWriter<T>::write`: SerialiserFactoryWriters.h:70-86, 136-152, 159-179. -/
def member (key : Str × Str) : Member → MWr
  | .prim n ptr v =>
    seq (none (Wr.trace (!ptr || v.pointerPrints)))
      (seq (property key n (Wr.primDesc n v.type ptr)) (none (Wr.data (Cursor.put v.atom))))
  | .nullPrim n t =>
    seq (none (Wr.trace t.nullPrints)) (seq (property key n (Wr.primDesc n t true)) (none (Wr.data (Cursor.put .null))))
  | .obj n t ptr o =>
    seq (property key n (if !ptr && o.isContainer then Wr.restrictedDesc n t else Wr.compositeDesc n t)) (object o)
  | .nullObj n t =>
    seq (property key n (Wr.compositeDesc n t)) (seq (property key n (Wr.nullDesc n t)) (none (Wr.data (Cursor.put .null))))

/-- The loop in SerializableVector.h:47-49. -/
def elems : List Elem → MWr
  | [] => none Wr.skip
  | e :: es => seq (elem e) (elems es)

/-- `SingleWriter<T>::write`: SerialiserFactoryWriters.h:36-63. -/
def elem : Elem → MWr
  | .prim v => none (Wr.data (Cursor.put v.atom))
  | .nullPrim t => seq (none (Wr.trace t.nullPrints)) (none (Wr.data (Cursor.put .null)))
  | .obj o => object o

/-- The loop in SerializableMap.h:44-50. -/
def entries : List Entry → MWr
  | [] => none Wr.skip
  | e :: es => seq (entry e) (entries es)

/-- Key, then value. SerializableMap.h:48-49. -/
def entry : Entry → MWr
  | .mk k v => seq (elem k) (elem v)

end

end MWr

/-- ModifiableAMQPBlobImpl.cxx:231-261, `toBlob`: the `pn_data_t` it makes, one for each entry of `m_schemas` (246-247), one for the schema and one for the
envelope, which is the one the blob gets. `pn_data_append` copies. -/
def WState.toBlobTrees (s : WState) : List TreeOf := s.schemas.map (fun e => .type e.1) ++ [.schema, .envelope]

/-- What is taken and not given back: the `pn_data_t`, and the arrays made with `new char[]` (CordaBytes.cxx:73, 88), by their number; `made` is how many
arrays there were. -/
structure Heap where
  trees : List TreeOf
  arrays : List Nat
  made : Nat

/-- `pn_data` of qpid-proton, called in the files named at `TreeOf`, e.g. AMQPBlob.cxx:31. -/
def Heap.grow (h : Heap) (ts : List TreeOf) : Heap := { h with trees := ts ++ h.trees }

/-- `new char[]`: CordaBytes.cxx:73, 88. -/
def Heap.array (h : Heap) : Heap := { h with arrays := h.made :: h.arrays, made := h.made + 1 }

/-- The objects of the library that a program has made, in the order of making, `none` when destroyed: `ModifiableAMQPBlobImpl` (ModifiableAMQPBlobImpl.h:103),
`AMQPBlob` (AMQPBlob.h:37), `CordaBytes` (CordaBytes.h:25) with its array. -/
structure Running where
  writers : List (Option WState)
  blobs : List (Option (List Node))
  bytes : List (Option (Nat × CordaBytes))
  heap : Heap

/-- At the beginning of a program. E.g. bin/writer-tests/writer-test-02/main.cxx:11. -/
def Running.start : Running := ⟨[], [], [], ⟨[], [], 0⟩⟩

/-- What a program does with the objects of the library: make a blob that can be written to, write an object to it, make an `AMQPBlob` of it, make the bytes of that,
load bytes from a file, make an `AMQPBlob` of them, copy an `AMQPBlob`; and destroy any of them. SerialiserFactoryInternal.cxx:10-12, Serializable.h:98-100,
ModifiableAMQPBlob.h:33, CordaBytes.h:31-33, AMQPBlob.h:52-54.  A `CordaBytes` cannot be copied: it has a `std::unique_ptr`. -/
inductive Step where
  | writer
  | write (i : Nat) (o : Obj)
  | make (i : Nat)
  | encode (i : Nat)
  | load (cfg : AMQPConfig) (path : Str)
  | decode (i : Nat)
  | copy (i : Nat)
  | endWriter (i : Nat)
  | endBlob (i : Nat)
  | endBytes (i : Nat)

/-- A step of a program.  To use an object that is not there, or not any more, is undefined.

`writer`: ModifiableAMQPBlobImpl.cxx:16-21.  `encode`: CordaBytes.cxx:81-90.  `load`: CordaBytes.cxx:19-77, where the array is made last.  `decode`: AMQPBlob.cxx:29-39.
`copy`: the constructor the compiler makes, the pointer is copied.  `endWriter`: ModifiableAMQPBlob.h:31, the map of schemas goes and with it the pointers in it, but not
what they point to (ModifiableAMQPBlobImpl.h:52, 105).  `endBlob`: the destructor the compiler makes, AMQPBlob.h:37-71.  `endBytes`: CordaBytes.h:36-38. -/
def Running.step (sys : System) (enc : List Node → List Byte) (s : Running) : Step → Res Unit × Running
  | .writer => (.ok (), { s with writers := s.writers ++ [some WState.init], heap := s.heap.grow [.payload] })
  | .write i o =>
    match s.writers[i]? with
    | some (some w) =>
      let r := MWr.object o w
      (r.1.1, { s with writers := s.writers.set i (some r.1.2), heap := s.heap.grow r.2 })
    | _ => (.ub "no such object", s)
  | .make i =>
    match s.writers[i]? with
    | some (some w) => (.ok (), { s with blobs := s.blobs ++ [some w.toBlob], heap := s.heap.grow w.toBlobTrees })
    | _ => (.ub "no such object", s)
  | .encode i =>
    match s.blobs[i]? with
    | some (some ns) =>
      (.ok (), { s with bytes := s.bytes ++ [some (s.heap.made, CordaBytes.ofBlob (enc ns))], heap := s.heap.array })
    | _ => (.ub "no such object", s)
  | .load cfg path =>
    match CordaBytes.load cfg (sys.file path) with
    | .ok cb => (.ok (), { s with bytes := s.bytes ++ [some (s.heap.made, cb)], heap := s.heap.array })
    | .throw m => (.throw m, s)
    | .ub w => (.ub w, s)
  | .decode i =>
    match s.bytes[i]? with
    | some (some (_, cb)) =>
      match AMQPBlob.make sys cb with
      | .ok c => (.ok (), { s with blobs := s.blobs ++ [some c.forest], heap := s.heap.grow [.decoded] })
      | .throw m => (.throw m, { s with heap := s.heap.grow [.decoded] })
      | .ub w => (.ub w, { s with heap := s.heap.grow [.decoded] })
    | _ => (.ub "no such object", s)
  | .copy i =>
    match s.blobs[i]? with
    | some (some ns) => (.ok (), { s with blobs := s.blobs ++ [some ns] })
    | _ => (.ub "no such object", s)
  | .endWriter i =>
    match s.writers[i]? with
    | some (some _) => (.ok (), { s with writers := s.writers.set i none })
    | _ => (.ub "no such object", s)
  | .endBlob i =>
    match s.blobs[i]? with
    | some (some _) => (.ok (), { s with blobs := s.blobs.set i none })
    | _ => (.ub "no such object", s)
  | .endBytes i =>
    match s.bytes[i]? with
    | some (some (a, _)) =>
      if a ∈ s.heap.arrays then
        (.ok (), { s with bytes := s.bytes.set i none, heap := { s.heap with arrays := s.heap.arrays.erase a } })
      else (.ub "given back twice", s)
    | _ => (.ub "no such object", s)

/-- A program that does this and catches every exception. E.g. bin/reader-tests/reader-test-02-nested-composite/main.cxx:12-31. -/
def Running.run (sys : System) (enc : List Node → List Byte) : Running → List Step → Res Running
  | s, [] => .ok s
  | s, a :: as =>
    match s.step sys enc a with
    | (.ub w, _) => .ub w
    | (_, s') => s'.run sys enc as

end Corda
