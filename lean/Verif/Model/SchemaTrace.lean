import Verif.Model.Trace

/-
Model of what the schema dumper prints on standard output: the trace of the library and the dump.  The functions of Model/SchemaDump once
more, with the prints in their places.
-/

namespace Corda

/-- What `__FILE__` is in the files that print while a schema is dumped: proton_wrapper.cxx, AMQPDescriptor.cxx, EnvelopeDescriptor.cxx,
SchemaDescriptor.cxx, CompositeDescriptor.cxx, ObjectDescriptor.cxx. It depends on how the compiler is called. -/
structure SchemaFiles where
  wrapper : Str
  descriptor : Str
  envelope : Str
  schema : Str
  composite : Str
  object : Str
  deriving DecidableEq, Repr

namespace TProg

/-- As `TProg.attestList`, with the name of the file alone: proton_wrapper.cxx:286-301. -/
def attestIsList (f : SchemaFiles) : TProg Unit := do
  quiet Prog.attestList
  dbg f.wrapper 299 "YEP! it's a list".toList

/-- proton_wrapper.cxx:569-594, `readAndNext<std::string>` with `tolerateDeviance_`: line 578 prints first. -/
def readText (tolerate : Bool := false) : TProg Str := do
  print "STRING".toList
  quiet (Prog.readString tolerate)

/-- As `Prog.autoNext`: proton_wrapper.cxx:423-437. -/
def autoNext {α : Type} (p : TProg α) : TProg α := fun c =>
  let r := p c
  ((r.1.1, r.1.2.next.2), r.2)

/-- As `Prog.autoListEnter`, with or without `next_`: proton_wrapper.cxx:445-461. -/
def listEnter {α : Type} (body : Nat → TProg α) (next_ : Bool := false) : TProg α := fun c =>
  scope (fun c => if next_ then c.enter.next.2 else c.enter) (body c.getList) c

/-- As `Prog.forNextGo`: e.g. CompositeDescriptor.cxx:144, 204, SchemaDescriptor.cxx:87, 124. -/
def forNextGo (body : Nat → TProg Str) : Nat → Nat → TProg Str
  | 0, _ => quiet (Prog.ub "fuel")
  | fuel + 1, i => do
    if ← quiet Prog.next then do
      let a ← body i
      let as ← forNextGo body fuel (i + 1)
      pure (a ++ as)
    else pure []

/-- As `Prog.forNext`: e.g. CompositeDescriptor.cxx:144, 204, SchemaDescriptor.cxx:87, 124. -/
def forNext (body : Nat → TProg Str) : TProg Str := fun c => forNextGo body (c.rest.length + 1) 1 c

/-- As `Prog.byType`: AMQPDescriptorRegistory.cxx:25-94. -/
def byType (base : TProg Str) : TProg Str := do
  let t ← quiet (Prog.look Cursor.type)
  if t = .described then base else quiet (Prog.ub "null registry entry")

/-- ObjectDescriptor.cxx:45-66, `readRaw`. -/
def schemaObject (f : SchemaFiles) (ai : Str) : TProg Str := do
  attestIsList f
  listEnter (fun _ => do
    let _ ← quiet Prog.next
    let s ← quiet (Prog.autoNext Prog.getSymbol)
    let d ← quiet (Prog.look Cursor.shown)
    pure (deeper ai ++ dObj1 ++ s ++ nl ++ deeper ai ++ dObj2 ++ d ++ nl))

/-- FieldDescriptor.cxx:89-137, `readRaw`. -/
def schemaField (f : SchemaFiles) (ai : Str) : TProg Str := do
  attestIsList f
  listEnter (fun _ => do
    let name ← quiet (Prog.autoNext Prog.getString)
    let type ← quiet (Prog.autoNext Prog.getString)
    let req ← quiet (Prog.rawRequires (deeper ai))
    let _ ← quiet Prog.next
    quiet (Prog.attestString true)
    let def_ ← quiet (Prog.autoNext (Prog.getString true))
    let label ← quiet (Prog.autoNext (Prog.getString true))
    let mandatory ← quiet (Prog.autoNext Prog.getBoolean)
    let multiple ← quiet (Prog.autoNext Prog.getBoolean)
    pure (deeper ai ++ dField1 ++ name ++ nl ++ deeper ai ++ dField2 ++ type ++ nl ++ req
      ++ deeper ai ++ dField4 ++ def_ ++ nl ++ deeper ai ++ dField5 ++ label ++ nl
      ++ deeper ai ++ dField6 ++ boolStr mandatory ++ nl ++ deeper ai ++ dField7 ++ boolStr multiple ++ nl)) true

/-- CompositeDescriptor.cxx:95-154, `readRaw`. -/
def schemaComposite (f : SchemaFiles) (base : Str → TProg Str) (ai_ : Str) : TProg Str := do
  attestIsList f
  let ai := deeper ai_
  autoEnter (do
    quiet Prog.attestString
    let name ← readText
    quiet Prog.attestString
    let label ← readText true
    attestIsList f
    let provides ← quiet (Prog.autoListEnter (fun _ => Prog.forNext (fun _ => do
      let s ← Prog.getString
      pure (ai ++ s ++ dBlank))))
    let _ ← quiet Prog.next
    quiet Prog.attestDescribed
    let desc ← autoNext (byType (base (deeper ai)))
    let fields ← listEnter (fun n => forNext (fun i => do
      let x ← byType (base (deeper (deeper ai)))
      pure (deeper ai ++ natStr i ++ dSlash ++ natStr n ++ dClose ++ nl ++ x)))
    pure (ai ++ dComp1 ++ name ++ nl ++ ai ++ dComp2 ++ label ++ dQuote ++ nl ++ ai ++ dProvides ++ provides ++ dClose ++ nl
      ++ ai ++ dComp4 ++ nl ++ desc ++ ai ++ dComp5 ++ nl ++ fields))

/-- RestrictedDescriptor.cxx:160-196, `readRaw`. -/
def schemaRestricted (f : SchemaFiles) (base : Str → TProg Str) (ai_ : Str) : TProg Str := do
  attestIsList f
  let ai := deeper ai_
  autoEnter (do
    let name ← readText
    let label ← readText true
    let provides ← quiet (Prog.autoListEnter (fun _ => Prog.forNext (fun _ => do
      let s ← Prog.getString
      pure (s ++ dBlank))))
    let _ ← quiet Prog.next
    let source ← readText
    let desc ← autoNext (byType (base (deeper ai)))
    pure (ai ++ dRestr1 ++ name ++ nl ++ ai ++ dRestr2 ++ label ++ nl ++ ai ++ dProvides ++ provides ++ dClose ++ nl
      ++ ai ++ dRestr4 ++ source ++ nl ++ ai ++ dRestr5 ++ nl ++ desc))

/-- SchemaDescriptor.cxx:65-97, `readRaw`. -/
def schemaSchema (f : SchemaFiles) (base : Str → TProg Str) (ai_ : Str) : TProg Str := do
  attestIsList f
  let ai := deeper ai_
  listEnter (fun n => forNext (fun i => do
    attestIsList f
    listEnter (fun m => do
      let ts ← forNext (fun j => do
        let t ← byType (base (deeper (deeper ai)))
        pure (deeper ai ++ natStr i ++ dColon ++ natStr j ++ dSlash ++ natStr m ++ dCloseBlank ++ nl ++ t))
      pure (ai ++ natStr i ++ dSlash ++ natStr n ++ dClose ++ dEntries ++ natStr m ++ nl ++ ts))))

/-- EnvelopeDescriptor.cxx:42-65, `readRaw`. -/
def schemaEnvelope (f : SchemaFiles) (base : Str → TProg Str) (ai_ : Str) : TProg Str := do
  attestIsList f
  let ai := deeper ai_
  autoEnter (do
    let payload ← autoNext (byType (base (deeper ai)))
    let schema ← autoNext (byType (base (deeper ai)))
    pure (ai ++ dEnv1 ++ nl ++ payload ++ ai ++ dEnv2 ++ nl ++ schema))

/-- As `Prog.rawFor`: AMQPDescriptor.cxx:96 with AMQPDescriptorRegistory.cxx:25-94. -/
def schemaFor (f : SchemaFiles) (base : Str → TProg Str) (key : Nat) (ai : Str) : TProg Str :=
  if key = 22 then base ai
  else if key = descId ENVELOPE then schemaEnvelope f base ai
  else if key = descId SCHEMA then schemaSchema f base ai
  else if key = descId OBJECT then schemaObject f ai
  else if key = descId FIELD then schemaField f ai
  else if key = descId COMPOSITE_TYPE then schemaComposite f base ai
  else if key = descId RESTRICTED_TYPE then schemaRestricted f base ai
  else if key = descId CHOICE then base ai
  else if key = descId REFERENCED_OBJECT then base ai
  else if key = descId TRANSFORM_SCHEMA then base ai
  else if key = descId TRANSFORM_ELEMENT then base ai
  else if key = descId TRANSFORM_ELEMENT_KEY then base ai
  else quiet (Prog.ub "null registry entry")

/-- AMQPDescriptor.cxx:68-111, `readRaw` of the base class, inside the entered value; `base` is its recursive use. -/
def schemaBody (f : SchemaFiles) (base : Str → TProg Str) (ai_ : Str) : TProg Str := do
  let ai := deeper ai_
  let t ← quiet (Prog.look Cursor.type)
  if t = .ulong then do
    let key ← quiet Prog.readUint64
    attestIsList f
    let n ← quiet (Prog.look Cursor.getList)
    let x ← schemaFor f base key ai
    pure (ai_ ++ dDescribed ++ nl ++ ai ++ dKey ++ natStr key ++ dColons ++ natStr (stripCorda key) ++ dArrow
      ++ describedToString key ++ nl ++ ai ++ dList ++ natStr n ++ nl ++ x)
  else if t = .symbol then do
    let s ← quiet (Prog.look Prog.getSymbolRaw)
    pure (ai_ ++ dDescribed ++ nl ++ ai ++ dBlob ++ natStr s.length ++ nl)
  else quiet (Prog.throw "Described type should only contain long or blob")

/-- AMQPDescriptor.cxx:68-111, `readRaw`; `fuel` as in `Prog.rawBase`. -/
def schemaBase (f : SchemaFiles) : Nat → Str → TProg Str
  | 0, _ => quiet (Prog.ub "fuel")
  | fuel + 1, ai => autoEnter (schemaBody f (schemaBase f fuel) ai)

/-! The Avro form. -/

/-- ObjectDescriptor.cxx:70-89, `readAvro`. -/
def avroObject (f : SchemaFiles) (ai : Str) : TProg Str := do
  dbg f.object 77 "readAvro::Object".toList
  attestIsList f
  listEnter (fun _ => do
    let _ ← quiet Prog.next
    let s ← quiet (Prog.autoNext Prog.getSymbol)
    pure (ai ++ aAliases ++ s ++ aAliasesEnd ++ nl))

/-- FieldDescriptor.cxx:235-258, `readAvro`. -/
def avroField (f : SchemaFiles) (ai : Str) : TProg Str := do
  attestIsList f
  listEnter (fun _ => do
    let name ← quiet (Prog.autoNext Prog.getString)
    let t ← quiet (Prog.avroType (deeper ai))
    pure (ai ++ aOpen ++ nl ++ deeper ai ++ aName ++ name ++ aNameEnd ++ nl ++ t ++ ai ++ aClose)) true

/-- CompositeDescriptor.cxx:158-219, `readAvro`. -/
def avroComposite (f : SchemaFiles) (base : Str → TProg Str) (ai_ : Str) : TProg Str := do
  dbg f.composite 165 "readAvro::Composite".toList
  attestIsList f
  let ai := deeper ai_
  autoEnter (do
    quiet Prog.attestString
    let name ← readText
    let found := findLast '.' name
    let last ← quiet (Prog.lift (substr name (addW found 1) npos))
    let first ← quiet (Prog.lift (substr name 0 found))
    quiet (Prog.attestString true)
    let _ ← quiet Prog.next
    attestIsList f
    let _ ← quiet Prog.next
    quiet Prog.attestDescribed
    let desc ← autoNext (byType (base ai))
    let fields ← listEnter (fun n => forNext (fun i => do
      let x ← byType (base (deeper ai))
      pure (x ++ (if i < n then aComma else []) ++ nl)))
    pure (aOpen ++ nl ++ ai ++ aRecord ++ nl ++ ai ++ aName ++ last ++ aQuoteComma ++ nl
      ++ ai ++ aNamespace ++ first ++ aQuoteComma ++ nl ++ desc ++ ai ++ aFields ++ nl ++ fields ++ ai ++ aFieldsEnd ++ nl
      ++ aClose))

/-- SchemaDescriptor.cxx:101-146, `readAvro`. -/
def avroSchema (f : SchemaFiles) (base : Str → TProg Str) (ai : Str) : TProg Str := do
  dbg f.schema 108 "readAvro::Schema".toList
  attestIsList f
  listEnter (fun n =>
    if n = 1 then
      listEnter (fun m => forNext (fun j => do
        let x ← byType (base ai)
        pure (if x = [] then [] else x ++ (if j < m then aComma else []) ++ nl)))
    else quiet (Prog.ub "assert")) true

/-- EnvelopeDescriptor.cxx:69-89, `readAvro`. -/
def avroEnvelope (f : SchemaFiles) (base : Str → TProg Str) (ai : Str) : TProg Str := do
  dbg f.envelope 76 "readAvro::Envelope".toList
  attestIsList f
  autoEnter (autoNext (byType (base ai))) true

/-- As `Prog.avroFor`: AMQPDescriptor.cxx:145 with AMQPDescriptorRegistory.cxx:25-94; `readAvro` of a restricted type
(RestrictedDescriptor.cxx:200-211) does nothing. -/
def avroFor (f : SchemaFiles) (base : Str → TProg Str) (key : Nat) (ai : Str) : TProg Str :=
  if key = 22 then base ai
  else if key = descId ENVELOPE then avroEnvelope f base ai
  else if key = descId SCHEMA then avroSchema f base ai
  else if key = descId OBJECT then avroObject f ai
  else if key = descId FIELD then avroField f ai
  else if key = descId COMPOSITE_TYPE then avroComposite f base ai
  else if key = descId RESTRICTED_TYPE then quiet Prog.avroRestricted
  else if key = descId CHOICE then base ai
  else if key = descId REFERENCED_OBJECT then base ai
  else if key = descId TRANSFORM_SCHEMA then base ai
  else if key = descId TRANSFORM_ELEMENT then base ai
  else if key = descId TRANSFORM_ELEMENT_KEY then base ai
  else quiet (Prog.ub "null registry entry")

/-- AMQPDescriptor.cxx:127-159, `readAvro` of the base class, inside the entered value. -/
def avroBody (f : SchemaFiles) (base : Str → TProg Str) (ai : Str) : TProg Str := do
  dbg f.descriptor 136 "readAvro::Descriptor".toList
  let t ← quiet (Prog.look Cursor.type)
  if t = .ulong then do
    let key ← quiet Prog.readUint64
    attestIsList f
    avroFor f base key ai
  else if t = .symbol then do
    let s ← quiet (Prog.look Prog.getSymbolRaw)
    pure (ai ++ dBlob ++ natStr s.length ++ nl)
  else quiet (Prog.throw "Unexpected Type")

/-- AMQPDescriptor.cxx:127-159, `readAvro`; `fuel` as in `Prog.rawBase`. -/
def avroBase (f : SchemaFiles) : Nat → Str → TProg Str
  | 0, _ => quiet (Prog.ub "fuel")
  | fuel + 1, ai => autoEnter (avroBody f (avroBase f fuel) ai)

/-- AMQPBlob.cxx:52-65, `dumpSchema`, with AMQPDescriptor.cxx:42-64, `read`. -/
def dumpSchema (f : SchemaFiles) (target : DumpTarget) : TProg Str := fun c =>
  (do
    let t ← quiet (Prog.look Cursor.type)
    if t ≠ .described then quiet (Prog.throw "Can only dispatch described objects")
    else
      match target with
      | .raw => schemaBase f c.fuel []
      | .amqp => pure []
      | .avro => avroBase f c.fuel [] : TProg Str) c

end TProg

/-- bin/schema-dumper/main.cxx:41-54, as `loadAndDump`, with all of the standard output, piece by piece: the trace comes while the argument of
`std::cout << schemaDumper.dump (mode)` (46) is computed, the dump after it. -/
def loadAndTell (f : SchemaFiles) (target : DumpTarget) (sys : System) (path : Str) : Res Ended × List Str :=
  match CordaBytes.load {} (sys.file path) with
  | .ok cb =>
    if cb.encoding = 0 then
      match AMQPBlob.make sys cb with
      | .ok c =>
        match TProg.dumpSchema f target c with
        | ((.ok s, _), out) => (.ok (.exit exitSuccess (s ++ nl)), out ++ [s ++ nl])
        | ((.throw m, _), out) => (.throw m, out)
        | ((.ub w, _), out) => (.ub w, out)
      | .throw m => (.throw m, [])
      | .ub w => (.ub w, [])
    else (.ok (.exit exitFailure []), [])
  | .throw m => (.throw m, [])
  | .ub w => (.ub w, [])

/-- bin/schema-dumper/main.cxx:18-60: how the schema dumper ends, and what it printed on standard output. -/
def schemaDumperOutput (f : SchemaFiles) (sys : System) (args : List Str) : Ended × List Str :=
  match args with
  | [path, flag] =>
    match sys.file path with
    | none => (.exit exitFailure [], [])
    | some _ =>
      if flag = "avro".toList then (catchRuntime (loadAndTell f .avro sys path).1, (loadAndTell f .avro sys path).2)
      else if flag = "raw".toList then (catchRuntime (loadAndTell f .raw sys path).1, (loadAndTell f .raw sys path).2)
      else (.exit exitFailure [], [])
  | _ => (.exit exitFailure [], [])

end Corda
