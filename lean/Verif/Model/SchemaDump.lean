import Verif.Model.Descriptors
import Verif.Model.Render

/-
Model of the schema dumps: `AMQPBlob::dumpSchema` (libs/amqp/src/AMQPBlob.cxx:52-65), `AMQPDescriptor::read`, `readRaw`,
`readAvro` (libs/amqp/src/schema/descriptors/AMQPDescriptor.cxx) and their overrides in corda-descriptors/.

The functions write to a `std::stringstream` local to `dumpSchema`; here each returns what it writes.  What was written
before an exception is lost in both.
-/

namespace Corda

/-! The literals of the raw dump. -/

/-- `std::endl`. Not in /repo (standard library); e.g. AMQPDescriptor.cxx:75. -/
def nl : Str := ['\n']
/-- AMQPDescriptor.h:37, one level of indentation. -/
def oneIndent : Str := "  ".toList
/-- AMQPDescriptor.cxx:75 -/
def dDescribed : Str := "DESCRIBED: ".toList
/-- AMQPDescriptor.cxx:85 -/
def dKey : Str := "key  : ".toList
/-- AMQPDescriptor.cxx:86 -/
def dColons : Str := " :: ".toList
/-- AMQPDescriptor.cxx:87 -/
def dArrow : Str := " -> ".toList
/-- AMQPDescriptor.cxx:92 -/
def dList : Str := "list : entries: ".toList
/-- AMQPDescriptor.cxx:100, 149 -/
def dBlob : Str := "blob: bytes: ".toList
/-- ObjectDescriptor.cxx:59 -/
def dObj1 : Str := "1/2] ".toList
/-- ObjectDescriptor.cxx:64 -/
def dObj2 : Str := "2/2] ".toList
/-- FieldDescriptor.cxx:101 -/
def dField1 : Str := "1/7] String: Name: ".toList
/-- FieldDescriptor.cxx:104 -/
def dField2 : Str := "2/7] String: Type: ".toList
/-- FieldDescriptor.cxx:111 -/
def dField3 : Str := "3/7] List: Requires: elements ".toList
/-- FieldDescriptor.cxx:125 -/
def dField4 : Str := "4/7] String: Default: ".toList
/-- FieldDescriptor.cxx:128 -/
def dField5 : Str := "5/7] String: Label: ".toList
/-- FieldDescriptor.cxx:131 -/
def dField6 : Str := "6/7] Boolean: Mandatory: ".toList
/-- FieldDescriptor.cxx:134 -/
def dField7 : Str := "7/7] Boolean: Multiple: ".toList
/-- CompositeDescriptor.cxx:110 -/
def dComp1 : Str := "1] String: ClassName: ".toList
/-- CompositeDescriptor.cxx:116 -/
def dComp2 : Str := "2] String: Label: \"".toList
/-- CompositeDescriptor.cxx:118 -/
def dQuote : Str := "\"".toList
/-- CompositeDescriptor.cxx:122, RestrictedDescriptor.cxx:177 -/
def dProvides : Str := "3] List: Provides: [ ".toList
/-- CompositeDescriptor.cxx:126, RestrictedDescriptor.cxx:182 -/
def dBlank : Str := " ".toList
/-- CompositeDescriptor.cxx:129, 146, RestrictedDescriptor.cxx:184, SchemaDescriptor.cxx:80 -/
def dClose : Str := "]".toList
/-- CompositeDescriptor.cxx:134 -/
def dComp4 : Str := "4] Descriptor:".toList
/-- CompositeDescriptor.cxx:139 -/
def dComp5 : Str := "5] List: Fields: ".toList
/-- CompositeDescriptor.cxx:145, SchemaDescriptor.cxx:80, 88 -/
def dSlash : Str := "/".toList
/-- RestrictedDescriptor.cxx:171 -/
def dRestr1 : Str := "1] String: Name: ".toList
/-- RestrictedDescriptor.cxx:174 -/
def dRestr2 : Str := "2] String: Label: ".toList
/-- RestrictedDescriptor.cxx:188 -/
def dRestr4 : Str := "4] String: Source: ".toList
/-- RestrictedDescriptor.cxx:192 -/
def dRestr5 : Str := "5] Descriptor:".toList
/-- SchemaDescriptor.cxx:85 -/
def dEntries : Str := " list: entries: ".toList
/-- SchemaDescriptor.cxx:88 -/
def dColon : Str := ":".toList
/-- SchemaDescriptor.cxx:89 -/
def dCloseBlank : Str := "] ".toList
/-- EnvelopeDescriptor.cxx:56 -/
def dEnv1 : Str := "1]".toList
/-- EnvelopeDescriptor.cxx:61 -/
def dEnv2 : Str := "2]".toList

/-! The literals of the Avro dump. -/

/-- ObjectDescriptor.cxx:84 -/
def aAliases : Str := "\"aliases\" : [ \"".toList
/-- ObjectDescriptor.cxx:87 -/
def aAliasesEnd : Str := "\" ],".toList
/-- FieldDescriptor.cxx:169, 184 -/
def aTypeArray : Str := "\"type\" : \"array\",".toList
/-- FieldDescriptor.cxx:174 -/
def aItemsOpenBlank : Str := "\"items\" : { ".toList
/-- FieldDescriptor.cxx:189 -/
def aItemsOpen : Str := "\"items\" : {".toList
/-- FieldDescriptor.cxx:181, 194 -/
def aItems : Str := "\"items\" : ".toList
/-- FieldDescriptor.cxx:197 -/
def aTypeMap : Str := "\"type\" : \"map,".toList
/-- FieldDescriptor.cxx:202 -/
def aValuesOpen : Str := "\"values\" : {".toList
/-- FieldDescriptor.cxx:207 -/
def aValues : Str := "\"values: ".toList
/-- FieldDescriptor.cxx:211 -/
def aType : Str := "\"type\" : \"".toList
/-- FieldDescriptor.cxx:250, CompositeDescriptor.cxx:182 -/
def aName : Str := "\"name\" : \"".toList
/-- FieldDescriptor.cxx:252 -/
def aNameEnd : Str := "\", ".toList
/-- CompositeDescriptor.cxx:178 -/
def aRecord : Str := "\"type\" : \"record\",".toList
/-- CompositeDescriptor.cxx:182, 183 -/
def aQuoteComma : Str := "\",".toList
/-- CompositeDescriptor.cxx:183 -/
def aNamespace : Str := "\"namespace\" : \"".toList
/-- CompositeDescriptor.cxx:199 -/
def aFields : Str := "\"fields\" : [".toList
/-- CompositeDescriptor.cxx:215 -/
def aFieldsEnd : Str := "]".toList
/-- CompositeDescriptor.cxx:209, SchemaDescriptor.cxx:139 -/
def aComma : Str := ",".toList
/-- CompositeDescriptor.cxx:167, FieldDescriptor.cxx:245 -/
def aOpen : Str := "{".toList
/-- CompositeDescriptor.cxx:218, FieldDescriptor.cxx:178, 191, 204, 257 -/
def aClose : Str := "}".toList

/-- `std::string::find_last_of (c)`: `npos` if there is none. Not in /repo (standard library); called in CompositeDescriptor.cxx:180,
FieldDescriptor.cxx:171. -/
def findLast (c : Char) (s : Str) : Nat :=
  if s.contains c then s.length - 1 - (s.reverse.takeWhile (· != c)).length else npos

/-- AMQPDescriptor.h:36-38: a copy of an `AutoIndent` is one level deeper. -/
def deeper (ai : Str) : Str := ai ++ oneIndent

/-! `operator << (std::ostream &, pn_data_t *)`. -/

/-- proton_wrapper.cxx:76 -/
def wEntries : Str := " #entries: ".toList
/-- proton_wrapper.cxx:99 -/
def wArrow : Str := "   -> ".toList
/-- proton_wrapper.cxx:93 -/
def wTrue : Str := "true".toList
/-- proton_wrapper.cxx:93 -/
def wFalse : Str := "false".toList

/-- `pn_type_name` (proton, codec.c). -/
def PnType.name : PnType → Str
  | .null => "PN_NULL".toList | .bool => "PN_BOOL".toList | .ubyte => "PN_UBYTE".toList | .byte => "PN_BYTE".toList
  | .ushort => "PN_USHORT".toList | .short => "PN_SHORT".toList | .uint => "PN_UINT".toList | .int => "PN_INT".toList
  | .char => "PN_CHAR".toList | .ulong => "PN_ULONG".toList | .long => "PN_LONG".toList
  | .timestamp => "PN_TIMESTAMP".toList | .float => "PN_FLOAT".toList | .double => "PN_DOUBLE".toList
  | .decimal32 => "PN_DECIMAL32".toList | .decimal64 => "PN_DECIMAL64".toList | .decimal128 => "PN_DECIMAL128".toList
  | .uuid => "PN_UUID".toList | .binary => "PN_BINARY".toList | .string => "PN_STRING".toList
  | .symbol => "PN_SYMBOL".toList | .described => "PN_DESCRIBED".toList | .array => "PN_ARRAY".toList
  | .list => "PN_LIST".toList | .map => "PN_MAP".toList | .invalid => "<UNKNOWN>".toList

/-- `std::setw (2)` before a number. proton_wrapper.cxx:66. -/
def setw2 (s : Str) : Str := List.replicate (2 - s.length) ' ' ++ s

/-- proton_wrapper.cxx:68-110, what is shown of the value; `kids` is the number of entries. -/
def valueShown (kids : Nat) : Atom → Str
  | .ulong n => dBlank ++ natStr n
  | .list => wEntries ++ natStr kids
  | .string s => dBlank ++ s
  | .int n => dBlank ++ intStr n
  | .bool b => dBlank ++ (if b then wTrue else wFalse)
  | .symbol s => dBlank ++ natStr s.length ++ nl ++ wArrow ++ s.flatMap fun c => c :: dBlank
  | _ => []

/-- proton_wrapper.cxx:63-112, `operator << (std::ostream &, pn_data_t *)`.  It does not move the cursor. -/
def Cursor.shown (c : Cursor) : Str :=
  setw2 (intStr c.type.num) ++ dBlank ++ c.type.name ++
    match c.cur with
    | none => []
    | some n => valueShown n.kids.length n.val

namespace Prog

/-- `for (int i { 1 } ; pn_data_next (data_) ; ++i) { body }` where the iterations write text. `fuel` bounds the number of iterations. (The
overflow of `i` after 2^31 iterations is not modelled.). E.g. CompositeDescriptor.cxx:144, 204, SchemaDescriptor.cxx:87, 124. -/
def forNextGo (body : Nat → Prog Str) : Nat → Nat → Prog Str
  | 0, _ => ub "fuel"
  | fuel + 1, i => do
    if ← next then do
      let a ← body i
      let as ← forNextGo body fuel (i + 1)
      pure (a ++ as)
    else pure []

/-- The loop; bound as for `whileNext`. E.g. CompositeDescriptor.cxx:144, 204, SchemaDescriptor.cxx:87, 124. -/
def forNext (body : Nat → Prog Str) : Prog Str := fun c => forNextGo body (c.rest.length + 1) 1 c

/-- `AMQPDescriptorRegistory[pn_data_type (data_)]->readRaw (...)` (or `readAvro`): the only `pn_type_t` that is a key of the
registry (AMQPDescriptorRegistory.cxx:25-94) is 22, `PN_DESCRIBED`, with the base class; for the others the null pointer
`operator[]` inserts is dereferenced. -/
def byType (base : Prog Str) : Prog Str := do
  let t ← look Cursor.type
  if t = .described then base else ub "null registry entry"

/-- ObjectDescriptor.cxx:45-66, `readRaw`.  Line 64, `ss_ << .. << data_`, uses the operator of proton_wrapper.h, which the
file includes and which is a better match than the one for `const void *`: it shows the datum the cursor is at, which is the
second one, or still the symbol if there is no second. -/
def rawObject (ai : Str) : Prog Str := do
  attestList
  autoListEnter (fun _ => do
    let _ ← next
    let s ← autoNext getSymbol
    let d ← look Cursor.shown
    pure (deeper ai ++ dObj1 ++ s ++ nl ++ deeper ai ++ dObj2 ++ d ++ nl))

/-- FieldDescriptor.cxx:108-119, the requirements. -/
def rawRequires (ai : Str) : Prog Str :=
  autoListEnter (fun n => do
    let t ← forNext (fun _ => do
      let s ← getString
      pure (deeper ai ++ s ++ nl))
    pure (ai ++ dField3 ++ natStr n ++ nl ++ t))

/-- FieldDescriptor.cxx:89-137, `readRaw`. -/
def rawField (ai : Str) : Prog Str := do
  attestList
  autoListEnter (fun _ => do
    let name ← autoNext getString
    let type ← autoNext getString
    let req ← rawRequires (deeper ai)
    let _ ← next
    attestString true
    let def_ ← autoNext (getString true)
    let label ← autoNext (getString true)
    let mandatory ← autoNext getBoolean
    let multiple ← autoNext getBoolean
    pure (deeper ai ++ dField1 ++ name ++ nl ++ deeper ai ++ dField2 ++ type ++ nl ++ req
      ++ deeper ai ++ dField4 ++ def_ ++ nl ++ deeper ai ++ dField5 ++ label ++ nl
      ++ deeper ai ++ dField6 ++ boolStr mandatory ++ nl ++ deeper ai ++ dField7 ++ boolStr multiple ++ nl)) true

/-- CompositeDescriptor.cxx:95-154, `readRaw`; `base` is the `readRaw` of the base class. -/
def rawComposite (base : Str → Prog Str) (ai_ : Str) : Prog Str := do
  attestList
  let ai := deeper ai_
  autoEnter (do
    attestString
    let name ← Prog.readString
    attestString
    let label ← Prog.readString true
    attestList
    let provides ← autoListEnter (fun _ => forNext (fun _ => do
      let s ← getString
      pure (ai ++ s ++ dBlank)))
    let _ ← next
    attestDescribed
    let desc ← autoNext (byType (base (deeper ai)))
    let fields ← autoListEnter (fun n => forNext (fun i => do
      let f ← byType (base (deeper (deeper ai)))
      pure (deeper ai ++ natStr i ++ dSlash ++ natStr n ++ dClose ++ nl ++ f)))
    pure (ai ++ dComp1 ++ name ++ nl ++ ai ++ dComp2 ++ label ++ dQuote ++ nl ++ ai ++ dProvides ++ provides ++ dClose ++ nl
      ++ ai ++ dComp4 ++ nl ++ desc ++ ai ++ dComp5 ++ nl ++ fields))

/-- RestrictedDescriptor.cxx:160-196, `readRaw`. -/
def rawRestricted (base : Str → Prog Str) (ai_ : Str) : Prog Str := do
  attestList
  let ai := deeper ai_
  autoEnter (do
    let name ← Prog.readString
    let label ← Prog.readString true
    let provides ← autoListEnter (fun _ => forNext (fun _ => do
      let s ← getString
      pure (s ++ dBlank)))
    let _ ← next
    let source ← Prog.readString
    let desc ← autoNext (byType (base (deeper ai)))
    pure (ai ++ dRestr1 ++ name ++ nl ++ ai ++ dRestr2 ++ label ++ nl ++ ai ++ dProvides ++ provides ++ dClose ++ nl
      ++ ai ++ dRestr4 ++ source ++ nl ++ ai ++ dRestr5 ++ nl ++ desc))

/-- SchemaDescriptor.cxx:65-97, `readRaw`. -/
def rawSchema (base : Str → Prog Str) (ai_ : Str) : Prog Str := do
  attestList
  let ai := deeper ai_
  autoListEnter (fun n => forNext (fun i => do
    attestList
    autoListEnter (fun m => do
      let ts ← forNext (fun j => do
        let t ← byType (base (deeper (deeper ai)))
        pure (deeper ai ++ natStr i ++ dColon ++ natStr j ++ dSlash ++ natStr m ++ dCloseBlank ++ nl ++ t))
      pure (ai ++ natStr i ++ dSlash ++ natStr n ++ dClose ++ dEntries ++ natStr m ++ nl ++ ts))))

/-- EnvelopeDescriptor.cxx:42-65, `readRaw`. -/
def rawEnvelope (base : Str → Prog Str) (ai_ : Str) : Prog Str := do
  attestList
  let ai := deeper ai_
  autoEnter (do
    let payload ← autoNext (byType (base (deeper ai)))
    let schema ← autoNext (byType (base (deeper ai)))
    pure (ai ++ dEnv1 ++ nl ++ payload ++ ai ++ dEnv2 ++ nl ++ schema))

/-- `AMQPDescriptorRegistory[key]->readRaw (data_, ss_, ai)` (AMQPDescriptor.cxx:96): the entries of
AMQPDescriptorRegistory.cxx:25-94.  The choice, referenced object and transform descriptors do not override `readRaw`. -/
def rawFor (base : Str → Prog Str) (key : Nat) (ai : Str) : Prog Str :=
  if key = 22 then base ai
  else if key = descId ENVELOPE then rawEnvelope base ai
  else if key = descId SCHEMA then rawSchema base ai
  else if key = descId OBJECT then rawObject ai
  else if key = descId FIELD then rawField ai
  else if key = descId COMPOSITE_TYPE then rawComposite base ai
  else if key = descId RESTRICTED_TYPE then rawRestricted base ai
  else if key = descId CHOICE then base ai
  else if key = descId REFERENCED_OBJECT then base ai
  else if key = descId TRANSFORM_SCHEMA then base ai
  else if key = descId TRANSFORM_ELEMENT then base ai
  else if key = descId TRANSFORM_ELEMENT_KEY then base ai
  else ub "null registry entry"

/-- AMQPDescriptor.cxx:68-111, `readRaw` of the base class, inside the entered value; `base` is its recursive use. -/
def rawBody (base : Str → Prog Str) (ai_ : Str) : Prog Str := do
  let ai := deeper ai_
  let t ← look Cursor.type
  if t = .ulong then do
    let key ← readUint64
    attestList
    let n ← look Cursor.getList
    let x ← rawFor base key ai
    pure (ai_ ++ dDescribed ++ nl ++ ai ++ dKey ++ natStr key ++ dColons ++ natStr (stripCorda key) ++ dArrow
      ++ describedToString key ++ nl ++ ai ++ dList ++ natStr n ++ nl ++ x)
  else if t = .symbol then do
    let s ← look getSymbolRaw
    pure (ai_ ++ dDescribed ++ nl ++ ai ++ dBlob ++ natStr s.length ++ nl)
  else throw "Described type should only contain long or blob"

/-- AMQPDescriptor.cxx:68-111, `readRaw`.  `fuel` bounds the nesting; the height of the tree always suffices. -/
def rawBase : Nat → Str → Prog Str
  | 0, _ => ub "fuel"
  | fuel + 1, ai => autoEnter (rawBody (rawBase fuel) ai)

/-! The Avro form. -/

/-- ObjectDescriptor.cxx:70-89, `readAvro`. -/
def avroObject (ai : Str) : Prog Str := do
  attestList
  autoListEnter (fun _ => do
    let _ ← next
    let s ← autoNext getSymbol
    pure (ai ++ aAliases ++ s ++ aAliasesEnd ++ nl))

/-- FieldDescriptor.cxx:156-213, `inferType (std::string &, ...)`.  `fuel` bounds the recursion, which takes the name apart;
its length always suffices (`infer_shape` for the types that can be shown). -/
def inferGo : Nat → Str → Str → Str → Res Str
  | 0, _, _, _ => .ub "fuel"
  | fuel + 1, type, req, ai => do
    let type_ := if type = "*".toList then req else type
    let arr ← isArray type_
    if arr then do
      let t ← substr type_ 0 (findLast '[' type_)
      let c ← isContainer t
      if c then do
        let x ← inferGo fuel t req (deeper ai)
        pure (ai ++ aTypeArray ++ nl ++ ai ++ aItemsOpenBlank ++ nl ++ x ++ ai ++ aClose ++ nl)
      else pure (ai ++ aTypeArray ++ nl ++ ai ++ aItems ++ t ++ nl)
    else if isList type_ then do
      let v ← listType type_
      let c ← isContainer v.2
      if c then do
        let x ← inferGo fuel v.2 req (deeper ai)
        pure (ai ++ aTypeArray ++ nl ++ ai ++ aItemsOpen ++ x ++ ai ++ aClose)
      else pure (ai ++ aTypeArray ++ nl ++ ai ++ aItems ++ v.2 ++ nl)
    else if isMap type_ then do
      let v ← mapType type_
      let c ← isContainer v.2.2
      if c then do
        let x ← inferGo fuel v.2.2 req (deeper ai)
        pure (ai ++ aTypeMap ++ nl ++ ai ++ aValuesOpen ++ x ++ ai ++ aClose)
      else pure (ai ++ aTypeMap ++ nl ++ ai ++ aValues ++ v.2.2 ++ nl)
    else pure (ai ++ aType ++ type_ ++ dQuote ++ nl)

/-- FieldDescriptor.cxx:156-213. -/
def inferType (type req ai : Str) : Res Str := inferGo (type.length + req.length + 1) type req ai

/-- FieldDescriptor.cxx:215-230, `inferType (pn_data_t *, ...)`. -/
def avroType (ai : Str) : Prog Str := do
  let type ← autoNext getString
  autoListEnter (fun n =>
    if n > 0 then do
      let r ← getString
      lift (inferType type r ai)
    else lift (inferType type [] ai)) true

/-- FieldDescriptor.cxx:235-258, `readAvro`. -/
def avroField (ai : Str) : Prog Str := do
  attestList
  autoListEnter (fun _ => do
    let name ← autoNext getString
    let t ← avroType (deeper ai)
    pure (ai ++ aOpen ++ nl ++ deeper ai ++ aName ++ name ++ aNameEnd ++ nl ++ t ++ ai ++ aClose)) true

/-- CompositeDescriptor.cxx:158-219, `readAvro`. -/
def avroComposite (base : Str → Prog Str) (ai_ : Str) : Prog Str := do
  attestList
  let ai := deeper ai_
  autoEnter (do
    attestString
    let name ← Prog.readString
    let found := findLast '.' name
    let last ← lift (substr name (addW found 1) npos)
    let first ← lift (substr name 0 found)
    attestString true
    let _ ← next
    attestList
    let _ ← next
    attestDescribed
    let desc ← autoNext (byType (base ai))
    let fields ← autoListEnter (fun n => forNext (fun i => do
      let f ← byType (base (deeper ai))
      pure (f ++ (if i < n then aComma else []) ++ nl)))
    pure (aOpen ++ nl ++ ai ++ aRecord ++ nl ++ ai ++ aName ++ last ++ aQuoteComma ++ nl
      ++ ai ++ aNamespace ++ first ++ aQuoteComma ++ nl ++ desc ++ ai ++ aFields ++ nl ++ fields ++ ai ++ aFieldsEnd ++ nl
      ++ aClose))

/-- RestrictedDescriptor.cxx:200-211, `readAvro`: nothing. -/
def avroRestricted : Prog Str := pure []

/-- SchemaDescriptor.cxx:101-146, `readAvro`; a type that writes nothing is seen by the end of the stream not moving
(122-133). -/
def avroSchema (base : Str → Prog Str) (ai : Str) : Prog Str := do
  attestList
  autoListEnter (fun n =>
    if n = 1 then
      autoListEnter (fun m => forNext (fun j => do
        let x ← byType (base ai)
        pure (if x = [] then [] else x ++ (if j < m then aComma else []) ++ nl)))
    else ub "assert") true

/-- EnvelopeDescriptor.cxx:69-89, `readAvro`. -/
def avroEnvelope (base : Str → Prog Str) (ai : Str) : Prog Str := do
  attestList
  autoEnter (autoNext (byType (base ai))) true

/-- `AMQPDescriptorRegistory[key]->readAvro (data_, ss_, ai_)` (AMQPDescriptor.cxx:145). -/
def avroFor (base : Str → Prog Str) (key : Nat) (ai : Str) : Prog Str :=
  if key = 22 then base ai
  else if key = descId ENVELOPE then avroEnvelope base ai
  else if key = descId SCHEMA then avroSchema base ai
  else if key = descId OBJECT then avroObject ai
  else if key = descId FIELD then avroField ai
  else if key = descId COMPOSITE_TYPE then avroComposite base ai
  else if key = descId RESTRICTED_TYPE then avroRestricted
  else if key = descId CHOICE then base ai
  else if key = descId REFERENCED_OBJECT then base ai
  else if key = descId TRANSFORM_SCHEMA then base ai
  else if key = descId TRANSFORM_ELEMENT then base ai
  else if key = descId TRANSFORM_ELEMENT_KEY then base ai
  else ub "null registry entry"

/-- AMQPDescriptor.cxx:127-159, `readAvro` of the base class, inside the entered value. -/
def avroBody (base : Str → Prog Str) (ai : Str) : Prog Str := do
  let t ← look Cursor.type
  if t = .ulong then do
    let key ← readUint64
    attestList
    avroFor base key ai
  else if t = .symbol then do
    let s ← look getSymbolRaw
    pure (ai ++ dBlob ++ natStr s.length ++ nl)
  else throw "Unexpected Type"

/-- AMQPDescriptor.cxx:127-159, `readAvro`; `fuel` as in `rawBase`. -/
def avroBase : Nat → Str → Prog Str
  | 0, _ => ub "fuel"
  | fuel + 1, ai => autoEnter (avroBody (avroBase fuel) ai)

end Prog

/-- libs/amqp/include/schema/SchemaDumpTargets.h:7-11 -/
inductive DumpTarget where
  | raw | amqp | avro
  deriving DecidableEq, Repr

namespace Prog

/-- AMQPBlob.cxx:52-65, `dumpSchema`, with AMQPDescriptor.cxx:42-64, `read`; `readAMQP` (115-123) writes nothing. -/
def dumpSchema (target : DumpTarget) : Prog Str := fun c =>
  (do
    let t ← look Cursor.type
    if t ≠ .described then throw "Can only dispatch described objects"
    else
      match target with
      | .raw => rawBase c.fuel []
      | .amqp => pure []
      | .avro => avroBase c.fuel [] : Prog Str) c

end Prog

end Corda
