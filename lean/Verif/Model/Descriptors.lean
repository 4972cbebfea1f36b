import Verif.Model.Wrapper
import Verif.Model.SchemaTypes

/-
Model of libs/amqp/src/schema/descriptors: the reading (`build`) and writing (`makeProton`) of schema elements as
programs on a `pn_data_t`.
-/

namespace Corda

/-- Descriptors.h:19, `DESCRIPTOR_TOP_32BITS`. -/
def descTop : Nat := 0xc562 <<< 48

/-- The 64-bit identifier of schema element number `k`, as in AMQPDescriptorRegistory.cxx:29-94. -/
def descId (k : Nat) : Nat := k ||| descTop

/-! libs/amqp/src/schema/Descriptors.cxx:5-37: element numbers. -/
/-- libs/amqp/src/schema/Descriptors.cxx:7 -/
abbrev ENVELOPE : Nat := 1
/-- libs/amqp/src/schema/Descriptors.cxx:8 -/
abbrev SCHEMA : Nat := 2
/-- libs/amqp/src/schema/Descriptors.cxx:9 -/
abbrev OBJECT : Nat := 3
/-- libs/amqp/src/schema/Descriptors.cxx:10 -/
abbrev FIELD : Nat := 4
/-- libs/amqp/src/schema/Descriptors.cxx:11 -/
abbrev COMPOSITE_TYPE : Nat := 5
/-- libs/amqp/src/schema/Descriptors.cxx:12 -/
abbrev RESTRICTED_TYPE : Nat := 6
/-- libs/amqp/src/schema/Descriptors.cxx:13 -/
abbrev CHOICE : Nat := 7
/-- libs/amqp/src/schema/Descriptors.cxx:14 -/
abbrev REFERENCED_OBJECT : Nat := 8
/-- libs/amqp/src/schema/Descriptors.cxx:15 -/
abbrev TRANSFORM_SCHEMA : Nat := 9
/-- libs/amqp/src/schema/Descriptors.cxx:16 -/
abbrev TRANSFORM_ELEMENT : Nat := 10
/-- libs/amqp/src/schema/Descriptors.cxx:17 -/
abbrev TRANSFORM_ELEMENT_KEY : Nat := 11

/-- AMQPDescriptorRegistory.cxx:100-103, `stripCorda`. -/
def stripCorda (id : Nat) : Nat := id &&& 0xffffffff

/-- AMQPDescriptorRegistory.cxx:107-123, `describedToString (uint64_t)`. -/
def describedToString (v : Nat) : Str :=
  if v = descId 1 then "ENVELOPE".toList
  else if v = descId 2 then "SCHEMA".toList
  else if v = descId 3 then "OBJECT_DESCRIPTOR".toList
  else if v = descId 4 then "FIELD".toList
  else if v = descId 5 then "COMPOSITE_TYPE".toList
  else if v = descId 6 then "RESTRICTED_TYPE".toList
  else if v = descId 7 then "CHOICE".toList
  else if v = descId 8 then "REFERENCED_OBJECT".toList
  else if v = descId 9 then "TRANSFORM_SCHEMA".toList
  else if v = descId 10 then "TRANSFORM_ELEMENT".toList
  else if v = descId 11 then "TRANSFORM_ELEMENT_KEY".toList
  else "UNKNOWN".toList

/-- What a `uPtr<ISchemaElement>` can hold. AMQPDescriptor.h:76 (`build`); the classes are made in EnvelopeDescriptor.cxx,
SchemaDescriptor.cxx, ObjectDescriptor.cxx, FieldDescriptor.cxx, CompositeDescriptor.cxx, RestrictedDescriptor.cxx, ChoiceDescriptor.cxx
(`build` of each); null in AMQPDescriptors.cxx:35-79. -/
inductive Element where
  | envelope (schema : Schema) (outer : Str)
  | schema (s : Schema)
  | descriptor (name : Str)
  | field (f : Field)
  | notation (t : TypeNotation)
  | choice (c : Str)
  | null
  deriving DecidableEq, Repr

namespace Prog

/-! `static_cast<T *>` of `dispatchDescribed<T>` (AMQPDescriptors.h:33-45).  The cast itself is unchecked; using
the result as a `T` when it is not one, or is null, is undefined.  Every caller does use it (the `Composite`,
`Restricted`, `Schema` and `Envelope` objects made from it dereference it), so the model marks it at the cast. -/

/-- AMQPDescriptors.h:42-44 with `T` = `Descriptor`. -/
def asDescriptor : Element → Prog Str
  | .descriptor s => pure s
  | .null => ub "null element"
  | _ => ub "wrong element class"

/-- AMQPDescriptors.h:42-44 with `T` = `Field`. -/
def asField : Element → Prog Field
  | .field f => pure f
  | .null => ub "null element"
  | _ => ub "wrong element class"

/-- AMQPDescriptors.h:42-44 with `T` = `Choice`. -/
def asChoice : Element → Prog Str
  | .choice s => pure s
  | .null => ub "null element"
  | _ => ub "wrong element class"

/-- AMQPDescriptors.h:42-44 with `T` = `AMQPTypeNotation`. -/
def asNotation : Element → Prog TypeNotation
  | .notation t => pure t
  | .null => ub "null element"
  | _ => ub "wrong element class"

/-- AMQPDescriptors.h:42-44 with `T` = `Schema`. -/
def asSchema : Element → Prog Schema
  | .schema s => pure s
  | .null => ub "null element"
  | _ => ub "wrong element class"

/-- AMQPDescriptors.cxx:17-31, `validateAndNext`, for a descriptor with `m_val = k` (never -1 when it is called:
the base class overrides nothing and its `build` throws first). -/
def validateAndNext (k : Nat) : Prog Unit := do
  attest .ulong "Bad type for a descriptor"
  let v ← look getUlong
  if v ≠ descId k then throw "Invalid Type"
  else do
    let _ ← next
    pure ()

/-- A list of strings: `auto_list_enter; while (pn_data_next) push_back (get_string)`. CompositeDescriptor.cxx:61-65,
FieldDescriptor.cxx:56-60, RestrictedDescriptor.cxx:116-121. -/
def stringList : Prog (List Str) := autoListEnter (fun _ => whileNext (getString false))

/-- FieldDescriptor.cxx:35-84, inside the entered list. -/
def fieldBody : Prog Element := do
  let name ← getString false
  let _ ← next
  let type ← getString false
  let _ ← next
  let req ← stringList
  let _ ← next
  let def_ ← getString true
  let _ ← next
  let label ← getString true
  let _ ← next
  let mandatory ← getBoolean
  let _ ← next
  let multiple ← getBoolean
  let f ← lift (Field.make name type req def_ label mandatory multiple)
  pure (.field f)

/-- FieldDescriptor.cxx:30-85, `FieldDescriptor::build`. -/
def fieldBuild : Prog Element := do
  validateAndNext FIELD
  autoEnter fieldBody

/-- ChoiceDescriptor.cxx:19-28, `ChoiceDescriptor::build`. -/
def choiceBuild : Prog Element := do
  validateAndNext CHOICE
  autoEnter (do let s ← getString false; pure (.choice s))

/-- ObjectDescriptor.cxx:29-41, `ObjectDescriptor::build`. -/
def objectBuild : Prog Element := do
  validateAndNext OBJECT
  autoEnter (do let s ← getSymbol; pure (.descriptor s))

/-- CompositeDescriptor.cxx:46-90, inside the entered list; `rec` is `dispatchDescribed`. -/
def compositeBody (rec : Prog Element) : Prog Element := do
  let name ← getString false
  let _ ← next
  let label ← getString true
  let _ ← next
  let provides ← stringList
  let _ ← next
  let d ← rec
  let descriptor ← asDescriptor d
  let _ ← next
  let fields ← autoListEnter (fun _ => whileNext (do let e ← rec; asField e))
  pure (.notation (.comp ⟨name, label, provides, descriptor, fields⟩))

/-- CompositeDescriptor.cxx:39-91, `CompositeDescriptor::build`. -/
def compositeBuild (rec : Prog Element) : Prog Element := do
  validateAndNext COMPOSITE_TYPE
  autoEnter (compositeBody rec)

/-- RestrictedDescriptor.cxx:107-155, inside the entered list. -/
def restrictedBody (rec : Prog Element) : Prog Element := do
  let name ← readString false
  let label ← readString true
  let provides ← stringList
  let _ ← next
  let source ← readString false
  let d ← rec
  let descriptor ← asDescriptor d
  let _ ← next
  let choices ← autoListEnter (fun _ => whileNext (do let e ← rec; asChoice e))
  let r ← lift (Restricted.make descriptor (makePrim name) label provides source choices)
  pure (.notation (.restr r))

/-- RestrictedDescriptor.cxx:101-156, `RestrictedDescriptor::build`. -/
def restrictedBuild (rec : Prog Element) : Prog Element := do
  validateAndNext RESTRICTED_TYPE
  autoEnter (restrictedBody rec)

/-- SchemaDescriptor.cxx:48-56: reading and inserting one type. -/
def schemaStep (rec : Prog Element) (ls : List (List TypeNotation)) : Prog (List (List TypeNotation)) := do
  let e ← rec
  let t ← asNotation e
  lift (insertR TypeNotation.dependsOn ls t)

/-- SchemaDescriptor.cxx:32-61, `SchemaDescriptor::build`. -/
def schemaBuild (rec : Prog Element) : Prog Element := do
  validateAndNext SCHEMA
  let ls ← autoListEnter (fun _ => foldNext (fun ls => autoListEnter (fun _ => foldNext (schemaStep rec) ls)) [])
  pure (.schema (Schema.make ls))

/-- EnvelopeDescriptor.cxx:17-22, `consumeBlob`. -/
def consumeBlob : Prog Str := do
  attestDescribed
  autoEnter getSymbol

/-- EnvelopeDescriptor.cxx:111-137, inside the entered list. -/
def envelopeBody (rec : Prog Element) : Prog Element := do
  let outer ← consumeBlob
  let _ ← next
  let e ← rec
  let s ← asSchema e
  let _ ← next
  pure (.envelope s outer)

/-- EnvelopeDescriptor.cxx:103-141, `EnvelopeDescriptor::build`. -/
def envelopeBuild (rec : Prog Element) : Prog Element := do
  validateAndNext ENVELOPE
  autoEnter (envelopeBody rec)

/-- AMQPDescriptors.cxx:35-79: `build` of the four descriptors that read nothing. -/
def nullBuild (k : Nat) : Prog Element := do
  validateAndNext k
  pure .null

/-- `AMQPDescriptorRegistory[id]->build (data_)`: AMQPDescriptorRegistory.cxx:23-95.  An unknown identifier makes
`operator[]` insert a null pointer, which is then dereferenced.  The entry under 22 (`PN_DESCRIBED`) is the base
class, whose `build` throws (AMQPDescriptor.cxx:34-38). -/
def build (rec : Prog Element) (id : Nat) : Prog Element :=
  if id = 22 then throw "Should never be called"
  else if id = descId ENVELOPE then envelopeBuild rec
  else if id = descId SCHEMA then schemaBuild rec
  else if id = descId OBJECT then objectBuild
  else if id = descId FIELD then fieldBuild
  else if id = descId COMPOSITE_TYPE then compositeBuild rec
  else if id = descId RESTRICTED_TYPE then restrictedBuild rec
  else if id = descId CHOICE then choiceBuild
  else if id = descId REFERENCED_OBJECT then nullBuild REFERENCED_OBJECT
  else if id = descId TRANSFORM_SCHEMA then nullBuild TRANSFORM_SCHEMA
  else if id = descId TRANSFORM_ELEMENT then nullBuild TRANSFORM_ELEMENT
  else if id = descId TRANSFORM_ELEMENT_KEY then nullBuild TRANSFORM_ELEMENT_KEY
  else ub "null registry entry"

/-- AMQPDescriptors.h:38-44: inside the entered described value. -/
def dispatchBody (rec : Prog Element) : Prog Element := do
  isUlong
  let id ← look getUlong
  build rec id

/-- AMQPDescriptors.h:33-45, `dispatchDescribed`, before the cast.  `fuel` bounds the nesting; the height of the
tree always suffices (`dispatch_fuel`). -/
def dispatch : Nat → Prog Element
  | 0 => ub "fuel"
  | fuel + 1 => do
    attestDescribed
    autoEnter (dispatchBody (dispatch fuel))

end Prog

/-- Number of levels of a tree. Framework of the model, for all of /repo: bounds the recursion of `build` (AMQPDescriptors.h:33-45). -/
def Node.height : Node → Nat
  | .mk _ ks => heights ks + 1
where
  heights : List Node → Nat
    | [] => 0
    | k :: ks => max (Node.height k) (heights ks)

/-- Enough fuel for what is below the cursor. Framework of the model, for all of /repo: bounds the recursion of `build`
(AMQPDescriptors.h:33-45). -/
def Cursor.fuel (c : Cursor) : Nat :=
  match c.cur with
  | some n => n.height
  | none => 0

namespace Prog

/-- AMQPBlob.cxx:276-286, the reading of the envelope in `dumpContents`, up to the first use of the result: a value
that is not described, or whose element is not an envelope, leaves a null pointer that is then dereferenced. -/
def readEnvelope : Prog (Schema × Str) := fun c =>
  (do
    let d ← isDescribed
    if d then do
      let e ← autoEnter (do
        let id ← look getUlong
        build (dispatch c.fuel) id)
      match e with
      | .envelope s o => pure (s, o)
      | _ => ub "null envelope"
    else ub "null envelope" : Prog (Schema × Str)) c

/-! `makeProton`: writing of schema elements. -/

/-- A list of strings. FieldDescriptor.cxx:304-306, the loop over the requirements. -/
def putStrings : List Str → Prog Unit
  | [] => pure ()
  | s :: ss => do
    put (.string s)
    putStrings ss

/-- Appending a sequence of `pn_data_t`. CompositeDescriptor.cxx:282-284, SchemaDescriptor.cxx:167-169. -/
def appendAll : List (List Node) → Prog Unit
  | [] => pure ()
  | n :: ns => do
    append n
    appendAll ns

/-- FieldDescriptor.cxx:273-317, `FieldDescriptor::makeProton`. -/
def fieldProton (name type : Str) (req : List Str) (def_ label : Str) (mandatory multiple : Bool) : List Node :=
  made (do
    put .described
    autoEnter (do
      put (.ulong (descId FIELD))
      put .list
      autoEnter (do
        put (.string name)
        put (.string type)
        put .list
        autoEnter (putStrings req)
        put (.string def_)
        put (.string label)
        put (.bool mandatory)
        put (.bool multiple))))

/-- The descriptor inside a composite or restricted description: CompositeDescriptor.cxx:267-277,
RestrictedDescriptor.cxx:261-272. -/
def putObject (fp : Str) : Prog Unit := do
  put .described
  autoEnter (do
    put (.ulong (descId OBJECT))
    put .list
    autoEnter (do
      put (.symbol fp)
      put .null))

/-- CompositeDescriptor.cxx:230-290, `CompositeDescriptor::makeProton`; `fields` in the iteration order of the
`std::map`. -/
def compositeProton (name : Str) (provides : List Str) (fp : Str) (fields : List (List Node)) (label : Str) :
    List Node :=
  made (do
    put .described
    autoEnter (do
      put (.ulong (descId COMPOSITE_TYPE))
      put .list
      autoEnter (do
        put (.string name)
        put (.string label)
        put .list
        autoEnter (putStrings provides)
        putObject fp
        put .list
        autoEnter (appendAll fields))))

/-- RestrictedDescriptor.cxx:223-283, `RestrictedDescriptor::makeProton`. -/
def restrictedProton (name source fp : Str) : List Node :=
  made (do
    put .described
    autoEnter (do
      put (.ulong (descId RESTRICTED_TYPE))
      put .list
      autoEnter (do
        put (.string name)
        put (.string [])
        put .list
        autoEnter (pure ())
        put (.string source)
        putObject fp
        put .list
        autoEnter (pure ()))))

/-- SchemaDescriptor.cxx:150-175, `SchemaDescriptor::makeProton`. -/
def schemaProton (elems : List (List Node)) : List Node :=
  made (do
    put .described
    autoEnter (do
      put (.ulong (descId SCHEMA))
      put .list
      autoEnter (do
        put .list
        autoEnter (appendAll elems))))

/-- EnvelopeDescriptor.cxx:145-170, `EnvelopeDescriptor::makeProton`. -/
def envelopeProton (payload schema : List Node) : List Node :=
  made (do
    put .described
    autoEnter (do
      put (.ulong (descId ENVELOPE))
      put .list
      autoEnter (do
        append payload
        append schema
        put .null)))

end Prog

end Corda
