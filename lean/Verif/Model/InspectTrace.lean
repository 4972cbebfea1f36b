import Verif.Model.SchemaTrace
import Verif.Model.Listing

/-
Model of what the blob inspector prints on standard output: the trace of the library and the dump.  The functions of Model/SchemaTypes,
Model/Ordering, Model/Descriptors, Model/Factory and Model/Readers once more, with the prints in their places.
-/

namespace Corda

/-- The files that print while a blob is inspected: the sources of libs/amqp/src/schema, libs/amqp/src/assembler,
libs/amqp/src/serialiser/serialisers/reader and libs/proton-wrapper/src/proton_wrapper.cxx with a `DBG` on the way. -/
inductive Src where
  | wrapper
  | envelopeDescriptor | schemaDescriptor | compositeDescriptor | fieldDescriptor | restrictedDescriptor | objectDescriptor | descriptors
  | ordered | composite | schema | field | restrictedField | compositeField | arrayField | restricted | array | list | map
  | factory
  | compositeReader | mapReader | intReader | stringReader
  deriving DecidableEq, Repr

/-- What `__FILE__` is in each of them. It depends on how the compiler is called. libs/corda-utils/include/debug.h:18. -/
abbrev Paths : Type := Src → Str

/-- One `DBG (text << std::endl)`: libs/corda-utils/include/debug.h:18.  If it is spread over several lines, the number is that of the first
one; the language leaves open which of them it is. -/
def traceLine (file : Str) (line : Nat) (text : Str) : Str :=
  "[".toList ++ file ++ "::".toList ++ natStr line ++ "] ".toList ++ text ++ nl

/-- An outcome and what was printed before it.  Framework of the model: the functions of libs/amqp/src/schema that touch no `pn_data_t`. -/
structure Telling (α : Type) where
  res : Res α
  out : List Str
  deriving DecidableEq, Repr

namespace Telling

/-- Sequencing; an exception or undefined behaviour stops the rest. Framework of the model: no code of its own in /repo. -/
def bind {α β : Type} (p : Telling α) (f : α → Telling β) : Telling β :=
  match p with
  | ⟨.ok a, out⟩ => ⟨(f a).res, out ++ (f a).out⟩
  | ⟨.throw m, out⟩ => ⟨.throw m, out⟩
  | ⟨.ub w, out⟩ => ⟨.ub w, out⟩

instance : Monad Telling where
  pure a := ⟨.ok a, []⟩
  bind := bind

/-- Without prints. Framework of the model: no code of its own in /repo. -/
def quiet {α : Type} (r : Res α) : Telling α := ⟨r, []⟩

/-- `DBG (text << std::endl)` in line `line` of `file`: libs/corda-utils/include/debug.h:18. -/
def dbg (file : Str) (line : Nat) (text : Str) : Telling Unit := ⟨.ok (), [traceLine file line text]⟩

/-! Fields and restricted types. -/

/-- Field.cxx:138-150, `typeIsPrimitive`. -/
def isPrimitive (p : Paths) (type_ : Str) : Telling Bool := do
  dbg (p .field) 141 ("typeIsPrimitive - ".toList ++ type_)
  pure (typeIsPrimitive type_)

/-- Field.cxx:116-134, the constructor of `Field`.  It prints its argument `type_` after it was moved from; that string is empty with the
common standard libraries and is modelled as such. -/
def fieldBase (p : Paths) (name_ : Str) : Telling Unit :=
  dbg (p .field) 133 ("FIELD::FIELD - name: ".toList ++ name_ ++ ", type: ".toList)

/-- RestrictedField.cxx:13-37, the constructor of `RestrictedField`. -/
def restrictedBase (p : Paths) (name_ type_ : Str) (requires_ : List Str) : Telling (List Str) := do
  fieldBase p name_
  dbg (p .restrictedField) 32 ("RestrictedField - ".toList ++ name_ ++ "::".toList ++ type_)
  quiet (allNested requires_)

/-- Field.cxx:36-108, `Field::make`, with the constructors of the five classes: ArrayField.cxx:17-36, CompositeField.cxx:16-35. -/
def makeField (p : Paths) (name_ type_ : Str) (requires_ : List Str) (default_ label_ : Str) (mandatory_ multiple_ : Bool) :
    Telling Field := do
  let prim ← isPrimitive p type_
  if prim then do
    dbg (p .field) 48 "-> primitive".toList
    fieldBase p name_
    pure ⟨.primitive, name_, type_, [], default_, label_, mandatory_, multiple_, []⟩
  else do
    let arr ← quiet (isArray type_)
    if arr then do
      dbg (p .field) 57 "-> array".toList
      let sub ← restrictedBase p name_ type_ requires_
      dbg (p .arrayField) 35 ("ArrayField::ArrayField - name: ".toList ++ name_ ++ ", type: ".toList ++ type_)
      pure ⟨.array, name_, type_, requires_, default_, label_, mandatory_, multiple_, sub⟩
    else if type_ = "*".toList then do
      dbg (p .field) 68 ("-> restricted ".toList ++ name_)
      match requires_ with
      | [] => do
        fieldBase p name_
        pure ⟨.custom, name_, type_, requires_, default_, label_, mandatory_, multiple_, []⟩
      | r :: _ => do
        let c ← quiet (isContainer r)
        if c then do
          dbg (p .field) 82 (name_ ++ " is a container".toList)
          let sub ← restrictedBase p name_ type_ requires_
          pure ⟨.restricted, name_, type_, requires_, default_, label_, mandatory_, multiple_, sub⟩
        else quiet (.throw "THIS IS BAD")
    else do
      let _ ← quiet (listType type_)
      dbg (p .field) 97 "-> composite".toList
      fieldBase p name_
      dbg (p .compositeField) 34 ("FIELD::FIELD - name: ".toList ++ name_ ++ ", type: ".toList ++ type_)
      pure ⟨.composite, name_, type_, requires_, default_, label_, mandatory_, multiple_, []⟩

/-- Restricted.cxx:92-151, `Restricted::make`; of the four constructors that of `Array` prints (Array.cxx:66). -/
def makeRestricted (p : Paths) (descriptor_ name_ label_ : Str) (provides_ : List Str) (source_ : Str) (choices_ : List Str) :
    Telling Restricted := do
  dbg (p .restricted) 102 ("RESTRICTED::MAKE - ".toList ++ name_)
  let r ← quiet (Restricted.make descriptor_ name_ label_ provides_ source_ choices_)
  match r.kind with
  | .array a => do
    dbg (p .array) 66 ("ARRAY OF::".toList ++ a ++ ", name::".toList ++ name_)
    pure r
  | _ => pure r

/-! Who depends on whom. -/

/-- libs/corda-utils/include/colours.h:6 -/
def reset : Str := "\x1B[0m".toList
/-- libs/corda-utils/include/colours.h:7 -/
def red : Str := "\x1B[31m".toList
/-- libs/corda-utils/include/colours.h:8 -/
def green : Str := "\x1B[32m".toList
/-- libs/corda-utils/include/colours.h:10 -/
def blue : Str := "\x1B[34m".toList

/-- Composite.cxx:100-106: the fields of a composite against a restricted type. -/
def anyResolvedCR (p : Paths) (n : Str) : List Field → Telling Bool
  | [] => pure false
  | f :: fs => do
    let t ← quiet f.resolvedType
    dbg (p .composite) 101 ("  C/R b) ".toList ++ t ++ " == ".toList ++ n)
    if t = n then pure true else anyResolvedCR p n fs

/-- Composite.cxx:109-114: the parts of a restricted type against a composite. -/
def anyPart (p : Paths) (n : Str) : List Str → Telling Bool
  | [] => pure false
  | i :: is => do
    dbg (p .composite) 110 ("  C/R a) ".toList ++ i ++ " == ".toList ++ n)
    if i = n then pure true else anyPart p n is

/-- Composite.cxx:139-144: the nested generic types of one field. -/
def anySub (p : Paths) (n : Str) : List Str → Telling Bool
  | [] => pure false
  | t :: ts => do
    dbg (p .composite) 140 ("  C/C a_ ".toList ++ red ++ "==>".toList ++ t ++ reset)
    if t = n then pure true else anySub p n ts

/-- Composite.cxx:129-152; `own` is the name of the composite whose fields they are. `type ()` in line 130 is that of the composite, which
prints as 0 (AMQPTypeNotation.h:40). -/
def anyDeepT (p : Paths) (own n : Str) : List Field → Telling Bool
  | [] => pure false
  | f :: fs => do
    dbg (p .composite) 130 (blue ++ "FIELD - ".toList ++ own ++ reset ++ "::".toList ++ "0".toList)
    if f.AMQPType = .restricted_t then do
      dbg (p .composite) 138 ("  C/C a_ ".toList ++ green ++ "LHS Name: ".toList ++ n ++ reset)
      let b ← anySub p n f.subTypes
      if b then pure true else anyDeepT p own n fs
    else do
      let t ← quiet f.resolvedType
      dbg (p .composite) 146 ("  C/C a) ".toList ++ t ++ " == ".toList ++ n)
      if t = n then pure true else anyDeepT p own n fs

/-- Composite.cxx:155-161: the fields of the other composite against `own`. -/
def anyResolvedCC (p : Paths) (own : Str) : List Field → Telling Bool
  | [] => pure false
  | f :: fs => do
    dbg (p .composite) 156 ("FIELD - ".toList ++ own ++ "::".toList ++ "0".toList)
    let t ← quiet f.resolvedType
    dbg (p .composite) 157 ("  C/C b) ".toList ++ t ++ " == ".toList ++ own)
    if t = own then pure true else anyResolvedCC p own fs

/-- Composite.cxx:121-164, `Composite::dependsOnRHS (const Composite & lhs_)`. -/
def compositeComposite (p : Paths) (self lhs : Composite) : Telling Int := do
  dbg (p .composite) 126 (self.name ++ " ?Depends on ".toList ++ lhs.name)
  let a ← anyDeepT p self.name lhs.name self.fields
  if a then pure 1 else do
    let b ← anyResolvedCC p self.name lhs.fields
    pure (if b then 2 else 0)

/-- Composite.cxx:94-117, `Composite::dependsOnRHS (const Restricted & lhs_)`. -/
def compositeRestricted (p : Paths) (self : Composite) (lhs : Restricted) : Telling Int := do
  let a ← anyResolvedCR p lhs.name self.fields
  if a then pure 1 else do
    let b ← anyPart p self.name lhs.elems
    pure (if b then 2 else 0)

/-- Restricted.cxx:47-72, how the kind of a restricted type is printed. -/
def kindWord : RKind → Str
  | .list _ => listWord
  | .map _ _ => mapWord
  | .enum _ => enumWord
  | .array _ => arrayWord

/-- Restricted.cxx:198-216 with List.cxx:71-85, `dependsOnMap`, and Map.cxx:80-100, `dependsOnList`; the others print nothing. -/
def restrictedRestricted (p : Paths) (self lhs : Restricted) : Telling Int := do
  dbg (p .restricted) 201 ("Restricted::dependsOnRHS - ".toList ++ kindWord lhs.kind)
  match self.kind, lhs.kind with
  | .list _, .map _ _ => do
    dbg (p .list) 72 ("List::dependsOnMap - ".toList ++ self.name ++ " map:".toList ++ lhs.name)
    pure (self.rhsRestricted lhs)
  | .map k v, .list l' => do
    dbg (p .map) 83 ("Map::dependsOnList; listOf ".toList ++ lhs.name ++ "(".toList ++ l' ++ ")".toList)
    dbg (p .map) 84 ("MapName - ".toList ++ self.name)
    dbg (p .map) 85 ("MapOf - ".toList ++ k ++ " - ".toList ++ v)
    if k = lhs.name ∨ v = lhs.name then do
      dbg (p .map) 88 "Map::dependsOnList - 1".toList
      pure 1
    else if l' = self.name then do
      dbg (p .map) 94 "Map::dependsOnList - 2".toList
      pure 2
    else do
      dbg (p .map) 98 "Map::dependsOnList - 0".toList
      pure 0
  | _, _ => pure (self.rhsRestricted lhs)

/-- `a.dependsOn (b)`: Composite.cxx:86-90, Restricted.cxx:189-194. -/
def dependsOn (p : Paths) (a b : TypeNotation) : Telling Int :=
  match a, b with
  | .comp x, .comp y => compositeComposite p y x
  | .comp x, .restr y => quiet (y.rhsComposite x)
  | .restr x, .comp y => do
    dbg (p .restricted) 192 "Restricted::dependsOn".toList
    compositeRestricted p y x
  | .restr x, .restr y => do
    dbg (p .restricted) 192 "Restricted::dependsOn".toList
    restrictedRestricted p y x

/-! The order of the types. -/

/-- OrderedTypeNotations.h:161-176, as `scanLevelR`. -/
def scanLevel (p : Paths) (x : TypeNotation) (here : Nat) : Nat → List TypeNotation → Telling (Nat × Bool)
  | cur, [] => pure (cur, false)
  | cur, j :: js => do
    dbg (p .ordered) 162 j.name
    let s ← dependsOn p j x
    if s = 1 then scanLevel p x here (here + 1) js
    else if s = 2 then pure (here, true)
    else scanLevel p x here cur js

/-- OrderedTypeNotations.h:158-178, as `findPosR`. -/
def findPos (p : Paths) (x : TypeNotation) : Nat → Nat → List (List TypeNotation) → Telling Nat
  | _, cur, [] => pure cur
  | here, cur, l :: ls => do
    let r ← scanLevel p x here cur l
    if r.2 then pure r.1 else findPos p x (here + 1) r.1 ls

/-- OrderedTypeNotations.h:188-210, as `shuffleR`. -/
def shuffle (p : Paths) (rec : TypeNotation → List (List TypeNotation) → Telling (List (List TypeNotation))) (x : TypeNotation) :
    List TypeNotation → List (List TypeNotation) → Telling (List (List TypeNotation) × List TypeNotation × List (List TypeNotation))
  | [], post => pure ([], [], post)
  | e :: es, post => do
    let s ← dependsOn p x e
    if s = 1 then do
      let post1 ← rec e post
      shuffle p rec x es post1
    else if s = 2 then do
      let r ← shuffle p rec x es post
      pure ([e] :: r.1, r.2.1, r.2.2)
    else if s > 0 then shuffle p rec x es post
    else do
      let r ← shuffle p rec x es post
      pure (r.1, e :: r.2.1, r.2.2)

/-- OrderedTypeNotations.h:147-212, as `insGoR`. -/
def insGo (p : Paths) : Nat → TypeNotation → List (List TypeNotation) → Telling (List (List TypeNotation))
  | 0, _, _ => quiet (.ub "fuel")
  | fuel + 1, x, tail => do
    dbg (p .ordered) 154 ("Insert: ".toList ++ x.name)
    let q ← findPos p x 0 0 tail
    match tail.drop q with
    | [] => pure (tail ++ [[x]])
    | lvl :: post => do
      let r ← shuffle p (insGo p fuel) x lvl post
      pure (tail.take q ++ r.1 ++ (x :: r.2.1) :: r.2.2)

/-- OrderedTypeNotations.h:138-143, as `insertR`. -/
def insertType (p : Paths) (levels : List (List TypeNotation)) (x : TypeNotation) : Telling (List (List TypeNotation)) :=
  insGo p (levels.flatten.length + 1) x levels

/-- Schema.cxx:41-52, the constructor of `Schema`: a line for each type. -/
def makeSchema (p : Paths) (types_ : List (List TypeNotation)) : Telling Schema :=
  ⟨.ok (Schema.make types_),
    types_.flatten.map fun t => traceLine (p .schema) 47 ("Schema: ".toList ++ t.descriptor ++ " ".toList ++ t.name)⟩

end Telling

/-! Reading the schema. -/

namespace TProg

/-- Use the result of a computation that does not touch the data. Framework of the model: no code of its own in /repo. -/
def tell {α : Type} (r : Telling α) : TProg α := fun c => ((r.res, c), r.out)

/-- As `Prog.foldNextGo`; `i` counts: SchemaDescriptor.cxx:47-57. -/
def foldNextGo {σ : Type} (body : Nat → σ → TProg σ) : Nat → Nat → σ → TProg σ
  | 0, _, _ => quiet (Prog.ub "fuel")
  | fuel + 1, i, s => do
    if ← quiet Prog.next then do
      let s' ← body i s
      foldNextGo body fuel (i + 1) s'
    else pure s

/-- As `Prog.foldNext`, the iterations numbered from 1: SchemaDescriptor.cxx:47-57. -/
def foldNext {σ : Type} (body : Nat → σ → TProg σ) (s : σ) : TProg σ := fun c =>
  foldNextGo body (c.rest.length + 1) 1 s c

/-- `DBG (before << data_ << std::endl)`: RestrictedDescriptor.cxx:134, 147, AMQPDescriptors.cxx:40, 52, 64, 76. -/
def dbgData (file : Str) (line : Nat) (before : Str) : TProg Unit := do
  let d ← quiet (Prog.look Cursor.shown)
  dbg file line (before ++ d)

/-- FieldDescriptor.cxx:35-84, inside the entered list. -/
def fieldBody (p : Paths) : TProg Element := do
  let name ← quiet (Prog.getString false)
  dbg (p .fieldDescriptor) 42 ("FIELD::name: \"".toList ++ name ++ "\"".toList)
  let _ ← quiet Prog.next
  let type ← quiet (Prog.getString false)
  dbg (p .fieldDescriptor) 49 ("FIELD::type: \"".toList ++ type ++ "\"".toList)
  let _ ← quiet Prog.next
  let req ← quiet Prog.stringList
  let _ ← quiet Prog.next
  let def_ ← quiet (Prog.getString true)
  let _ ← quiet Prog.next
  let label ← quiet (Prog.getString true)
  let _ ← quiet Prog.next
  let mandatory ← quiet Prog.getBoolean
  let _ ← quiet Prog.next
  let multiple ← quiet Prog.getBoolean
  let f ← tell (Telling.makeField p name type req def_ label mandatory multiple)
  pure (.field f)

/-- FieldDescriptor.cxx:30-85, `FieldDescriptor::build`. -/
def fieldBuild (p : Paths) : TProg Element := do
  dbg (p .fieldDescriptor) 33 "FIELD".toList
  quiet (Prog.validateAndNext FIELD)
  autoEnter (fieldBody p)

/-- ObjectDescriptor.cxx:29-41, `ObjectDescriptor::build`. -/
def objectBuild (p : Paths) : TProg Element := do
  dbg (p .objectDescriptor) 32 "DESCRIPTOR".toList
  quiet Prog.objectBuild

/-- CompositeDescriptor.cxx:46-90, inside the entered list; `rec` is `dispatchDescribed`. -/
def compositeBody (rec : TProg Element) : TProg Element := do
  let name ← quiet (Prog.getString false)
  let _ ← quiet Prog.next
  let label ← quiet (Prog.getString true)
  let _ ← quiet Prog.next
  let provides ← quiet Prog.stringList
  let _ ← quiet Prog.next
  let d ← rec
  let descriptor ← quiet (Prog.asDescriptor d)
  let _ ← quiet Prog.next
  let fields ← listEnter (fun _ => whileNext (do let e ← rec; quiet (Prog.asField e)))
  pure (.notation (.comp ⟨name, label, provides, descriptor, fields⟩))

/-- CompositeDescriptor.cxx:39-91, `CompositeDescriptor::build`. -/
def compositeBuild (p : Paths) (rec : TProg Element) : TProg Element := do
  dbg (p .compositeDescriptor) 42 "COMPOSITE".toList
  quiet (Prog.validateAndNext COMPOSITE_TYPE)
  autoEnter (compositeBody rec)

/-- RestrictedDescriptor.cxx:107-155, inside the entered list. -/
def restrictedBody (p : Paths) (rec : TProg Element) : TProg Element := do
  let name ← readText
  let label ← readText true
  dbg (p .restrictedDescriptor) 112 ("  name: ".toList ++ makePrim name ++ ", label: \"".toList ++ label ++ "\"".toList)
  let provides ← listEnter (fun _ => whileNext (do
    let s ← quiet (Prog.getString false)
    dbg (p .restrictedDescriptor) 120 ("  provides: ".toList ++ s)
    pure s))
  let _ ← quiet Prog.next
  let source ← readText
  dbg (p .restrictedDescriptor) 128 ("source: ".toList ++ source)
  let d ← rec
  let descriptor ← quiet (Prog.asDescriptor d)
  let _ ← quiet Prog.next
  dbgData (p .restrictedDescriptor) 134 "choices: ".toList
  let choices ← listEnter (fun _ => whileNext (do
    let e ← rec
    let c ← quiet (Prog.asChoice e)
    dbg (p .restrictedDescriptor) 143 (" choice: ".toList ++ c)
    pure c))
  dbgData (p .restrictedDescriptor) 147 []
  let r ← tell (Telling.makeRestricted p descriptor (makePrim name) label provides source choices)
  pure (.notation (.restr r))

/-- RestrictedDescriptor.cxx:101-156, `RestrictedDescriptor::build`. -/
def restrictedBuild (p : Paths) (rec : TProg Element) : TProg Element := do
  dbg (p .restrictedDescriptor) 104 "RESTRICTED".toList
  quiet (Prog.validateAndNext RESTRICTED_TYPE)
  autoEnter (restrictedBody p rec)

/-- SchemaDescriptor.cxx:55: all types read so far, after each type. -/
def listing (p : Paths) (ls : List (List TypeNotation)) : Str :=
  traceLine (p .schemaDescriptor) 55 ("=======".toList ++ nl ++ printLevels ls ++ "======".toList)

/-- SchemaDescriptor.cxx:50-56: reading and inserting one type. -/
def schemaStep (p : Paths) (rec : TProg Element) (ls : List (List TypeNotation)) : TProg (List (List TypeNotation)) := do
  let e ← rec
  let t ← quiet (Prog.asNotation e)
  let ls' ← tell (Telling.insertType p ls t)
  tell ⟨.ok (), [listing p ls']⟩
  pure ls'

/-- SchemaDescriptor.cxx:32-61, `SchemaDescriptor::build`. -/
def schemaBuild (p : Paths) (rec : TProg Element) : TProg Element := do
  dbg (p .schemaDescriptor) 35 "SCHEMA".toList
  quiet (Prog.validateAndNext SCHEMA)
  let ls ← listEnter (fun n => foldNext (fun i ls => do
    dbg (p .schemaDescriptor) 48 ("  ".toList ++ natStr i ++ "/".toList ++ natStr n)
    listEnter (fun _ => foldNext (fun _ => schemaStep p rec) ls)) [])
  let s ← tell (Telling.makeSchema p ls)
  pure (.schema s)

/-- EnvelopeDescriptor.cxx:111-137, inside the entered list. -/
def envelopeBody (rec : TProg Element) : TProg Element := do
  let outer ← quiet Prog.consumeBlob
  let _ ← quiet Prog.next
  let e ← rec
  let s ← quiet (Prog.asSchema e)
  let _ ← quiet Prog.next
  pure (.envelope s outer)

/-- EnvelopeDescriptor.cxx:103-141, `EnvelopeDescriptor::build`. -/
def envelopeBuild (p : Paths) (rec : TProg Element) : TProg Element := do
  dbg (p .envelopeDescriptor) 106 "ENVELOPE".toList
  quiet (Prog.validateAndNext ENVELOPE)
  autoEnter (envelopeBody rec)

/-- AMQPDescriptors.cxx:35-79: `build` of the four descriptors that read nothing; `line` and `word` are those of its `DBG`. -/
def nullBuild (p : Paths) (k line : Nat) (word : Str) : TProg Element := do
  quiet (Prog.validateAndNext k)
  dbgData (p .descriptors) line word
  pure .null

/-- As `Prog.build`: AMQPDescriptorRegistory.cxx:23-95. -/
def build (p : Paths) (rec : TProg Element) (id : Nat) : TProg Element :=
  if id = 22 then quiet (Prog.throw "Should never be called")
  else if id = descId ENVELOPE then envelopeBuild p rec
  else if id = descId SCHEMA then schemaBuild p rec
  else if id = descId OBJECT then objectBuild p
  else if id = descId FIELD then fieldBuild p
  else if id = descId COMPOSITE_TYPE then compositeBuild p rec
  else if id = descId RESTRICTED_TYPE then restrictedBuild p rec
  else if id = descId CHOICE then quiet Prog.choiceBuild
  else if id = descId REFERENCED_OBJECT then nullBuild p REFERENCED_OBJECT 40 "REFERENCED OBJECT ".toList
  else if id = descId TRANSFORM_SCHEMA then nullBuild p TRANSFORM_SCHEMA 52 "TRANSFORM SCHEMA ".toList
  else if id = descId TRANSFORM_ELEMENT then nullBuild p TRANSFORM_ELEMENT 64 "TRANSFORM ELEMENT ".toList
  else if id = descId TRANSFORM_ELEMENT_KEY then nullBuild p TRANSFORM_ELEMENT_KEY 76 "TRANSFORM ELEMENT KEY".toList
  else quiet (Prog.ub "null registry entry")

/-- AMQPDescriptors.h:38-44: inside the entered described value. -/
def dispatchBody (p : Paths) (rec : TProg Element) : TProg Element := do
  quiet Prog.isUlong
  let id ← quiet (Prog.look Prog.getUlong)
  build p rec id

/-- AMQPDescriptors.h:33-45, `dispatchDescribed`; `fuel` as in `Prog.dispatch`. -/
def dispatch (p : Paths) : Nat → TProg Element
  | 0 => quiet (Prog.ub "fuel")
  | fuel + 1 => do
    quiet Prog.attestDescribed
    autoEnter (dispatchBody p (dispatch p fuel))

/-- AMQPBlob.cxx:276-286, as `Prog.readEnvelope`. -/
def readEnvelope (p : Paths) : TProg (Schema × Str) := fun c =>
  (do
    let d ← quiet Prog.isDescribed
    if d then do
      let e ← autoEnter (do
        let id ← quiet (Prog.look Prog.getUlong)
        build p (dispatch p c.fuel) id)
      match e with
      | .envelope s o => pure (s, o)
      | _ => quiet (Prog.ub "null envelope")
    else quiet (Prog.ub "null envelope") : TProg (Schema × Str)) c

end TProg

/-! Making the readers. -/

/-- A member function of the factory that prints. The members of CompositeFactoryInternal.h:37-70. -/
abbrev TFProg (α : Type) : Type := Factory → (Res α × Factory) × List Str

namespace TFProg

/-- Sequencing. Framework of the model: the statements of CompositeFactoryInternal.cxx. -/
def bind {α β : Type} (p : TFProg α) (f : α → TFProg β) : TFProg β := fun F =>
  match p F with
  | ((.ok a, F'), out) => ((f a F').1, out ++ (f a F').2)
  | ((.throw m, F'), out) => ((.throw m, F'), out)
  | ((.ub w, F'), out) => ((.ub w, F'), out)

instance : Monad TFProg where
  pure a := fun F => ((.ok a, F), [])
  bind := bind

/-- A member that prints nothing. Framework of the model: no code of its own in /repo. -/
def quiet {α : Type} (p : FProg α) : TFProg α := fun F => (p F, [])

/-- Use the result of a computation that does not touch the factory. Framework of the model: no code of its own in /repo. -/
def tell {α : Type} (r : Telling α) : TFProg α := fun F => ((r.res, F), r.out)

/-- `DBG (text << std::endl)` in CompositeFactoryInternal.cxx: libs/corda-utils/include/debug.h:18. -/
def dbg (p : Paths) (line : Nat) (text : Str) : TFProg Unit := fun F => ((.ok (), F), [traceLine (p .factory) line text])

/-- `name()` of a serialiser object: property-serialisers/*PropertySerialiserBase.cxx:8 (their `m_name`), CompositeSerialiser.h:57,
RestrictedSerialiser.h:37; that of a user's serialiser, e.g. libs/corda-custom-types/src/java/security/PublicKeySerialiser.cxx:15, is a
parameter. -/
def serName (names : Nat → Str) : SerKind → Str
  | .prim .int => "Integer Serialiser".toList
  | .prim .long => "Long Serialiser".toList
  | .prim .double => "Double Serialiser".toList
  | .prim .boolean => "Boolean Serialiser".toList
  | .prim .string => "String Serialiser".toList
  | .prim .float => "Float Serialiser".toList
  | .prim .binary => "Binary Serialiser".toList
  | .composite => "Composite Serialiser".toList
  | .list => "Restricted Serialiser".toList
  | .array => "Restricted Serialiser".toList
  | .map => "Restricted Serialiser".toList
  | .enum _ => "Restricted Serialiser".toList
  | .custom n => names n

/-- `map_[k_]->name()` of the object `i`; every number in the maps is that of an object. CompositeFactoryInternal.cxx:52, 62. -/
def nameAt (names : Nat → Str) (i : Nat) : TFProg Str := fun F =>
  ((.ok (match F.objs[i]? with | some o => serName names o.kind | none => []), F), [])

/-- `map_[k_]->type()` of the object `i`. CompositeFactoryInternal.cxx:52, 56, 57. -/
def typeOf (i : Nat) : TFProg (Option Str) := fun F => ((.ok (F.objs[i]?.map Ser.type), F), [])

/-- CompositeFactoryInternal.cxx:40-68, `computeIfAbsent` on `m_serialisersByType`, with its assertions. -/
def computeIfAbsent (p : Paths) (names : Nat → Str) (k : Str) (f : TFProg Nat) : TFProg Nat := fun F =>
  match F.byType.lookup k with
  | some (some i) =>
    (do
      dbg p 61 ("ComputeIfAbsent \"".toList ++ k ++ "\" - found it".toList)
      let n ← nameAt names i
      dbg p 62 ("                \"".toList ++ k ++ "\" - RTN: ".toList ++ n)
      pure i : TFProg Nat) F
  | some none =>
    (do
      dbg p 61 ("ComputeIfAbsent \"".toList ++ k ++ "\" - found it".toList)
      quiet (FProg.ub "assert") : TFProg Nat) F
  | none =>
    (do
      dbg p 50 ("ComputeIfAbsent \"".toList ++ k ++ "\" - missing".toList)
      let i ← f
      quiet (FProg.setType k (some i))
      let t ← typeOf i
      let n ← nameAt names i
      dbg p 52 ("                \"".toList ++ k ++ "\" - RTN: ".toList ++ n ++ " : ".toList ++ t.getD [])
      dbg p 56 (k ++ " =?= ".toList ++ t.getD [])
      if t = some k then pure i else quiet (FProg.ub "assert") : TFProg Nat) F

/-- `field->resolvedType()[0]`: the first character of a string, the terminating zero if it is empty. CompositeFactoryInternal.cxx:147. -/
def firstChar : Str → Char
  | [] => Char.ofNat 0
  | c :: _ => c

/-- CompositeFactoryInternal.cxx:146-193: the serialiser for one field of the composite `rtn` named `name_`. -/
def fieldReader (p : Paths) (names : Nat → Str) (name_ : Str) (rtn : Nat) (field : Field) : TFProg (Option Nat) := do
  let t ← quiet (FProg.lift field.resolvedType)
  dbg p 146 ("  Field: ".toList ++ field.name ++ ": \"".toList ++ field.type ++ "\" {".toList ++ [firstChar t] ++ "} ".toList
    ++ field.fieldType)
  match field.AMQPType with
  | .primitive_t => do
    dbg p 154 ("    Field ".toList ++ field.name ++ "[".toList ++ field.type ++ "] is primitive".toList)
    let i ← computeIfAbsent p names t (quiet (FProg.makeProperty field.type))
    pure (some i)
  | .custom_t => quiet (FProg.typeAt t)
  | _ =>
    if t = name_ then do
      dbg p 172 "IT ME!!!!".toList
      pure (some rtn)
    else quiet (FProg.typeAt t)

/-- CompositeFactoryInternal.cxx:145-194, the loop over the fields. -/
def fieldReaders (p : Paths) (names : Nat → Str) (name_ : Str) (rtn : Nat) : List Field → TFProg (List Nat)
  | [] => pure []
  | f :: fs => do
    match ← fieldReader p names name_ rtn f with
    | none => quiet (FProg.throw "Can't find")
    | some i => do
      let is ← fieldReaders p names name_ rtn fs
      pure (i :: is)

/-- CompositeFactoryInternal.cxx:127-198, `processComposite`. -/
def processComposite (p : Paths) (names : Nat → Str) (c : Composite) : TFProg Nat := do
  dbg p 132 ("processComposite - ".toList ++ c.name)
  let rtn ← quiet (FProg.make ⟨.composite, c.name, []⟩)
  let readers ← fieldReaders p names c.name rtn c.fields
  quiet (FProg.install rtn readers)
  pure rtn

/-- CompositeFactoryInternal.cxx:218-247, `fetchReaderForRestricted`. -/
def fetchReader (p : Paths) (names : Nat → Str) (type_ : Str) : TFProg Nat := do
  dbg p 223 ("fetchReaderForRestricted - ".toList ++ type_)
  let prim ← tell (Telling.isPrimitive p type_)
  let r ← if prim then (do
        dbg p 226 "It's primitive".toList
        let i ← computeIfAbsent p names type_ (quiet (FProg.makeProperty type_))
        pure (some i))
      else quiet (FProg.typeAt type_)
  match r with
  | some i => pure i
  | none => quiet (FProg.throw "Missing type in serialisers map")

/-- CompositeFactoryInternal.cxx:202-214 and 251-335, `processRestricted` with `processList`, `processEnum`, `processMap`,
`processArray`; `leftFirst` as in `FProg.processRestricted`. -/
def processRestricted (p : Paths) (names : Nat → Str) (leftFirst : Bool) (r : Restricted) : TFProg Nat := do
  dbg p 309 ("processRestricted - ".toList ++ r.name)
  match r.kind with
  | .list l => do
    dbg p 277 ("Processing List - ".toList ++ l)
    let i ← fetchReader p names l
    quiet (FProg.make ⟨.list, r.name, [i]⟩)
  | .enum cs => do
    dbg p 207 ("Processing Enum - ".toList ++ r.name)
    quiet (FProg.make ⟨.enum cs, r.name, []⟩)
  | .map k v => do
    dbg p 256 ("Processing Map - ".toList ++ k ++ " ".toList ++ v)
    if leftFirst then do
      let i ← fetchReader p names k
      let j ← fetchReader p names v
      quiet (FProg.make ⟨.map, r.name, [i, j]⟩)
    else do
      let j ← fetchReader p names v
      let i ← fetchReader p names k
      quiet (FProg.make ⟨.map, r.name, [i, j]⟩)
  | .array a => do
    dbg p 327 "  array_t".toList
    dbg p 293 ("Processing Array - ".toList ++ r.name ++ " ".toList ++ a)
    let i ← fetchReader p names a
    quiet (FProg.make ⟨.array, r.name, [i]⟩)

/-- CompositeFactoryInternal.cxx:103-123, `process (const AMQPTypeNotation &)`. -/
def processType (p : Paths) (names : Nat → Str) (leftFirst : Bool) (t : TypeNotation) : TFProg Nat := do
  dbg p 108 ("process::".toList ++ t.name)
  computeIfAbsent p names t.name
    (match t with
     | .comp c => processComposite p names c
     | .restr r => processRestricted p names leftFirst r)

/-- CompositeFactoryInternal.cxx:95-96: one type of a schema. -/
def processOne (p : Paths) (names : Nat → Str) (leftFirst : Bool) (t : TypeNotation) : TFProg Unit := do
  let _ ← processType p names leftFirst t
  let s ← quiet (FProg.typeAt t.name)
  quiet (FProg.setDesc t.descriptor s)

/-- CompositeFactoryInternal.cxx:93-98, over the types in iteration order. -/
def processAll (p : Paths) (names : Nat → Str) (leftFirst : Bool) : List TypeNotation → TFProg Unit
  | [] => pure ()
  | t :: ts => do
    processOne p names leftFirst t
    processAll p names leftFirst ts

/-- CompositeFactoryInternal.cxx:88-99, `process (const ISchema &)`. -/
def process (p : Paths) (names : Nat → Str) (leftFirst : Bool) (s : Schema) : TFProg Unit := do
  dbg p 91 "process schema".toList
  processAll p names leftFirst s.types.flatten

end TFProg

/-! Reading the payload. -/

namespace TProg

/-- property-readers/*.cxx, `dump`, as `Prog.propertyText` with `Prog.text`: IntPropertyReader.cxx:30-67 and StringPropertyReader.cxx:29-53
print, the others do not. The `dump` without a name does not print the number. -/
def propertyDump (p : Paths) (name_ : Option Str) : PrimReader → TProg Val
  | .int =>
    match name_ with
    | some n => do
      dbg (p .intReader) 37 ("IntPropertyReader::dump - ".toList ++ n)
      dbg (p .intReader) 39 "FUCK 1".toList
      let t ← quiet (Prog.propertyText .int)
      dbg (p .intReader) 43 ("    -> ".toList ++ t)
      pure (Prog.text name_ t)
    | none => do
      dbg (p .intReader) 63 "IntPropertyReader::dump - no-name".toList
      let t ← quiet (Prog.propertyText .int)
      pure (Prog.text name_ t)
  | .string => do
    match name_ with
    | some n => dbg (p .stringReader) 36 ("StringPropertyReader::dump - ".toList ++ n)
    | none => dbg (p .stringReader) 50 "StringPropertyReader::dump - no-name".toList
    let s ← readText
    pure (Prog.text name_ ('"' :: s ++ ['"']))
  | q => do
    let t ← quiet (Prog.propertyText q)
    pure (Prog.text name_ t)

/-- As `Prog.useReader`: ListReader.cxx:73-76, ArrayReader.cxx:73-76, MapReader.cxx:53-63. -/
def useReader (F : Factory) (rec : Nat → Option Str → TProg Val) (i : Nat) : TProg Val :=
  match F.lock i with
  | none => quiet (Prog.ub "null reader")
  | some _ => rec i none

/-- CompositeReader.cxx:71-83: the loop over the fields. -/
def dumpFields (p : Paths) (F : Factory) (rec : Nat → Option Str → TProg Val) : List (Field × Nat) → TProg (List Val)
  | [] => pure []
  | (f, i) :: rest =>
    match F.lock i with
    | none => quiet (Prog.throw "null field reader")
    | some _ => do
      dbg (p .compositeReader) 73 (f.name ++ " true".toList)
      let v ← rec i (some f.name)
      let vs ← dumpFields p F rec rest
      pure (v :: vs)

/-- `attest_is_list`: proton_wrapper.cxx:286-301. -/
def checkList (p : Paths) : TProg Unit := do
  quiet Prog.attestList
  dbg (p .wrapper) 299 "YEP! it's a list".toList

/-- CompositeReader.cxx:40-86, `_dump`. -/
def compositeDump (p : Paths) (F : Factory) (s : Schema) (rec : Nat → Option Str → TProg Val) (subs : List Nat) :
    TProg (List Val) := do
  dbg (p .compositeReader) 46 "Read Composite: ".toList
  quiet Prog.attestDescribed
  autoEnter (do
    let d ← quiet Prog.getSymbol
    let t ← quiet (Prog.lift (s.fromDescriptor d))
    match t with
    | .restr _ => quiet (Prog.throw "std::bad_cast")
    | .comp c =>
      if c.fields.length = subs.length then do
        let _ ← quiet Prog.next
        checkList p
        autoEnter (dumpFields p F rec (c.fields.zip subs))
      else quiet (Prog.ub "assert"))

/-- restricted-readers/ListReader.cxx:52-83 and ArrayReader.cxx:52-82, `dump_`. -/
def listDump (F : Factory) (s : Schema) (rec : Nat → Option Str → TProg Val) (subs : List Nat) : TProg (List Val) := do
  quiet Prog.attestDescribed
  autoEnter (do
    let d ← readText
    let _ ← quiet (Prog.lift (s.fromDescriptor d))
    listEnter (fun n =>
      match subs with
      | [] => quiet (Prog.ub "serialisers()[0]")
      | i :: _ => times (useReader F rec i) n) true)

/-- As `Prog.mapEntry`: restricted-readers/MapReader.cxx:57-62. -/
def mapEntry (leftFirst : Bool) (key value : TProg Val) : TProg Val :=
  if leftFirst then do
    let k ← key
    let v ← value
    pure (.valuePair k v)
  else do
    let v ← value
    let k ← key
    pure (.valuePair k v)

/-- restricted-readers/MapReader.cxx:22-67, `dump_`. -/
def mapDump (p : Paths) (leftFirst : Bool) (F : Factory) (s : Schema) (rec : Nat → Option Str → TProg Val) (subs : List Nat) :
    TProg (List Val) := do
  quiet Prog.attestDescribed
  autoEnter (do
    let d ← readText
    let _ ← quiet (Prog.lift (s.fromDescriptor d))
    autoMapEnter (fun n => do
      dbg (p .mapReader) 44 ("  ".toList ++ natStr n)
      match subs with
      | [k, v] => times (mapEntry leftFirst (useReader F rec k) (useReader F rec v)) ((n + 1) / 2)
      | _ => quiet (Prog.ub "assert")))

/-- restricted-readers/EnumReader.cxx:12-48, `getValue`. -/
def enumValue : TProg Str := do
  quiet Prog.attestDescribed
  autoEnter (do
    let t ← quiet (Prog.look Cursor.type)
    let id ← quiet (Prog.look Prog.getUlong)
    if t = .ulong ∧ stripCorda id = REFERENCED_OBJECT then quiet (Prog.throw "Currently don't support referenced objects")
    else do
      let _ ← readText
      listEnter (fun _ => readText) true)

/-- As `Prog.dumpWith`: CompositeReader.cxx:90-127, ListReader.cxx:22-48, ArrayReader.cxx:22-48, MapReader.cxx:71-100,
EnumReader.cxx:53-80.  What the serialisers supplied by the user print is not modelled; `PublicKeySerialiser.cxx:57-93` prints nothing. -/
def dumpWith (p : Paths) (cu : Customs) (leftFirst : Bool) (F : Factory) (s : Schema) (rec : Nat → Option Str → TProg Val) (o : Ser)
    (name_ : Option Str) : TProg Val :=
  match o.kind with
  | .prim q => propertyDump p name_ q
  | .enum _ => autoNext (do
      quiet Prog.attestDescribed
      let t ← enumValue
      pure (Prog.text name_ t))
  | .composite => autoNext (do
      let null ← quiet Prog.isNull
      if null then
        pure (match name_ with | some n => .nullPair n | none => .nullSingle)
      else do
        let vs ← compositeDump p F s rec o.subs
        pure (match name_ with | some n => .pairVec n vs | none => .singleVec vs))
  | .list => autoNext (do
      let vs ← listDump F s rec o.subs
      pure (match name_ with | some n => .pairList n vs | none => .singleList vs))
  | .array => autoNext (do
      let vs ← listDump F s rec o.subs
      pure (match name_ with | some n => .pairList n vs | none => .singleList vs))
  | .map => do
    match name_ with
    | some n => dbg (p .mapReader) 78 ("MapReader::dump ".toList ++ n)
    | none => dbg (p .mapReader) 94 "MapReader::dump no-name".toList
    autoNext (do
      let vs ← mapDump p leftFirst F s rec o.subs
      pure (match name_ with | some n => .pairVec n vs | none => .singleVec vs))
  | .custom n => quiet (cu n s name_)

/-- As `Prog.dump`: Serialiser.h:37-50; the classes of serialisers/reader. -/
def dump (p : Paths) (cu : Customs) (leftFirst : Bool) (F : Factory) (s : Schema) : Nat → Nat → Option Str → TProg Val
  | 0, _, _ => quiet (Prog.ub "fuel")
  | fuel + 1, i, name_ =>
    match F.objs[i]? with
    | none => quiet (Prog.ub "no such object")
    | some o => dumpWith p cu leftFirst F s (dump p cu leftFirst F s fuel) o name_

/-- AMQPBlob.cxx:293-313, as `Prog.dumpPayload`. -/
def dumpPayload (p : Paths) (cu : Customs) (leftFirst : Bool) (F : Factory) (s : Schema) (i : Nat) : TProg Str := fun c =>
  (autoEnter (do
    checkList p
    let n ← quiet (Prog.look Cursor.getList)
    if n = 3 then
      autoEnter (do
        let v ← dump p cu leftFirst F s (c.fuel + 1) i (some Prog.parsedName)
        pure (v.dump ++ mapClose))
    else quiet (Prog.ub "assert")) true : TProg Str) c

/-- AMQPBlob.cxx:273-314, as `Prog.dumpContents`. -/
def dumpContents (p : Paths) (names : Nat → Str) (cu : Customs) (leftFirst : Bool) (F : Factory) :
    Cursor → ((Res Str × Cursor) × Factory) × List Str := fun c =>
  match readEnvelope p c with
  | ((.throw m, c'), o1) => (((.throw m, c'), F), o1)
  | ((.ub w, c'), o1) => (((.ub w, c'), F), o1)
  | ((.ok (s, d), c'), o1) =>
    match TFProg.process p names leftFirst s F with
    | ((.throw m, F'), o2) => (((.throw m, c'), F'), o1 ++ o2)
    | ((.ub w, F'), o2) => (((.ub w, c'), F'), o1 ++ o2)
    | ((.ok (), F'), o2) =>
      match F'.findDesc d with
      | none => (((.ub "assert", c'), F'), o1 ++ o2)
      | some i =>
        (((dumpPayload p cu leftFirst F' s i c').1, F'), o1 ++ o2 ++ (dumpPayload p cu leftFirst F' s i c').2)

end TProg

/-- libs/corda-custom-types/src/java/security/PublicKeySerialiser.cxx:13-16 -/
def publicKeyName : Str := "Public Key serialiser".toList

/-- CompositeFactoryInternal.cxx:364, what `installCustomSerialiser` prints of the serialiser for public keys. -/
def installLine (p : Paths) : Str :=
  traceLine (p .factory) 364 ("installCustomSerialiser::".toList ++ publicKeyName ++ "::".toList ++ publicKeyType)

/-- bin/blob-inspector/BlobInspector.cxx:18-25, `BlobInspector::dump`, with what it prints. -/
def inspectTold (p : Paths) (leftFirst : Bool) (c : Cursor) : Res Str × List Str :=
  let r := TProg.dumpContents p (fun _ => publicKeyName) (fun _ _ => Prog.publicKeyDump) leftFirst
    (Factory.empty.installCustom 0 publicKeyType) c
  (r.1.1.1, installLine p :: r.2)

/-- bin/blob-inspector/main.cxx:23-39, as `loadAndDump`, with all of the standard output, piece by piece: the trace comes while
`blobInspector.dump()` (29) runs, the dump after it. -/
def loadAndInspect (p : Paths) (leftFirst : Bool) (sys : System) (path : Str) : Res Ended × List Str :=
  match CordaBytes.load { ignoreHeader := true } (sys.file path) with
  | .ok cb =>
    if cb.encoding = 0 then
      match AMQPBlob.make sys cb with
      | .ok c =>
        match inspectTold p leftFirst c with
        | (.ok s, out) => (.ok (.exit exitSuccess (s ++ nl)), out ++ [s ++ nl])
        | (.throw m, out) => (.throw m, out)
        | (.ub w, out) => (.ub w, out)
      | .throw m => (.throw m, [])
      | .ub w => (.ub w, [])
    else (.ok (.exit exitFailure []), [])
  | .throw m => (.throw m, [])
  | .ub w => (.ub w, [])

/-- bin/blob-inspector/main.cxx:11-40: how the blob inspector ends, and what it printed on standard output. -/
def blobInspectorOutput (p : Paths) (leftFirst : Bool) (sys : System) (args : List Str) : Ended × List Str :=
  match args with
  | [path] =>
    match sys.file path with
    | none => (.exit exitFailure [], [])
    | some _ => (uncaught (loadAndInspect p leftFirst sys path).1, (loadAndInspect p leftFirst sys path).2)
  | _ => (.exit exitFailure [], [])

end Corda
