import Verif.Model.SchemaTypes

/-
Model of libs/amqp/src/assembler/CompositeFactoryInternal.cxx: building serialiser (reader) objects for the types of
a schema.
-/

namespace Corda

/-- Which serialiser class an object has: the property serialisers made by `makePropertyReader`, the `CompositeSerialiser`,
`ListSerialiser`, `ArraySerialiser`, `MapSerialiser`, `EnumSerialiser` made by the factory, and serialisers supplied by the user (told apart
by a number). SerialiserFactoryInternal.h:32-70; CompositeFactoryInternal.cxx:137, 209, 262, 279, 295; 359-366 (installed by the user). -/
inductive SerKind where
  | prim (p : PrimReader)
  | composite
  | list
  | array
  | map
  | enum (choices : List Str)
  | custom (n : Nat)
  deriving DecidableEq, Repr

/-- An `ISerialiser`: `type()` and `serialisers()`. The latter are `weak_ptr`s; here the identities of the objects they point to.
ISerialiser.h:19-33. -/
structure Ser where
  kind : SerKind
  type : Str
  subs : List Nat
  deriving DecidableEq, Repr

/-- A factory (CompositeFactoryInternal.h:30-32): all serialiser objects ever made, an object's position being its
identity, and the two `std::map`s from string to `shared_ptr` (`none` is a null pointer; the first entry for a key
counts). -/
structure Factory where
  objs : List Ser
  byType : List (Str × Option Nat)
  byDesc : List (Str × Option Nat)
  deriving DecidableEq, Repr

namespace Factory

/-- A new factory. CompositeFactoryInternal.h:31-35. -/
def empty : Factory := ⟨[], [], []⟩

/-- `map_[k_] = v`. Not in /repo (standard library); CompositeFactoryInternal.cxx:51, 96. -/
def assign (m : List (Str × Option Nat)) (k : Str) (v : Option Nat) : List (Str × Option Nat) :=
  match m with
  | [] => [(k, v)]
  | (k', v') :: m => if k = k' then (k, v) :: m else (k', v') :: assign m k v

/-- `std::map::operator[]` used for reading: an absent key is inserted with a null pointer. Not in /repo (standard library);
CompositeFactoryInternal.cxx:96 and the lookups in 165, 178. -/
def subscript (m : List (Str × Option Nat)) (k : Str) : Option Nat × List (Str × Option Nat) :=
  match m.lookup k with
  | some v => (v, m)
  | none => (none, assign m k none)

/-- `weak_ptr::lock()`: the object lives as long as a map entry owns it. Not in /repo (standard library); CompositeReader.cxx:72,
ListReader.cxx:73, MapReader.cxx:53-54. -/
def alive (F : Factory) (i : Nat) : Bool :=
  F.byType.any (fun e => e.2 == some i) || F.byDesc.any (fun e => e.2 == some i)

/-- `weak_ptr::lock()`. Not in /repo (standard library); CompositeReader.cxx:72, ListReader.cxx:73, ArrayReader.cxx:73, MapReader.cxx:53-54.
-/
def lock (F : Factory) (i : Nat) : Option Ser := if F.alive i then F.objs[i]? else none

end Factory

/-- A member function of the factory: it may change the maps, also when it throws. The members of CompositeFactoryInternal.h:37-70. -/
abbrev FProg (α : Type) : Type := Factory → Res α × Factory

namespace FProg

/-- Sequencing. Framework of the model, for all of /repo: the statements of CompositeFactoryInternal.cxx. -/
def bind {α β : Type} (p : FProg α) (f : α → FProg β) : FProg β := fun F =>
  match p F with
  | (.ok a, F') => f a F'
  | (.throw m, F') => (.throw m, F')
  | (.ub w, F') => (.ub w, F')

instance : Monad FProg where
  pure a := fun F => (.ok a, F)
  bind := bind

/-- `throw` in CompositeFactoryInternal.cxx. -/
def throw {α : Type} (m : String) : FProg α := fun F => (.throw m, F)
/-- Undefined behaviour and failing assertions in CompositeFactoryInternal.cxx (54-57, 64, 193). -/
def ub {α : Type} (w : String) : FProg α := fun F => (.ub w, F)

/-- Use the result of a computation that does not touch the factory. Framework of the model, for all of /repo: e.g. `resolvedType()` in
CompositeFactoryInternal.cxx:145-194. -/
def lift {α : Type} (r : Res α) : FProg α := fun F => (r, F)

/-- `std::make_shared<...>`. Not in /repo (standard library); CompositeFactoryInternal.cxx:137, 209, 262, 279, 295,
SerialiserFactoryInternal.h:37-67. -/
def make (s : Ser) : FProg Nat := fun F => (.ok F.objs.length, { F with objs := F.objs ++ [s] })

/-- CompositeSerialiser.h:32-37, `install`. -/
def install (i : Nat) (subs : List Nat) : FProg Unit := fun F =>
  (.ok (), { F with objs := F.objs.modify i (fun s => { s with subs := subs }) })

/-- `m_serialisersByType[k]` used for reading. CompositeFactoryInternal.cxx:96 and 165, 178. -/
def typeAt (k : Str) : FProg (Option Nat) := fun F =>
  (.ok (Factory.subscript F.byType k).1, { F with byType := (Factory.subscript F.byType k).2 })

/-- `m_serialisersByType[k] = v`. CompositeFactoryInternal.cxx:51. -/
def setType (k : Str) (v : Option Nat) : FProg Unit := fun F =>
  (.ok (), { F with byType := Factory.assign F.byType k v })

/-- `m_serialisersByDescriptor[k] = v`. CompositeFactoryInternal.cxx:96. -/
def setDesc (k : Str) (v : Option Nat) : FProg Unit := fun F =>
  (.ok (), { F with byDesc := Factory.assign F.byDesc k v })

/-- CompositeFactoryInternal.cxx:40-68, `computeIfAbsent` on `m_serialisersByType`, with its assertions.  The function
is evaluated before the key is inserted (C++17). -/
def computeIfAbsent (k : Str) (f : FProg Nat) : FProg Nat := fun F =>
  match F.byType.lookup k with
  | some (some i) => (.ok i, F)
  | some none => (.ub "assert", F)
  | none =>
    (do
      let i ← f
      setType k (some i)
      let t : Option Str ← fun F => (.ok (F.objs[i]?.map Ser.type), F)
      if t = some k then pure i else ub "assert" : FProg Nat) F

/-- The `m_type` of a property serialiser: property-serialisers/*PropertySerialiserBase.cxx:16. -/
def _root_.Corda.PrimReader.typeName : PrimReader → Str
  | .int => "int".toList
  | .long => "long".toList
  | .double => "double".toList
  | .boolean => "boolean".toList
  | .string => "string".toList
  | .float => "float".toList
  | .binary => "binary".toList

/-- SerialiserFactoryInternal.h:34-74, `makePropertyReader`, making the object. -/
def makeProperty (type_ : Str) : FProg Nat := do
  let p ← lift (makePropertyReader type_)
  make ⟨.prim p, p.typeName, []⟩

/-- CompositeFactoryInternal.cxx:146-193: the serialiser for one field of the composite `rtn` named `name_`. -/
def fieldReader (name_ : Str) (rtn : Nat) (field : Field) : FProg (Option Nat) := do
  match field.AMQPType with
  | .primitive_t => do
    let t ← lift field.resolvedType
    let i ← computeIfAbsent t (makeProperty field.type)
    pure (some i)
  | .custom_t => do
    let t ← lift field.resolvedType
    typeAt t
  | _ => do
    let t ← lift field.resolvedType
    if t = name_ then pure (some rtn) else typeAt t

/-- CompositeFactoryInternal.cxx:145-194, the loop over the fields. -/
def fieldReaders (name_ : Str) (rtn : Nat) : List Field → FProg (List Nat)
  | [] => pure []
  | f :: fs => do
    match ← fieldReader name_ rtn f with
    | none => throw "Can't find"
    | some i => do
      let is ← fieldReaders name_ rtn fs
      pure (i :: is)

/-- CompositeFactoryInternal.cxx:127-198, `processComposite`. -/
def processComposite (c : Composite) : FProg Nat := do
  let rtn ← make ⟨.composite, c.name, []⟩
  let readers ← fieldReaders c.name rtn c.fields
  install rtn readers
  pure rtn

/-- CompositeFactoryInternal.cxx:218-247, `fetchReaderForRestricted`. -/
def fetchReader (type_ : Str) : FProg Nat := do
  let r ← if typeIsPrimitive type_ then (do
        let i ← computeIfAbsent type_ (makeProperty type_)
        pure (some i))
      else typeAt type_
  match r with
  | some i => pure i
  | none => throw "Missing type in serialisers map"

/-- CompositeFactoryInternal.cxx:202-214 and 251-335, `processRestricted` with `processList`, `processEnum`,
`processMap`, `processArray`.  `leftFirst` is the order in which the compiler evaluates the two calls that are
arguments of one call (lines 266-267), which C++ leaves open. -/
def processRestricted (leftFirst : Bool) (r : Restricted) : FProg Nat :=
  match r.kind with
  | .list l => do
    let i ← fetchReader l
    make ⟨.list, r.name, [i]⟩
  | .enum cs => make ⟨.enum cs, r.name, []⟩
  | .map k v =>
    if leftFirst then do
      let i ← fetchReader k
      let j ← fetchReader v
      make ⟨.map, r.name, [i, j]⟩
    else do
      let j ← fetchReader v
      let i ← fetchReader k
      make ⟨.map, r.name, [i, j]⟩
  | .array a => do
    let i ← fetchReader a
    make ⟨.array, r.name, [i]⟩

/-- CompositeFactoryInternal.cxx:103-123, `process (const AMQPTypeNotation &)`. -/
def processType (leftFirst : Bool) (t : TypeNotation) : FProg Nat :=
  computeIfAbsent t.name
    (match t with
     | .comp c => processComposite c
     | .restr r => processRestricted leftFirst r)

/-- CompositeFactoryInternal.cxx:95-96: one type of a schema. -/
def processOne (leftFirst : Bool) (t : TypeNotation) : FProg Unit := do
  let _ ← processType leftFirst t
  let s ← typeAt t.name
  setDesc t.descriptor s

/-- CompositeFactoryInternal.cxx:93-98, over the types in iteration order. -/
def processAll (leftFirst : Bool) : List TypeNotation → FProg Unit
  | [] => pure ()
  | t :: ts => do
    processOne leftFirst t
    processAll leftFirst ts

/-- CompositeFactoryInternal.cxx:88-99, `process (const ISchema &)`. -/
def process (leftFirst : Bool) (s : Schema) : FProg Unit := processAll leftFirst s.types.flatten

end FProg

namespace Factory

/-- CompositeFactoryInternal.cxx:339-345, `byType`. -/
def findType (F : Factory) (type_ : Str) : Option Nat := (F.byType.lookup type_).join

/-- CompositeFactoryInternal.cxx:349-355, `byDescriptor`. -/
def findDesc (F : Factory) (descriptor_ : Str) : Option Nat := (F.byDesc.lookup descriptor_).join

/-- CompositeFactoryInternal.cxx:359-366, `installCustomSerialiser`, of serialiser `n` whose `type()` is `type_`. -/
def installCustom (F : Factory) (n : Nat) (type_ : Str) : Factory :=
  { F with objs := F.objs ++ [⟨.custom n, type_, []⟩],
           byType := assign F.byType type_ (some F.objs.length) }

end Factory

end Corda
