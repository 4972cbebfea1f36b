import Verif.Model.SchemaUtils
import Verif.Model.Ordering

/-
Model of the schema objects: fields (libs/amqp/src/schema/described-types/field-types), composites
(described-types/Composite.cxx), restricted types (restricted-types), the dependency answers they give, and the
schema's lookup tables (described-types/Schema.cxx).
-/

namespace Corda

/-- Which class of field-types/ a field object is an instance of. PrimitiveField.h:9, ArrayField.h:9, RestrictedField.h:9, CustomField.h:9,
CompositeField.h:9. -/
inductive FieldKind where
  | primitive | array | restricted | custom | composite
  deriving DecidableEq, Repr

/-- A `Field` object: Field.h:41-49, and `m_subTypes` of `RestrictedField`. -/
structure Field where
  kind : FieldKind
  name : Str
  type : Str
  requires : List Str
  default : Str
  label : Str
  mandatory : Bool
  multiple : Bool
  subTypes : List Str
  deriving DecidableEq, Repr

/-- Field.h:38, what `AMQPType()` can return. -/
inductive AMQPFieldType where
  | composite_t | restricted_t | primitive_t | custom_t
  deriving DecidableEq, Repr

/-- `AMQPType()`: PrimitiveField.cxx:33-37, CompositeField.cxx:39-43, CustomField.cxx:34-38,
RestrictedField.cxx:41-45 (`ArrayField` inherits the last). -/
def Field.AMQPType (f : Field) : AMQPFieldType :=
  match f.kind with
  | .primitive => .primitive_t
  | .composite => .composite_t
  | .custom => .custom_t
  | .restricted => .restricted_t
  | .array => .restricted_t

/-- `fieldType()`: the `m_fieldType` strings of the five classes. PrimitiveField.cxx:6, CompositeField.cxx:10, CustomField.cxx:6,
RestrictedField.cxx:8, ArrayField.cxx:11. -/
def Field.fieldType (f : Field) : Str :=
  match f.kind with
  | .primitive => "primitive".toList
  | .composite => "composite".toList
  | .custom => "custom".toList
  | .restricted => "restricted".toList
  | .array => "array".toList

/-- `std::list::front()`: undefined on an empty list. Not in /repo (standard library); called in RestrictedField.cxx:60, CustomField.cxx:53,
Field.cxx:81. -/
def front (l : List Str) : Res Str :=
  match l with
  | [] => .ub "front of an empty list"
  | s :: _ => .ok s

/-- `resolvedType()`: PrimitiveField.cxx:49-53, CompositeField.cxx:55-59, ArrayField.cxx:40-44 return the type;
RestrictedField.cxx:57-61 and CustomField.cxx:50-54 return `requires().front()`. -/
def Field.resolvedType (f : Field) : Res Str :=
  match f.kind with
  | .primitive => .ok f.type
  | .composite => .ok f.type
  | .array => .ok f.type
  | .restricted => front f.requires
  | .custom => front f.requires

/-- Field.cxx:138-150, `typeIsPrimitive`. -/
def typeIsPrimitive (type_ : Str) : Bool :=
  type_ == "string".toList || type_ == "long".toList || type_ == "boolean".toList || type_ == "bool".toList
    || type_ == "float".toList || type_ == "int".toList || type_ == "double".toList || type_ == "binary".toList

/-- RestrictedField.cxx:34-36: the sub-types of all requirements, one after the other. -/
def allNested : List Str → Res (List Str)
  | [] => .ok []
  | r :: rs => do
    let a ← nestedGenericTypes r
    let b ← allNested rs
    pure (a ++ b)

/-- Field.cxx:36-108, `Field::make`, with the constructors of the five classes.  `PrimitiveField` discards the
requirements (PrimitiveField.cxx:23); `ArrayField` is constructed through `RestrictedField`. -/
def Field.make (name_ type_ : Str) (requires_ : List Str) (default_ label_ : Str)
    (mandatory_ multiple_ : Bool) : Res Field :=
  if typeIsPrimitive type_ then
    pure ⟨.primitive, name_, type_, [], default_, label_, mandatory_, multiple_, []⟩
  else do
    let arr ← isArray type_
    if arr then do
      let sub ← allNested requires_
      pure ⟨.array, name_, type_, requires_, default_, label_, mandatory_, multiple_, sub⟩
    else if type_ = "*".toList then
      match requires_ with
      | [] => pure ⟨.custom, name_, type_, requires_, default_, label_, mandatory_, multiple_, []⟩
      | r :: _ => do
        let c ← isContainer r
        if c then do
          let sub ← allNested requires_
          pure ⟨.restricted, name_, type_, requires_, default_, label_, mandatory_, multiple_, sub⟩
        else .throw "THIS IS BAD"
    else do
      let _ ← listType type_
      pure ⟨.composite, name_, type_, requires_, default_, label_, mandatory_, multiple_, []⟩

/-- `Composite` (Composite.h, Composite.cxx:37-50) with the name and descriptor of `AMQPTypeNotation`. -/
structure Composite where
  name : Str
  label : Str
  provides : List Str
  descriptor : Str
  fields : List Field
  deriving DecidableEq, Repr

/-- What distinguishes the four restricted classes: `m_listOf` (List.cxx:38), `m_mapOf` (Map.cxx:29-30),
`m_arrayOf` (Array.cxx:63), `m_choices` (Enum.cxx:27). -/
inductive RKind where
  | list (listOf : Str)
  | map (of_ to_ : Str)
  | array (arrayOf : Str)
  | enum (choices : List Str)
  deriving DecidableEq, Repr

/-- `Restricted` and its four subclasses. Restricted.h:40-110, List.h:9, Map.h:9, Array.h:9, Enum.h:9. -/
structure Restricted where
  name : Str
  label : Str
  provides : List Str
  descriptor : Str
  kind : RKind
  deriving DecidableEq, Repr

/-- An `AMQPTypeNotation`. AMQPTypeNotation.h:32-60. -/
inductive TypeNotation where
  | comp (c : Composite)
  | restr (r : Restricted)
  deriving DecidableEq, Repr

/-- AMQPTypeNotation.cxx: `name()`. -/
def TypeNotation.name : TypeNotation → Str
  | .comp c => c.name
  | .restr r => r.name

/-- AMQPTypeNotation.cxx: `descriptor()`. -/
def TypeNotation.descriptor : TypeNotation → Str
  | .comp c => c.descriptor
  | .restr r => r.descriptor

/-- Restricted.cxx:92-151, `Restricted::make`, and the constructors List.cxx:25-41, Map.cxx:14-31,
Array.cxx:50-67, Enum.cxx:11-29. -/
def Restricted.make (descriptor_ name_ label_ : Str) (provides_ : List Str) (source_ : Str)
    (choices_ : List Str) : Res Restricted :=
  if source_ = "list".toList then
    if choices_ = [] then do
      let arr ← isArray name_
      if arr then pure ⟨name_, label_, provides_, descriptor_, .array (unbox (arrayType name_))⟩
      else do
        let v ← listType name_
        pure ⟨name_, label_, provides_, descriptor_, .list v.2⟩
    else pure ⟨name_, label_, provides_, descriptor_, .enum choices_⟩
  else if source_ = "map".toList then do
    let v ← mapType name_
    pure ⟨name_, label_, provides_, descriptor_, .map v.2.1 v.2.2⟩
  else .throw "Unknown restricted type"

/-- `begin()`..`end()` of the four restricted classes.  `Enum` stores `name_` after it was moved from
(Enum.cxx:20-26); that string is empty with the common standard libraries and is modelled as such. -/
def Restricted.elems (r : Restricted) : List Str :=
  match r.kind with
  | .list l => [l]
  | .map a b => [a, b]
  | .array a => [a]
  | .enum _ => [[]]

/-- `for (field : fields) if (field->resolvedType() == n) return true`. Restricted.cxx and Composite.cxx, `dependsOn`. -/
def anyResolved (n : Str) : List Field → Res Bool
  | [] => .ok false
  | f :: fs => do
    let t ← f.resolvedType
    if t = n then pure true else anyResolved n fs

/-- Composite.cxx:129-152: does a field, looking into nested generics, name `n`. -/
def anyDeep (n : Str) : List Field → Res Bool
  | [] => .ok false
  | f :: fs =>
    if f.AMQPType = .restricted_t then
      if f.subTypes.contains n then .ok true else anyDeep n fs
    else do
      let t ← f.resolvedType
      if t = n then pure true else anyDeep n fs

/-- Composite.cxx:121-164, `Composite::dependsOnRHS (const Composite & lhs_)`. -/
def Composite.rhsComposite (self lhs : Composite) : Res Int := do
  let a ← anyDeep lhs.name self.fields
  if a then pure 1 else do
    let b ← anyResolved self.name lhs.fields
    pure (if b then 2 else 0)

/-- Composite.cxx:94-117, `Composite::dependsOnRHS (const Restricted & lhs_)`. -/
def Composite.rhsRestricted (self : Composite) (lhs : Restricted) : Res Int := do
  let a ← anyResolved lhs.name self.fields
  if a then pure 1 else pure (if lhs.elems.contains self.name then 2 else 0)

/-- List.cxx:130-144, Map.cxx:130-146, Array.cxx:155-169, Enum.cxx:95-110:
`dependsOnRHS (const Composite & lhs_)`. -/
def Restricted.rhsComposite (self : Restricted) (lhs : Composite) : Res Int :=
  let first : Bool :=
    match self.kind with
    | .list l => l == lhs.name
    | .map a b => a == lhs.name || b == lhs.name
    | .array a => a == lhs.name
    | .enum _ => self.name == lhs.name
  if first then pure 1 else do
    let b ← anyResolved self.name lhs.fields
    pure (if b then 2 else 0)

/-- Restricted.cxx:198-216 dispatching on the left-hand side, and the `dependsOnMap`, `dependsOnList`,
`dependsOnEnum`, `dependsOnArray` of List.cxx:69-126, Map.cxx:61-126, Array.cxx:95-151, Enum.cxx:49-91. -/
def Restricted.rhsRestricted (self lhs : Restricted) : Int :=
  match self.kind, lhs.kind with
  | .list l, .map a b => if l = lhs.name then 1 else if a = self.name ∨ b = self.name then 2 else 0
  | .list l, .list l' => if l = lhs.name then 1 else if l' = self.name then 2 else 0
  | .list _, .array _ => 0
  | .list l, .enum _ => if l = lhs.name then 1 else 0
  | .map k v, .map a b =>
    if k = lhs.name ∨ v = lhs.name then 1 else if a = self.name ∨ b = self.name then 2 else 0
  | .map k v, .list l' => if k = lhs.name ∨ v = lhs.name then 1 else if l' = self.name then 2 else 0
  | .map _ _, .array _ => 0
  | .map k v, .enum _ => if k = lhs.name ∨ v = lhs.name then 1 else if lhs.name = self.name then 2 else 0
  | .array e, .map a b => if e = lhs.name then 1 else if a = self.name ∨ b = self.name then 2 else 0
  | .array e, .list l' => if e = lhs.name then 1 else if l' = self.name then 2 else 0
  | .array _, .array _ => 0
  | .array e, .enum _ => if e = lhs.name then 1 else 0
  | .enum _, .map a b => if a = self.name ∨ b = self.name then 1 else 0
  | .enum _, .list l' => if l' = self.name then 2 else 0
  | .enum _, .array _ => 0
  | .enum _, .enum _ => 0

/-- `a.dependsOn (b)`: Composite.cxx:86-90 and Restricted.cxx:189-194 (double dispatch to
`b.dependsOnRHS (a)`). -/
def TypeNotation.dependsOn (a b : TypeNotation) : Res Int :=
  match a, b with
  | .comp x, .comp y => y.rhsComposite x
  | .comp x, .restr y => y.rhsComposite x
  | .restr x, .comp y => y.rhsRestricted x
  | .restr x, .restr y => .ok (y.rhsRestricted x)

/-- `Schema` (Schema.h:32-52): the levels and the two lookup tables.  The tables are `std::map`s from string to a
reference; here association lists in which the first entry for a key counts. -/
structure Schema where
  types : List (List TypeNotation)
  descriptorToType : List (Str × TypeNotation)
  typeToDescriptor : List (Str × TypeNotation)
  deriving DecidableEq, Repr

/-- `std::map::emplace`: does nothing if the key is present. Not in /repo (standard library); called in Schema.cxx:48-49. -/
def emplace (m : List (Str × TypeNotation)) (k : Str) (v : TypeNotation) : List (Str × TypeNotation) :=
  if (m.lookup k).isSome then m else m ++ [(k, v)]

/-- Schema.cxx:41-52, the constructor. -/
def Schema.make (types_ : List (List TypeNotation)) : Schema :=
  types_.foldl (fun s level => level.foldl (fun s j =>
    { s with descriptorToType := emplace s.descriptorToType j.descriptor j,
             typeToDescriptor := emplace s.typeToDescriptor j.name j }) s)
    { types := types_, descriptorToType := [], typeToDescriptor := [] }

/-- Schema.cxx:64-74, `fromType`. -/
def Schema.fromType (s : Schema) (type_ : Str) : Res TypeNotation :=
  match s.typeToDescriptor.lookup type_ with
  | none => .throw "ARSE"
  | some t => .ok t

/-- Schema.cxx:78-88, `fromDescriptor`. -/
def Schema.fromDescriptor (s : Schema) (descriptor_ : Str) : Res TypeNotation :=
  match s.descriptorToType.lookup descriptor_ with
  | none => .throw "ARSE"
  | some t => .ok t

end Corda
