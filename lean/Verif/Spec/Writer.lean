import Verif.Model.Writer
import Verif.Spec.Descriptors

/-
What serialising an object should produce, written down independently of how it is done.
-/

namespace Corda.Spec
open Corda

/-- The AMQP value of a primitive. -/
def primNode (v : Prim) : Node :=
  match v with
  | .int n => .mk (.int n) []
  | .string s => .mk (.string s) []
  | .bool b => .mk (.bool b) []
  | .float n => .mk (.float n) []
  | .double n => .mk (.double n) []
  | .long n => .mk (.long n) []
  | .char n => .mk (.char (n % 2 ^ 32).toNat) []

/-- A described value: the fingerprint and the contents. -/
def describedNode (fp : Str) (v : Atom) (parts : List Node) : Node :=
  .mk .described [.mk (.symbol fp) [], .mk v parts]

mutual

/-- The payload of an object: its fingerprint, and the list of its properties, of its elements, or the map of its
alternating keys and values. -/
def objTree : Obj → Node
  | .comp _ f ms => describedNode f .list (memberTrees ms)
  | .list _ f es => describedNode f .list (elemTrees es)
  | .map _ f es => describedNode f .map (entryTrees es)

def memberTree : Member → Node
  | .prim _ _ v => primNode v
  | .nullPrim _ _ => .mk .null []
  | .obj _ _ _ o => objTree o
  | .nullObj _ _ => .mk .null []

def elemTree : Elem → Node
  | .prim v => primNode v
  | .nullPrim _ => .mk .null []
  | .obj o => objTree o

def memberTrees : List Member → List Node
  | [] => []
  | m :: ms => memberTree m :: memberTrees ms

def elemTrees : List Elem → List Node
  | [] => []
  | e :: es => elemTree e :: elemTrees es

def entryTrees : List Entry → List Node
  | [] => []
  | .mk k v :: es => elemTree k :: elemTree v :: entryTrees es

end

mutual

/-- No property is a pointer to a character, unless the character is NUL, and nothing in a list or map is a null
pointer to a character. -/
def NoCharPointers : Obj → Prop
  | .comp _ _ ms => NoCharPointersMembers ms
  | .list _ _ es => NoCharPointersElems es
  | .map _ _ es => NoCharPointersEntries es

def NoCharPointersMember : Member → Prop
  | .prim _ ptr v => ptr = true → v.type = .char → v = .char 0
  | .nullPrim _ t => t ≠ .char
  | .obj _ _ _ o => NoCharPointers o
  | .nullObj _ _ => True

def NoCharPointersElem : Elem → Prop
  | .prim _ => True
  | .nullPrim t => t ≠ .char
  | .obj o => NoCharPointers o

def NoCharPointersMembers : List Member → Prop
  | [] => True
  | m :: ms => NoCharPointersMember m ∧ NoCharPointersMembers ms

def NoCharPointersElems : List Elem → Prop
  | [] => True
  | e :: es => NoCharPointersElem e ∧ NoCharPointersElems es

def NoCharPointersEntries : List Entry → Prop
  | [] => True
  | .mk k v :: es => NoCharPointersElem k ∧ NoCharPointersElem v ∧ NoCharPointersEntries es

end

/-- A (name, fingerprint) pair with what kind of class it is: none for a composite, the source for a container. -/
abbrev ClassUse := (Str × Str) × Option Str

mutual

/-- Every object in the graph, outermost first, as the class it is of. -/
def classes : Obj → List ClassUse
  | .comp n f ms => ((n, f), none) :: classesMembers ms
  | .list n f es => ((n, f), some "list".toList) :: classesElems es
  | .map n f es => ((n, f), some "map".toList) :: classesEntries es

def classesMember : Member → List ClassUse
  | .obj _ _ _ o => classes o
  | _ => []

def classesElem : Elem → List ClassUse
  | .obj o => classes o
  | _ => []

def classesMembers : List Member → List ClassUse
  | [] => []
  | m :: ms => classesMember m ++ classesMembers ms

def classesElems : List Elem → List ClassUse
  | [] => []
  | e :: es => classesElem e ++ classesElems es

def classesEntries : List Entry → List ClassUse
  | [] => []
  | .mk k v :: es => classesElem k ++ classesElem v ++ classesEntries es

end

/-- A property as it should be described: name, type, requirements, mandatory. -/
structure PropDesc where
  name : Str
  type : Str
  requires : List Str
  mandatory : Bool
  deriving DecidableEq, Repr

def PropDesc.tree (d : PropDesc) : Node := fieldTree d.name d.type d.requires [] [] d.mandatory false

/-- Corda's name for the type of a primitive value: Java's keyword, and `string`. -/
def primWord : Prim → String
  | .int _ => "int"
  | .string _ => "string"
  | .bool _ => "boolean"
  | .float _ => "float"
  | .double _ => "double"
  | .long _ => "long"
  | .char _ => "char"

/-- Alphabetical order: the first is a proper beginning of the second, or the first place where they differ decides. -/
def Before (a b : Str) : Prop :=
  (∃ x r, b = a ++ x :: r) ∨ ∃ p x y r s, a = p ++ x :: r ∧ b = p ++ y :: s ∧ x.toNat < y.toNat

/-- How one property is described. -/
def memberDesc : Member → PropDesc
  | .prim n ptr v => ⟨n, v.type.typeName, [], ptr⟩
  | .nullPrim n t => ⟨n, t.typeName, [], true⟩
  | .obj n t ptr o => if !ptr && o.isContainer then ⟨n, "*".toList, [t], false⟩ else ⟨n, t, [], false⟩
  | .nullObj n t => ⟨n, t, [], false⟩

mutual

/-- Every property written, with the class of the object it belongs to, in the order of writing. -/
def props : Obj → List ((Str × Str) × PropDesc)
  | .comp n f ms => propsMembers (n, f) ms
  | .list _ _ es => propsElems es
  | .map _ _ es => propsEntries es

def propsMember (key : Str × Str) : Member → List ((Str × Str) × PropDesc)
  | .obj n t ptr o => (key, memberDesc (.obj n t ptr o)) :: props o
  | m => [(key, memberDesc m)]

def propsElem : Elem → List ((Str × Str) × PropDesc)
  | .obj o => props o
  | _ => []

def propsMembers (key : Str × Str) : List Member → List ((Str × Str) × PropDesc)
  | [] => []
  | m :: ms => propsMember key m ++ propsMembers key ms

def propsElems : List Elem → List ((Str × Str) × PropDesc)
  | [] => []
  | e :: es => propsElem e ++ propsElems es

def propsEntries : List Entry → List ((Str × Str) × PropDesc)
  | [] => []
  | .mk k v :: es => propsElem k ++ propsElem v ++ propsEntries es

end

/-- No (name, fingerprint) pair is used both for a composite and for a container, or for a list and a map. -/
def NoClash (o : Obj) : Prop := ∀ a ∈ classes o, ∀ b ∈ classes o, a.1 = b.1 → a.2 = b.2

/-- A description of a class in the schema: the name and fingerprint, and the properties or the source. -/
structure ClassDesc where
  key : Str × Str
  body : List PropDesc ⊕ Str
  deriving DecidableEq, Repr

def ClassDesc.tree (d : ClassDesc) : Node :=
  match d.body with
  | .inl ps => compositeTree d.key.1 [] [] d.key.2 (ps.map PropDesc.tree)
  | .inr source => restrictedTree d.key.1 [] [] source d.key.2 []

/-- The first property of that name written for an object of that class. -/
def firstProp (ps : List ((Str × Str) × PropDesc)) (key : Str × Str) (name : Str) : Option PropDesc :=
  ps.findSome? fun e => if e.1 = key ∧ e.2.name = name then some e.2 else none

/-- The descriptions are of exactly the classes of the objects in the graph, each once; a composite class lists, once
and in alphabetical order, exactly the properties written for objects of it, as they were first written. -/
structure Describes (o : Obj) (ds : List ClassDesc) : Prop where
  sorted : ds.Pairwise fun a b => keyLt a.key b.key = true
  once : (ds.map ClassDesc.key).Nodup
  exact : ∀ k, k ∈ ds.map ClassDesc.key ↔ k ∈ (classes o).map Prod.fst
  container : ∀ d ∈ ds, ∀ src, d.body = .inr src ↔ (classes o).lookup d.key = some (some src)
  propsSorted : ∀ d ∈ ds, ∀ ps, d.body = .inl ps → ps.Pairwise fun a b => strLt a.name b.name = true
  propsOnce : ∀ d ∈ ds, ∀ ps, d.body = .inl ps → (ps.map PropDesc.name).Nodup
  propsExact : ∀ d ∈ ds, ∀ ps, d.body = .inl ps → ∀ p, p ∈ ps ↔ firstProp (props o) d.key p.name = some p

end Corda.Spec
