import Verif.Model.WriteTrace
import Verif.Spec.Writer
import Verif.Spec.InspectSaid

/-
What the library prints while an object is serialised: a script that goes through the object, from which what is said about properties that
were described before is left out.
-/

namespace Corda.Spec
open Corda

/-- One thing that is printed: always, or the first time a property of a class is met. -/
inductive Uttered where
  | always (text : Str)
  | first (key : Str × Str) (property : Str) (text : Str)
  deriving DecidableEq, Repr

/-- The properties met. -/
def met : List Uttered → List ((Str × Str) × Str)
  | [] => []
  | .always _ :: r => met r
  | .first k n _ :: r => (k, n) :: met r

/-- What is left of a script if these properties have been met already. -/
def spoken (seen : List ((Str × Str) × Str)) : List Uttered → List Str
  | [] => []
  | .always t :: r => t :: spoken seen r
  | .first k n t :: r => if (k, n) ∈ seen then spoken seen r else t :: spoken ((k, n) :: seen) r

/-- How a value is printed. -/
def valueText (w : Compiled) : Prim → Str
  | .int n => decimal n
  | .long n => decimal n
  | .string s => s
  | .bool true => "1".toList
  | .bool false => "0".toList
  | .float n => w.float n
  | .double n => w.double n
  | .char n => [Char.ofNat (n % 256).toNat]

/-- A property with its value, as it is printed. -/
def propertyLine (w : Compiled) (name value : Str) : Str :=
  remark (w.file .blobHeader) "207".toList ("writePrimitive::".toList ++ name ++ "::".toList ++ value)

/-- An element with its value, as it is printed. -/
def elementLine (w : Compiled) (value : Str) : Str :=
  remark (w.file .blobHeader) "241".toList ("writePrimitiveSingle::".toList ++ value)

/-- The first time a property is met. -/
def meeting (w : Compiled) (key : Str × Str) (name : Str) : Uttered :=
  .first key name (remark (w.file .field) "284".toList ("makeProton - ".toList ++ name))

/-- A value is about to be written. -/
def writing (w : Compiled) (file : WSrc) (line : String) : Uttered := .always (remark (w.file file) line.toList "WRITE IT".toList)

/-- An object begins: its name and fingerprint. -/
def opening (w : Compiled) (line word : String) (name fp : Str) : List Uttered :=
  [.always (remark (w.file .blob) line.toList (word.toList ++ name ++ " - ".toList ++ fp)),
   .always (remark (w.file .blob) "39".toList ("  startSerializable: ".toList ++ fp))]

/-- An object ends. -/
def ending (w : Compiled) (line word : String) (name : Str) : Uttered :=
  .always (remark (w.file .blob) line.toList (word.toList ++ name))

/-- An object in an object, a list or a map is announced. -/
def announced (w : Compiled) : Obj → Uttered
  | .comp n _ _ => .always (remark (w.file .serializable) "80".toList ("serialise::".toList ++ n))
  | .list n _ _ => .always (remark (w.file .vector) "43".toList ("_serialise::".toList ++ n))
  | .map _ f _ => .always (remark (w.file .map) "41".toList ("_serialise::".toList ++ f))

/-- Said of a property that is an object, by the class that has it. -/
def keeping (w : Compiled) (owner : Str) (m : Member) (ptr : Bool) : Obj → List Uttered
  | .comp _ _ _ => [.always (remark (w.file .blob) "184".toList ("writeComposite::".toList ++ owner))]
  | .list _ _ _ =>
    if ptr then [.always (remark (w.file .blob) "184".toList ("writeComposite::".toList ++ owner))]
    else [.always (remark (w.file .writers) "112".toList ("write::VECTOR<".toList ++ w.ids m ++ ">".toList)),
          .always (remark (w.file .blob) "211".toList ("writeRestricted::".toList ++ owner))]
  | .map _ _ _ =>
    if ptr then [.always (remark (w.file .blob) "184".toList ("writeComposite::".toList ++ owner))]
    else [.always (remark (w.file .blob) "211".toList ("writeRestricted::".toList ++ owner))]

/-- The name of a type, as it is printed: a class with dots, the types in a vector and a map between angle brackets. -/
def namedAs : AskedType → Str
  | .string => "string".toList
  | .other n => javaClassName n
  | .vector t => "java.util.List<".toList ++ namedAs t ++ ">".toList
  | .map k v => "java.util.Map<".toList ++ namedAs k ++ ",".toList ++ namedAs v ++ ">".toList

/-- The classes, and primitive types other than strings, that a type is made of, in the order their names are asked for. -/
def madeOf (w : Compiled) : AskedType → List Str
  | .string => []
  | .other n => [n]
  | .vector t => madeOf w t
  | .map k v => if w.keyFirst then madeOf w k ++ madeOf w v else madeOf w v ++ madeOf w k

/-- What is said when the name of a type is asked for: two lines for each type it is made of, with the name in C++ and in Java. -/
def inquiry (w : Compiled) (t : AskedType) : List Str :=
  (madeOf w t).flatMap fun n =>
    [remark (w.file .types) "125".toList ("javaTypeName = ".toList ++ n),
     remark (w.file .types) "138".toList ("javaTypeName RTN = ".toList ++ javaClassName n)]

mutual

/-- From the beginning of an object to its end. -/
def recital (w : Compiled) : Obj → List Uttered
  | .comp n f ms => opening w "63" "startComposite - " n f ++ ((w.impl (n, f)).map .always ++ recitalMembers w (n, f) ms) ++ [ending w "121" "endComposite - " n]
  | .list n f es => opening w "88" "startRestricted - " n f ++ recitalElems w es ++ [ending w "170" "endRestricted - " n]
  | .map n f es => opening w "88" "startRestricted - " n f ++ recitalEntries w es ++ [ending w "170" "endRestricted - " n]

def recitalMembers (w : Compiled) (key : Str × Str) : List Member → List Uttered
  | [] => []
  | m :: ms => recitalMember w key m ++ recitalMembers w key ms

/-- A primitive by value is printed with its name; of a pointer to one the address is. -/
def recitalMember (w : Compiled) (key : Str × Str) : Member → List Uttered
  | .prim n false v => [.always (propertyLine w n (valueText w v)), meeting w key n, writing w .blobHeader "228"]
  | .prim n true v => [.always (propertyLine w n (if v.type = .char then [] else w.address)), meeting w key n, writing w .blobHeader "228"]
  | .nullPrim n _ => [.always (propertyLine w n w.null), meeting w key n, writing w .blobHeader "228"]
  | .obj n t ptr o =>
    (inquiry w (w.memberType (.obj n t ptr o))).map .always ++ keeping w key.1 (.obj n t ptr o) ptr o ++ [meeting w key n, announced w o]
      ++ recital w o
  | .nullObj n t =>
    (inquiry w (w.memberType (.nullObj n t))).map .always
      ++ [.always (remark (w.file .blob) "184".toList ("writeComposite::".toList ++ key.1)), meeting w key n,
          .always (remark (w.file .blob) "135".toList ("writeNull::".toList ++ n ++ "::0 PARENT: ".toList ++ key.1)), writing w .blob "158"]

def recitalElems (w : Compiled) : List Elem → List Uttered
  | [] => []
  | e :: es => recitalElem w e ++ recitalElems w es

def recitalElem (w : Compiled) : Elem → List Uttered
  | .prim v =>
    (inquiry w (w.elemType (.prim v))).map .always
      ++ [.always (remark (w.file .writers) "44".toList ("  SingleWriter::".toList ++ namedAs (w.elemType (.prim v)) ++ " - primitive".toList)),
          .always (elementLine w (if w.elemPointer (.prim v) then w.address else valueText w v))]
  | .nullPrim t =>
    (inquiry w (w.elemType (.nullPrim t))).map .always
      ++ [.always (remark (w.file .writers) "44".toList ("  SingleWriter::".toList ++ namedAs (w.elemType (.nullPrim t)) ++ " - primitive".toList)),
          .always (elementLine w w.null)]
  | .obj o => recitalType w .writers "60" "  SingleWriter::" (w.elemType (.obj o)) " - serialise" ++ [announced w o] ++ recital w o

def recitalEntries (w : Compiled) : List Entry → List Uttered
  | [] => []
  | .mk k v :: es =>
    recitalType w .map "45" "  * " (w.elemType k) "" ++ recitalType w .map "46" "  * " (w.elemType v) "" ++ recitalElem w k ++ recitalElem w v
      ++ recitalEntries w es

/-- A line with the name of a type, which is asked for in the middle of the line. -/
def recitalType (w : Compiled) (file : WSrc) (line before : String) (t : AskedType) (after : String) : List Uttered :=
  .always ("[".toList ++ w.file file ++ "::".toList ++ line.toList ++ "] ".toList ++ before.toList)
    :: (inquiry w t).map .always ++ [.always (namedAs t ++ after.toList ++ "\n".toList)]

end

/-- What is said about the schema at the end: the classes, with the number of their properties. -/
def closing (w : Compiled) (ds : List ClassDesc) : List Str :=
  remark (w.file .blob) "234".toList ("toBlob:: m_schemas.size() = ".toList ++ decimalNat ds.length)
    :: ds.flatMap fun d =>
      match d.body with
      | .inl ps => [remark (w.file .blob) "244".toList ("    * ".toList ++ d.key.1 ++ ": ".toList ++ decimalNat ps.length),
          remark (w.file .blobHeader) "66".toList "make".toList,
          remark (w.file .composite) "239".toList ("makeProton - ".toList ++ d.key.1 ++ " fields: #".toList ++ decimalNat ps.length)]
      | .inr _ => [remark (w.file .blob) "244".toList ("    * ".toList ++ d.key.1 ++ ": 0".toList),
          remark (w.file .blobHeader) "89".toList "make".toList]

mutual

/-- The values written, not by way of a pointer, as they are printed, in order. -/
def valueTexts (w : Compiled) : Obj → List Str
  | .comp _ _ ms => valueTextsMembers w ms
  | .list _ _ es => valueTextsElems w es
  | .map _ _ es => valueTextsEntries w es

def valueTextsMembers (w : Compiled) : List Member → List Str
  | [] => []
  | .prim n false v :: ms => propertyLine w n (valueText w v) :: valueTextsMembers w ms
  | .obj _ _ _ o :: ms => valueTexts w o ++ valueTextsMembers w ms
  | _ :: ms => valueTextsMembers w ms

def valueTextsElems (w : Compiled) : List Elem → List Str
  | [] => []
  | e :: es => valueTextsElem w e ++ valueTextsElems w es

def valueTextsElem (w : Compiled) : Elem → List Str
  | .prim v => if w.elemPointer (.prim v) then [] else [elementLine w (valueText w v)]
  | .nullPrim _ => []
  | .obj o => valueTexts w o

def valueTextsEntries (w : Compiled) : List Entry → List Str
  | [] => []
  | .mk k v :: es => valueTextsElem w k ++ valueTextsElem w v ++ valueTextsEntries w es

end

end Corda.Spec
