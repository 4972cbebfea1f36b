import Verif.Model.RoundTrip
import Verif.Model.SchemaUtils
import Verif.Model.Tools

/-
The sample programs in bin/writer-tests and bin/reader-tests: the objects they build, from the values given to the constructors, and the
classes they read.  The programs themselves use one fixed choice of values each, which is noted.
-/

namespace Corda.Programs
open Corda

/-- The name of a class that is in no namespace, as the constructors pass it on: `javaTypeName<decltype(this)> ()`. types.h:110-141; e.g.
bin/writer-tests/writer-test-02/SerialiseMe.h:30. -/
def named (n : Str) : CppType := .other n

/-- types.h:123, the name of `int`. -/
def cppInt : CppType := .other "int".toList
/-- libs/corda-utils/src/types.cxx:7-11: `javaTypeName<std::string>`. -/
def cppString : CppType := .other "string".toList

/-- bin/writer-tests/writer-test-02/SerialiseMe.h:30 (the class). -/
def nDSM : Str := "DeSerialiseMe".toList
/-- bin/writer-tests/writer-test-04/SerialiseMe.h:33 (the class). -/
def nInner : Str := "Inner".toList
/-- bin/writer-tests/writer-test-04/SerialiseMe.h:58 (the class). -/
def nOuter : Str := "Outer".toList
/-- bin/writer-tests/writer-test-05/SerialiseMe.h:26 (the class). -/
def nRecursive : Str := "Recursive".toList
/-- bin/writer-tests/writer-test-06-lists/SerialiseMe.h:29 (the class). -/
def nContainsList : Str := "ContainsList".toList
/-- bin/writer-tests/writer-test-08-composite-list/SerialiseMe.h:24 (the class). -/
def nComposite : Str := "Composite".toList
/-- bin/writer-tests/writer-test-08-composite-list/SerialiseMe.h:49 (the class). -/
def nCompositeList : Str := "CompositeList".toList
/-- bin/writer-tests/writer-test-09-list-lists/SerialiseMe.h:31 (the class). -/
def nListOfLists : Str := "ListOfLists".toList
/-- bin/writer-tests/writer-test-10-map-int-int/SerialiseMe.h:29 (the class). -/
def nMapIntInt : Str := "MapIntInt".toList
/-- bin/writer-tests/writer-test-01/SerialiseMe.cxx:10 -/
def mVal : Str := "m_val".toList
/-- bin/reader-tests/reader-test-03-composite-ptr/DeSerialiseMe.cxx:34 -/
def mVal1 : Str := "m_val1".toList
/-- bin/writer-tests/writer-test-01/SerialiseMe.cxx:11 -/
def mVal2 : Str := "m_val2".toList
/-- bin/reader-tests/reader-test-04-many-prims/DeSerialiseMe.cxx:33 -/
def mVal3 : Str := "m_val3".toList
/-- bin/reader-tests/reader-test-04-many-prims/DeSerialiseMe.cxx:34 -/
def mVal4 : Str := "m_val4".toList
/-- bin/reader-tests/reader-test-04-many-prims/DeSerialiseMe.cxx:35 -/
def mVal5 : Str := "m_val5".toList
/-- bin/reader-tests/reader-test-04-many-prims/DeSerialiseMe.cxx:36 -/
def mVal6 : Str := "m_val6".toList
/-- bin/writer-tests/writer-test-02/SerialiseMe.cxx:14 -/
def mA : Str := "m_a".toList
/-- bin/writer-tests/writer-test-02/SerialiseMe.cxx:15 -/
def mB : Str := "m_b".toList
/-- bin/writer-tests/writer-test-02/SerialiseMe.cxx:16 -/
def mC : Str := "m_c".toList
/-- bin/writer-tests/writer-test-04/SerialiseMe.cxx:24 -/
def mD : Str := "m_d".toList
/-- bin/writer-tests/writer-test-04/SerialiseMe.cxx:25 -/
def mE : Str := "m_e".toList
/-- bin/writer-tests/writer-test-06-lists/SerialiseMe.cxx:23 -/
def mList : Str := "m_list".toList
/-- bin/writer-tests/writer-test-10-map-int-int/SerialiseMe.cxx:29 -/
def mMap : Str := "m_map".toList

/-- `SerializableVector<T>` with its fingerprint and elements: SerializableVector.h:64-85 (the name). -/
def vectorOf (t : CppType) (fp : Str) (es : List Elem) : Obj := .list (javaTypeName (.vector t)) fp es

/-- `SerializableMap<K, V>`: SerializableMap.h:62-76. -/
def mapOf (k v : CppType) (fp : Str) (es : List Entry) : Obj := .map (javaTypeName (.map k v)) fp es

/-- A class of the program with what its `serialiseImpl` writes. E.g. bin/writer-tests/writer-test-02/SerialiseMe.h:30, bin/writer-tests/writer-test-02/SerialiseMe.cxx:9-17. -/
def classOf (n fp : Str) (ms : List Member) : Obj := .comp (javaTypeName (named n)) fp ms

/-- `sf_.write (m_list, "m_list", *this, blob_)` for a container by value. bin/writer-tests/writer-test-06-lists/SerialiseMe.cxx:23. -/
def holds (name : Str) (t : CppType) (o : Obj) : Member := .obj name (javaTypeName t) false o

/-- bin/writer-tests/writer-test-01/DeSerialiserMe.cxx:5, bin/writer-tests/writer-test-02/SerialiseMe.cxx:5 -/
def fDSM123 : Str := "DSM123".toList

/-- bin/writer-tests/writer-test-01/DeSerialiseMe.h:24-29, bin/writer-tests/writer-test-01/SerialiseMe.cxx:5-12; `main` uses 100. -/
def writer01 (val : Int) : Obj :=
  classOf nDSM fDSM123 [.prim mVal false (.int val), .prim mVal2 true (.int (val + 50))]

/-- bin/writer-tests/writer-test-02/SerialiseMe.{h,cxx}; `main` uses 1, 2, 3. (.cxx:5-17, .h:29-31, main.cxx). -/
def writer02 (a b c : Int) : Obj :=
  classOf nDSM fDSM123 [.prim mA false (.int a), .prim mB false (.int b), .prim mC false (.int c)]

/-- bin/writer-tests/writer-test-03/SerialiseMe.{h,cxx}; `main` uses "hello", "world". (.cxx:5-16, .h:28-30, main.cxx). -/
def writer03 (a b : Str) : Obj := classOf nDSM fDSM123 [.prim mA false (.string a), .prim mB false (.string b)]

/-- bin/writer-tests/writer-test-04/SerialiseMe.cxx:9 -/
def fInner_123 : Str := "Inner-123".toList
/-- bin/writer-tests/writer-test-04/SerialiseMe.cxx:10, bin/writer-tests/writer-test-05/SerialiseMe.cxx:8 -/
def fOuter_123 : Str := "Outer-123".toList

/-- bin/writer-tests/writer-test-04/SerialiseMe.{h,cxx}; `main` uses 101, "butts", true, 10.1, 1.02. (.cxx:9-38, .h, main.cxx). -/
def writer04 (a : Int) (b : Str) (c : Bool) (d e : Nat) : Obj :=
  classOf nOuter fOuter_123 [.obj mA (javaTypeName (named nInner)) false (classOf nInner fInner_123
    [.prim mA false (.int a), .prim mB false (.string b), .prim mC false (.bool c), .prim mD false (.double d),
     .prim mE false (.float e)])]

/-- bin/writer-tests/writer-test-05/SerialiseMe.{h,cxx}: a chain of objects, each holding a pointer to the next; `main` uses three.
(.cxx:8-22, .h, main.cxx). -/
def writer05 (a : Int) (b : Str) : List (Int × Str) → Obj
  | [] => classOf nRecursive fOuter_123
      [.prim mA false (.int a), .prim mB false (.string b), .nullObj mC (javaTypeName (named nRecursive))]
  | (a', b') :: rest => classOf nRecursive fOuter_123
      [.prim mA false (.int a), .prim mB false (.string b), .obj mC (javaTypeName (named nRecursive)) true (writer05 a' b' rest)]

/-- bin/writer-tests/writer-test-06-lists/SerialiseMe.cxx:9 -/
def f06 : Str := "Contains-List-123".toList
/-- bin/writer-tests/writer-test-06-lists/SerialiseMe.cxx:12 -/
def f06v : Str := "vector-of-string".toList

/-- bin/writer-tests/writer-test-06-lists/SerialiseMe.{h,cxx}; `main` uses "goodbye", "cruel", "world". (.cxx:9-24, .h, main.cxx). -/
def writer06 (l : List Str) : Obj :=
  classOf nContainsList f06 [holds mList (.vector cppString) (vectorOf cppString f06v (l.map fun s => .prim (.string s)))]

/-- bin/writer-tests/writer-test-07-int-list/SerialiseMe.cxx:8 -/
def f07 : Str := "ContainsList-123".toList
/-- bin/writer-tests/writer-test-07-int-list/SerialiseMe.cxx:11 -/
def f07v : Str := "int-vector".toList

/-- bin/writer-tests/writer-test-07-int-list/SerialiseMe.{h,cxx}; `main` uses 1 to 6. (.cxx:8-23, .h, main.cxx). -/
def writer07 (l : List Int) : Obj :=
  classOf nContainsList f07 [holds mList (.vector cppInt) (vectorOf cppInt f07v (l.map fun n => .prim (.int n)))]

/-- bin/writer-tests/writer-test-08-composite-list/SerialiseMe.cxx:7 -/
def f08c : Str := "Composite123".toList
/-- bin/writer-tests/writer-test-08-composite-list/SerialiseMe.cxx:8 -/
def f08v : Str := "Composite123Vector".toList
/-- bin/writer-tests/writer-test-08-composite-list/SerialiseMe.cxx:9 -/
def f08 : Str := "CompositeList123".toList

/-- bin/writer-tests/writer-test-08-composite-list/SerialiseMe.{h,cxx}, `Composite`. (.cxx:7, 13-20). -/
def composite08 (x : Str × Nat) : Obj := classOf nComposite f08c [.prim mA false (.string x.1), .prim mB false (.double x.2)]

/-- bin/writer-tests/writer-test-08-composite-list/SerialiseMe.{h,cxx}; `main` uses three. (.cxx:8-9, 26-32, main.cxx). -/
def writer08 (l : List (Str × Nat)) : Obj :=
  classOf nCompositeList f08
    [holds mList (.vector (named nComposite)) (vectorOf (named nComposite) f08v (l.map fun x => .obj (composite08 x)))]

/-- bin/writer-tests/writer-test-09-list-lists/SerialiseMe.cxx:8 -/
def f09 : Str := "LOL123".toList
/-- bin/writer-tests/writer-test-09-list-lists/SerialiseMe.cxx:11 -/
def f09v : Str := "intList".toList
/-- bin/writer-tests/writer-test-09-list-lists/SerialiseMe.cxx:17 -/
def f09w : Str := "ListIntList2".toList

/-- bin/writer-tests/writer-test-09-list-lists/SerialiseMe.{h,cxx}; `main` uses three lists of three. (.cxx:8-27, main.cxx). -/
def writer09 (l : List (List Int)) : Obj :=
  classOf nListOfLists f09 [holds mList (.vector (.vector cppInt)) (vectorOf (.vector cppInt) f09w
    (l.map fun ns => .obj (vectorOf cppInt f09v (ns.map fun n => .prim (.int n)))))]

/-- bin/writer-tests/writer-test-10-map-int-int/SerialiseMe.cxx:10 -/
def f10 : Str := "MapIntInt".toList
/-- bin/writer-tests/writer-test-10-map-int-int/SerialiseMe.cxx:16 -/
def f10m : Str := "MAP2-int-int".toList

/-- bin/writer-tests/writer-test-10-map-int-int/SerialiseMe.{h,cxx}; `main` uses 1 to 2, 3 to 4. (.cxx:10-30, main.cxx). -/
def writer10 (m : List (Int × Int)) : Obj :=
  classOf nMapIntInt f10 [holds mMap (.map cppInt cppInt) (mapOf cppInt cppInt f10m
    (m.map fun e => .mk (.prim (.int e.1)) (.prim (.int e.2))))]

/-- bin/writer-tests/writer-test-11-map-int-composite/SerialiseMe.cxx:6 -/
def fInner : Str := "FP-Inner".toList
/-- bin/writer-tests/writer-test-11-map-int-composite/SerialiseMe.cxx:9 -/
def fDSM : Str := "FP-DSM".toList
/-- bin/writer-tests/writer-test-11-map-int-composite/SerialiseMe.cxx:12 -/
def f11m : Str := "FP-MapItoInner".toList

/-- bin/writer-tests/writer-test-11-map-int-composite/SerialiseMe.{h,cxx}, `Inner`. (.cxx:6, 16-22). -/
def inner11 (a : Str) : Obj := classOf nInner fInner [.prim mA false (.string a)]

/-- bin/writer-tests/writer-test-11-map-int-composite/SerialiseMe.{h,cxx}; the constructor puts six. (.cxx:9-12, 26-32, .h:49-63). -/
def writer11 (m : List (Int × Str)) : Obj :=
  classOf nDSM fDSM [holds mMap (.map cppInt (named nInner)) (mapOf cppInt (named nInner) f11m
    (m.map fun e => .mk (.prim (.int e.1)) (.obj (inner11 e.2))))]

/-- bin/writer-tests/writer-test-12-map-int-list-composite/SerialiseMe.cxx:12 -/
def f12i : Str := "FP-IntVector".toList
/-- bin/writer-tests/writer-test-12-map-int-list-composite/SerialiseMe.cxx:15 -/
def f12v : Str := "FP-InnerVector".toList
/-- bin/writer-tests/writer-test-12-map-int-list-composite/SerialiseMe.cxx:18 -/
def f12m : Str := "FP-PANTS".toList

/-- bin/writer-tests/writer-test-12-map-int-list-composite/SerialiseMe.{h,cxx}, `Inner`. (.cxx:6-12, 25-32). -/
def inner12 (x : Str × List Int) : Obj :=
  classOf nInner fInner [.prim mA false (.string x.1),
    holds mB (.vector cppInt) (vectorOf cppInt f12i (x.2.map fun n => .prim (.int n)))]

/-- bin/writer-tests/writer-test-12-map-int-list-composite/SerialiseMe.{h,cxx}; the constructor puts two lists of two. (.cxx:9, 15-18,
36-42, .h:51-69). -/
def writer12 (m : List (Int × List (Str × List Int))) : Obj :=
  classOf nDSM fDSM [holds mMap (.map cppInt (.vector (named nInner))) (mapOf cppInt (.vector (named nInner)) f12m
    (m.map fun e => .mk (.prim (.int e.1)) (.obj (vectorOf (named nInner) f12v (e.2.map fun x => .obj (inner12 x))))))]

/-! ### bin/reader-tests -/

/-- bin/reader-tests/reader-test-01/DeSerialiseMe.cxx:17-24, 41-52: an `int` and a pointer to one.  (The object is read from a file.) -/
def reader01 : Shape := .mk [.prim false .int, .prim true .int]
/-- bin/reader-tests/reader-test-01/DeSerialiseMe.{h,cxx}: the same class written. (.cxx:9, 18-24). -/
def reader01Obj (val val2 : Int) : Obj := classOf nDSM fDSM123 [.prim mVal false (.int val), .prim mVal2 true (.int val2)]

/-- bin/reader-tests/reader-test-02-nested-composite/DeSerialiseMe.cxx:9 -/
def fInner123 : Str := "Inner123".toList
/-- bin/reader-tests/reader-test-02-nested-composite/DeSerialiseMe.cxx:10 -/
def fOuter123 : Str := "Outer123".toList

/-- bin/reader-tests/reader-test-02-nested-composite/DeSerialiseMe.cxx; `main` writes and reads `Outer (100)`. -/
def reader02 : Shape := .mk [.obj false (.mk [.prim false .int])]
/-- bin/reader-tests/reader-test-02-nested-composite/DeSerialiseMe.cxx:9-10, 38, 75: the object `main` writes. -/
def reader02Obj (val : Int) : Obj :=
  classOf nOuter fOuter123 [.obj mA (javaTypeName (named nInner)) false (classOf nInner fInner123 [.prim mVal false (.int val)])]

/-- bin/reader-tests/reader-test-03-composite-ptr/DeSerialiseMe.cxx, `Inner`. -/
def inner03 (v : Int × Int) : Obj := classOf nInner fInner123 [.prim mVal1 false (.int v.1), .prim mVal2 false (.int v.2)]
/-- bin/reader-tests/reader-test-03-composite-ptr/DeSerialiseMe.cxx: an `Inner` and a pointer to one. -/
def reader03 : Shape :=
  .mk [.obj false (.mk [.prim false .int, .prim false .int]), .obj true (.mk [.prim false .int, .prim false .int])]
/-- bin/reader-tests/reader-test-03-composite-ptr/DeSerialiseMe.cxx:9-10, 76-77: the object `main` writes. -/
def reader03Obj (a b : Int × Int) : Obj :=
  classOf nOuter fOuter123 [.obj mA (javaTypeName (named nInner)) false (inner03 a), .obj mB (javaTypeName (named nInner)) true (inner03 b)]

/-- bin/reader-tests/reader-test-04-many-prims/DeSerialiseMe.cxx; `main` uses 100 to 600. -/
def reader04 : Shape :=
  .mk [.obj false (.mk [.prim false .int, .prim false .int, .prim false .int, .prim false .int, .prim false .int, .prim false .int])]
/-- bin/reader-tests/reader-test-04-many-prims/DeSerialiseMe.cxx:3-4, 31-36, 78: the object `main` writes. -/
def reader04Obj (a b c d e f : Int) : Obj :=
  classOf nOuter fOuter123 [.obj mA (javaTypeName (named nInner)) false (classOf nInner fInner123
    [.prim mVal1 false (.int a), .prim mVal2 false (.int b), .prim mVal3 false (.int c), .prim mVal4 false (.int d),
     .prim mVal5 false (.int e), .prim mVal6 false (.int f)])]

/-- bin/reader-tests/reader-test-05-many-diff-prims/DeSerialiseMe.cxx; `main` uses 100, "Hello World", 300, 4000000000, true, 69.96. -/
def reader05 : Shape :=
  .mk [.obj false (.mk [.prim false .int, .prim false .string, .prim false .double, .prim false .long, .prim false .bool,
    .prim false .float])]
/-- bin/reader-tests/reader-test-05-many-diff-prims/DeSerialiseMe.cxx:9-10, 39-44, 86: the object `main` writes. -/
def reader05Obj (a : Int) (b : Str) (c : Nat) (d : Int) (e : Bool) (f : Nat) : Obj :=
  classOf nOuter fOuter123 [.obj mA (javaTypeName (named nInner)) false (classOf nInner fInner123
    [.prim mVal1 false (.int a), .prim mVal2 false (.string b), .prim mVal3 false (.double c), .prim mVal4 false (.long d),
     .prim mVal5 false (.bool e), .prim mVal6 false (.float f)])]

/-- bin/reader-tests/reader-test-06-int-list/DeSerialiseMe.cxx:6 -/
def fDSMe : Str := "DSMe-123".toList
/-- bin/reader-tests/reader-test-06-int-list/DeSerialiseMe.cxx:7 -/
def fIntVector : Str := "IntVector".toList

/-- bin/reader-tests/reader-test-06-int-list/DeSerialiseMe.cxx; `main` uses 1 to 4. -/
def reader06 : Shape := .mk [.vector]
/-- bin/reader-tests/reader-test-06-int-list/DeSerialiseMe.cxx:6-7, 16: the object `main` writes. -/
def reader06Obj (l : List Int) : Obj :=
  classOf nDSM fDSMe [holds mVal (.vector cppInt) (vectorOf cppInt fIntVector (l.map fun n => .prim (.int n)))]

end Corda.Programs
