import Verif.Model.Listing
import Verif.Model.Programs

/-
The classes, helpers and bodies of the library's own unit tests: libs/amqp/src/test, libs/amqp/include/test,
libs/corda-utils/test.
-/

namespace Corda
open Programs

/-! libs/amqp/src/test/OrderedTypeNotationTest.cxx -/

/-- OrderedTypeNotationTest.cxx:9-55, the class `OTN`: a name and the names in `m_dependsOn`. -/
structure OTN where
  name : Str
  needs : List Str
  deriving DecidableEq, Repr

/-- OrderedTypeNotationTest.cxx:20-43, `dependsOn`. -/
def OTN.dependsOn (a b : OTN) : Int :=
  if b.name ∈ a.needs then 1 else if a.name ∈ b.needs then 2 else 0

/-- OrderedTypeNotationTest.cxx:65-84, the printing operator, and 90-96, `str`. -/
def otnText (levels : List (List OTN)) : Str := List.intercalate [' '] (levels.flatten.map OTN.name)

/-- A test of that file: insert one after the other, print. OrderedTypeNotationTest.cxx:102-122 and alike. -/
def otnRun (xs : List OTN) : Option Str := (insertAll OTN.dependsOn xs).map otnText

/-! libs/amqp/src/test/TestUtils.cxx -/

/-- TestUtils.cxx:49, 68, 93 -/
def unitLabel : Str := "label".toList
/-- TestUtils.cxx:67 -/
def unitListName (of_ : Str) : Str := "java.util.List<".toList ++ of_ ++ ['>']
/-- TestUtils.cxx:48 -/
def unitMapName (of_ to_ : Str) : Str := "java.util.Map<".toList ++ of_ ++ ", ".toList ++ to_ ++ ['>']

/-- TestUtils.cxx:57-72, `test::list`, with the constructor List.cxx:25-41.  The fingerprint is a random text. -/
def unitList (fp of_ : Str) : Res Restricted := do
  let v ← listType (unitListName of_)
  pure ⟨unitListName of_, unitLabel, [], fp, .list v.2⟩

/-- TestUtils.cxx:38-53, `test::map`, with the constructor Map.cxx:14-31. -/
def unitMap (fp of_ to_ : Str) : Res Restricted := do
  let v ← mapType (unitMapName of_ to_)
  pure ⟨unitMapName of_ to_, unitLabel, [], fp, .map v.2.1 v.2.2⟩

/-- TestUtils.cxx:76-99, `test::eNum`, with the constructor Enum.cxx:11-29.  The two null pointers in front of the two
choices (84) are left out: no test looks at the choices. -/
def unitEnum (fp e : Str) : Restricted :=
  ⟨"net.corda.".toList ++ e, unitLabel, [], fp, .enum [['a'], ['b']]⟩

/-- libs/amqp/src/test/Map.cxx:59-212: insert the types one after the other, print. -/
def otnPrinted (rs : List Restricted) : Res Str := do
  let levels ← insertAllR TypeNotation.dependsOn (rs.map .restr)
  pure (printLevels levels)

/-! libs/amqp/src/test/RoundTripTests.cxx -/

/-- RoundTripTests.cxx:42-77, an object of `RTTSingle<T>` or `RTTSingle<T *>`. -/
def single (n fp : Str) (ptr : Bool) (v : Prim) : Obj := .comp n fp [.prim mVal ptr v]
/-- RoundTripTests.cxx:66-74 -/
def singleShape (ptr : Bool) (t : PrimType) : Shape := .mk [.prim ptr t]

/-- RoundTripTests.cxx:100-142, an object of `RTTDouble<T1, T2>`. -/
def double (n fp : Str) (v w : Prim) : Obj := .comp n fp [.prim mVal1 false v, .prim mVal2 false w]
/-- RoundTripTests.cxx:129-138 -/
def doubleShape (t u : PrimType) : Shape := .mk [.prim false t, .prim false u]

/-- RoundTripTests.cxx:359-416, an object of `ManyTypes`. -/
def manyTypes (a : Int) (b : Nat) (c : Int) (d e : Str) : Obj := .comp "ManyTypes".toList "DSM".toList
  [.prim mVal1 false (.int a), .prim mVal2 false (.double b), .prim mVal3 false (.long c),
   .prim mVal4 false (.string d), .prim mVal5 true (.string e)]
/-- RoundTripTests.cxx:391-402 -/
def manyShape : Shape :=
  .mk [.prim false .int, .prim false .double, .prim false .long, .prim false .string, .prim true .string]

/-- RoundTripTests.cxx:436-481, an object of `INTList`. -/
def intList (l : List Int) : Obj := classOf "INTList".toList "INTListC".toList
  [holds mVal (.vector cppInt) (vectorOf cppInt "int-vector".toList (l.map fun n => .prim (.int n)))]
/-- RoundTripTests.cxx:459-466 -/
def intListShape : Shape := .mk [.vector]

/-! libs/amqp/src/test/RoundTripListTests.cxx -/

/-- RoundTripListTests.cxx:19-58, `serialise` of an object of `RTTSingleList<int>`: its `serialiseImpl` (26-31)
serialises the vector without making it a property. -/
def singleList (l : List Int) : Res (List Node) :=
  let key := ("RTTSingleList<int>".toList, "SingleListTestInt".toList)
  let vec := vectorOf cppInt "int-vector".toList (l.map fun n => .prim (.int n))
  match Wr.guarded (Wr.startComposite key) (Wr.object vec) Wr.stop WState.init with
  | (.ok _, s) => .ok s.toBlob
  | (.throw m, _) => .throw m
  | (.ub w, _) => .ub w

end Corda
