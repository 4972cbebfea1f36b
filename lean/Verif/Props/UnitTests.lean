import Verif.Model.UnitTests
import Verif.Props.Programs
import Verif.Props.Listing
import Verif.Props.Essence

/-
C86: what the library's own unit tests check.
-/

namespace Corda.Props
open Corda Prog Spec

/-! ### Round trips (libs/amqp/src/test/RoundTripTests.cxx) -/

/-- **C86, RTT.singles and RTT.singlePointers, for every value.** A class with one primitive property, or a pointer to
one, comes back with its value if it is clean.  Missing: pointers to characters, on which the test itself is
undefined (`C86_char_pointer_violated`). -/
theorem C86_single_partial (n fp : Str) (ptr : Bool) (v : Prim) (h : Clean v) (hc : ptr = true → v.type ≠ .char) :
    ∃ b, serialise (single n fp ptr v) = .ok [b]
      ∧ (deserialise (.obj false (singleShape ptr v.type)) (Cursor.root b)).1 = .ok (.obj [.prim v]) := by
  refine C33_object_round_trip_partial _ _ _ ?_ ?_ ?_ _ rfl
  · exact ⟨_, rfl, _, _, rfl, rfl, rfl⟩
  · exact ⟨fun hp ht => absurd ht (hc hp), trivial⟩
  · intro p hp
    simp only [single, prims, primsMembers, primsMember, List.append_nil, List.mem_singleton] at hp
    exact hp ▸ h

/-- **C86, RTT.things, for every two values.** -/
theorem C86_double (n fp : Str) (v w : Prim) (hv : Clean v) (hw : Clean w) :
    ∃ b, serialise (double n fp v w) = .ok [b]
      ∧ (deserialise (.obj false (doubleShape v.type w.type)) (Cursor.root b)).1 = .ok (.obj [.prim v, .prim w]) := by
  refine C33_object_round_trip_partial _ _ _ ?_ ?_ ?_ _ rfl
  · exact ⟨_, rfl, _, _, rfl, rfl, _, _, rfl, rfl, rfl⟩
  · exact ⟨fun hp => by simp at hp, fun hp => by simp at hp, trivial⟩
  · intro p hp
    simp only [double, prims, primsMembers, primsMember, List.append_nil, List.cons_append, List.nil_append,
      List.mem_cons, List.not_mem_nil, or_false] at hp
    rcases hp with rfl | rfl
    · exact hv
    · exact hw

/-- **C86, RTT.many_types, for every value.** -/
theorem C86_many_types (a : Int) (b : Nat) (c : Int) (d e : Str) (hd : '\x00' ∉ d) (he : '\x00' ∉ e) :
    ∃ t, serialise (manyTypes a b c d e) = .ok [t] ∧ (deserialise (.obj false manyShape) (Cursor.root t)).1
      = .ok (.obj [.prim (.int a), .prim (.double b), .prim (.long c), .prim (.string d), .prim (.string e)]) := by
  refine C33_object_round_trip_partial _ _ _ ?_ ?_ ?_ _ rfl
  · exact ⟨_, rfl, _, _, rfl, rfl, _, _, rfl, rfl, _, _, rfl, rfl, _, _, rfl, rfl, _, _, rfl, rfl, rfl⟩
  · simp [manyTypes, NoCharPointers, NoCharPointersMembers, NoCharPointersMember, Prim.type]
  · intro p hp
    simp only [manyTypes, prims, primsMembers, primsMember, List.append_nil, List.cons_append, List.nil_append,
      List.mem_cons, List.not_mem_nil, or_false] at hp
    rcases hp with rfl | rfl | rfl | rfl | rfl
    · trivial
    · trivial
    · trivial
    · exact hd
    · exact he

/-- The values of the tests (RoundTripTests.cxx:191-197, 205-210, 422). -/
example : Clean (.int 69) ∧ Clean (.float 0x428b64d0) ∧ Clean (.double 0x4059000000000000) ∧ Clean (.long 400)
    ∧ Clean (.string "This is a test".toList) ∧ Clean (.bool true) ∧ Clean (.char 97) := by
  simp only [Clean]
  decide +kernel

example : ((serialise (manyTypes 1000 0x4038000000000000 1 "hello".toList "world".toList)).bind fun ns =>
      (deserialise (.obj false manyShape) ⟨[], ns.head?, [], []⟩).1)
    = .ok (.obj [.prim (.int 1000), .prim (.double 0x4038000000000000), .prim (.long 1), .prim (.string "hello".toList),
        .prim (.string "world".toList)]) := by
  decide +kernel

/-- **C86 is violated** by RTT.singlePointers (RoundTripTests.cxx:211): a pointer to one character is printed as if it
were a text. -/
theorem C86_char_pointer_violated :
    (serialise (single "RTTSingle<char*>".toList "SingleTestFloatPtr".toList true (.char 97))).IsUB := by
  decide +kernel

/-- **C86 is violated** by RTT.int_list (RoundTripTests.cxx:483-495): the vector is never read back. -/
theorem C86_int_list_violated : ((serialise (intList [1, 2, 3, 4, 5])).bind fun ns =>
      (deserialise (.obj false intListShape) ⟨[], ns.head?, [], []⟩).1) = .throw "Expected a List" := by
  decide +kernel

/-- **C86 is violated** by RTT.SingleLists (RoundTripListTests.cxx:107-111): the vector is written where the class
reads an integer. -/
theorem C86_single_lists_violated : ((singleList [1, 2, 3]).bind fun ns =>
      (deserialise (.obj false (singleShape false .int)) ⟨[], ns.head?, [], []⟩).1)
    = .throw "Expected an Integer type" := by
  decide +kernel

/-- It is not the reading alone: what was written is the vector, as the only part of the object. -/
example : (singleList [7]).bind (fun ns => .ok (ns.map fun n => ((n.kids.drop 1).flatMap Node.kids).head?))
    = .ok [some (describedNode "SingleListTestInt".toList .list [describedNode "int-vector".toList .list
        [.mk (.int 7) []]])] := by
  decide +kernel

/-! ### Ordering (src/test/OrderedTypeNotationTest.cxx) -/

private def otn (n : Char) (needs : List Char) : OTN := ⟨[n], needs.map fun c => [c]⟩

/-- **C86, OTNTest**, all nine tests (OrderedTypeNotationTest.cxx:102-227). -/
theorem C86_ordering :
    otnRun [otn 'A' []] = some "A".toList
    ∧ otnRun [otn 'A' [], otn 'B' []] = some "B A".toList
    ∧ otnRun [otn 'A' ['B'], otn 'B' []] = some "A B".toList
    ∧ otnRun [otn 'A' [], otn 'B' ['A']] = some "B A".toList
    ∧ otnRun [otn 'A' [], otn 'B' ['A'], otn 'C' ['A']] = some "B C A".toList
    ∧ otnRun [otn 'A' ['B'], otn 'B' ['C'], otn 'C' []] = some "A B C".toList
    ∧ otnRun [otn 'C' [], otn 'A' ['B'], otn 'B' ['C']] = some "A B C".toList
    ∧ otnRun [otn 'C' [], otn 'B' ['C'], otn 'A' ['B']] = some "A B C".toList
    ∧ otnRun [otn 'B' ['C'], otn 'C' [], otn 'A' ['B']] = some "A B C".toList := by
  decide +kernel

/-- The test with the first two elements and no dependency, for all names and whatever they depend on: the second goes
in front unless the first needs it. -/
theorem C86_two_inserts (a b : OTN) :
    otnRun [a, b] = some (if b.name ∈ a.needs then a.name ++ ' ' :: b.name else b.name ++ ' ' :: a.name) := by
  by_cases h1 : b.name ∈ a.needs
  · simp [otnRun, insertAll, insert, insGo, findPos, scanLevel, shuffle, OTN.dependsOn, otnText, h1]
  · by_cases h2 : a.name ∈ b.needs <;>
      simp [otnRun, insertAll, insert, insGo, findPos, scanLevel, shuffle, OTN.dependsOn, otnText, h1, h2]

/-! ### Lists and maps (src/test/List.cxx, Map.cxx) -/

/-- **C86, List.name, Map.name1-3, schema_utils_test.1-4** (List.cxx:8-13, Map.cxx:18-51, SchemaUtils.cxx:12-56). -/
theorem C86_generic_names :
    listType "java.util.list<int>".toList = .ok ("java.util.list".toList, "int".toList)
    ∧ listType "a<b>".toList = .ok ("a".toList, "b".toList)
    ∧ listType "a<b<c>>".toList = .ok ("a".toList, "b<c>".toList)
    ∧ listType "a".toList = .ok ("a".toList, [])
    ∧ mapType "java.util.Map<int, string>".toList = .ok ("java.util.Map".toList, "int".toList, "string".toList)
    ∧ mapType "java.util.Map<int, java.util.List<string>>".toList
        = .ok ("java.util.Map".toList, "int".toList, "java.util.List<string>".toList)
    ∧ mapType "java.util.Map<java.util.Pair<int, int>, java.util.List<string>>".toList
        = .ok ("java.util.Map".toList, "java.util.Pair<int, int>".toList, "java.util.List<string>".toList)
    ∧ ∃ v, nestedGenericTypes "java.util.List<java.util.Map<c, d>>".toList = .ok v ∧ v.length = 4 ∧ "c".toList ∈ v
        ∧ "d".toList ∈ v ∧ "java.util.Map<c, d>".toList ∈ v ∧ "java.util.List<java.util.Map<c, d>>".toList ∈ v := by
  refine ⟨?_, ?_, ?_, ?_, ?_, ?_, ?_, _, rfl, ?_⟩ <;> decide +kernel

private def string : Str := "string".toList
private def int : Str := "int".toList
private def eee : Str := "net.corda.eee".toList
private def listOfStrings (f : Str) : Restricted := ⟨unitListName string, unitLabel, [], f, .list string⟩
private def listOfEnums (f : Str) : Restricted := ⟨unitListName eee, unitLabel, [], f, .list eee⟩

private theorem unitList_of {f of_ e l : Str} (h : listType (unitListName of_) = .ok (l, e)) :
    unitList f of_ = .ok ⟨unitListName of_, unitLabel, [], f, .list e⟩ := by
  unfold unitList
  rw [h]
  rfl

private theorem unitMap_of {f of_ to_ m a b : Str} (h : mapType (unitMapName of_ to_) = .ok (m, a, b)) :
    unitMap f of_ to_ = .ok ⟨unitMapName of_ to_, unitLabel, [], f, .map a b⟩ := by
  unfold unitMap
  rw [h]
  rfl

private def listOfLists (f : Str) : Restricted :=
  ⟨unitListName (unitListName string), unitLabel, [], f, .list (unitListName string)⟩

private def utilList : Str := "java.util.List".toList
private def utilMap : Str := "java.util.Map".toList

private theorem printed_essence (rs qs : List Restricted)
    (h : (rs.map TypeNotation.restr).map essence = (qs.map TypeNotation.restr).map essence) :
    otnPrinted rs = otnPrinted qs := C87_listing _ _ h

/-- **C86, List.dependsOn1** (List.cxx:17-23), whatever fingerprints the two lists have. -/
theorem C86_list_depends (f g : Str) : ∃ l1 l2, unitList f string = .ok l1 ∧ unitList g l1.name = .ok l2
    ∧ TypeNotation.dependsOn (.restr l1) (.restr l2) = .ok 1 ∧ TypeNotation.dependsOn (.restr l2) (.restr l1) = .ok 2 := by
  refine ⟨listOfStrings f, listOfLists g, unitList_of (l := utilList) (by decide +kernel),
    unitList_of (l := utilList) (by show listType (unitListName (unitListName string)) = _; decide +kernel), ?_, ?_⟩
  · rw [← C87_answers]
    show TypeNotation.dependsOn (essence (.restr (listOfStrings []))) (essence (.restr (listOfLists []))) = .ok 1
    decide +kernel
  · rw [← C87_answers]
    show TypeNotation.dependsOn (essence (.restr (listOfLists []))) (essence (.restr (listOfStrings []))) = .ok 2
    decide +kernel

private def mapOfLists (f : Str) : Restricted :=
  ⟨unitMapName int (unitListName string), unitLabel, [], f, .map int (unitListName string)⟩
private def mapOfEnums (f : Str) : Restricted :=
  ⟨unitMapName int (unitListName eee), unitLabel, [], f, .map int (unitListName eee)⟩

/-- The text Map.dependsOn1 expects. -/
private def twoLevels : Str :=
  "level 1\n    * java.util.List<string>\n\nlevel 2\n    * java.util.Map<int, java.util.List<string>>\n\n".toList

/-- **C86, Map.dependsOn1** (Map.cxx:59-98), both orders, whatever the fingerprints. -/
theorem C86_map_depends1 (f g : Str) : ∃ l m, unitList f string = .ok l ∧ unitMap g int l.name = .ok m
    ∧ otnPrinted [l, m] = .ok twoLevels ∧ otnPrinted [m, l] = .ok twoLevels := by
  refine ⟨listOfStrings f, mapOfLists g, unitList_of (l := utilList) (by decide +kernel), unitMap_of (m := utilMap)
    (by show mapType (unitMapName int (unitListName string)) = _; decide +kernel), ?_, ?_⟩
  · refine (printed_essence _ [listOfStrings [], mapOfLists []] ?_).trans ?_
    · rfl
    · decide +kernel
  · refine (printed_essence _ [mapOfLists [], listOfStrings []] ?_).trans ?_
    · rfl
    · decide +kernel

/-- The text Map.dependsOn2 expects. -/
private def threeLevels : Str := ("level 1\n    * net.corda.eee\n\nlevel 2\n    * java.util.List<net.corda.eee>\n\n"
  ++ "level 3\n    * java.util.Map<int, java.util.List<net.corda.eee>>\n\n").toList

/-- **C86, Map.dependsOn2** (Map.cxx:102-212), all six orders, whatever the fingerprints. -/
theorem C86_map_depends2 (f g h : Str) : ∃ l m, unitList g (unitEnum f "eee".toList).name = .ok l
    ∧ unitMap h int l.name = .ok m
    ∧ ∀ xs ∈ [[l, m, unitEnum f "eee".toList], [l, unitEnum f "eee".toList, m], [m, l, unitEnum f "eee".toList],
        [m, unitEnum f "eee".toList, l], [unitEnum f "eee".toList, l, m], [unitEnum f "eee".toList, m, l]],
      otnPrinted xs = .ok threeLevels := by
  have he : (unitEnum f "eee".toList).name = eee := by
    show "net.corda.".toList ++ "eee".toList = eee
    decide +kernel
  rw [he]
  refine ⟨listOfEnums g, mapOfEnums h, unitList_of (l := utilList) (by decide +kernel), unitMap_of (m := utilMap)
    (by show mapType (unitMapName int (unitListName eee)) = _; decide +kernel), ?_⟩
  simp only [List.forall_mem_cons, List.not_mem_nil, false_implies, implies_true, and_true]
  refine ⟨?_, ?_, ?_, ?_, ?_, ?_⟩
  · refine (printed_essence _ [listOfEnums [], mapOfEnums [], unitEnum [] "eee".toList] ?_).trans ?_
    · rfl
    · decide +kernel
  · refine (printed_essence _ [listOfEnums [], unitEnum [] "eee".toList, mapOfEnums []] ?_).trans ?_
    · rfl
    · decide +kernel
  · refine (printed_essence _ [mapOfEnums [], listOfEnums [], unitEnum [] "eee".toList] ?_).trans ?_
    · rfl
    · decide +kernel
  · refine (printed_essence _ [mapOfEnums [], unitEnum [] "eee".toList, listOfEnums []] ?_).trans ?_
    · rfl
    · decide +kernel
  · refine (printed_essence _ [unitEnum [] "eee".toList, listOfEnums [], mapOfEnums []] ?_).trans ?_
    · rfl
    · decide +kernel
  · refine (printed_essence _ [unitEnum [] "eee".toList, mapOfEnums [], listOfEnums []] ?_).trans ?_
    · rfl
    · decide +kernel

/-! ### Names of types (src/test/RestrictedDescriptor.cxx, corda-utils/test/TypeTests.cxx) -/

/-- **C86, RestrictedDescriptor.makePrim1-5** (RestrictedDescriptor.cxx:7-25). -/
theorem C86_makePrim :
    makePrim "int".toList = "int".toList ∧ makePrim "int[]".toList = "int[]".toList
    ∧ makePrim "java.lang.Integer".toList = "int".toList ∧ makePrim "java.lang.Integer[]".toList = "int[]".toList
    ∧ makePrim "java.lang.Integer[], java.lang.Integer".toList = "int[], int".toList := by
  decide +kernel

/-- **C86, typeName.javaTypeName, .vectors, .maps, .anonNamespace** (TypeTests.cxx:47-88), given the names the compiler's
demangler makes. -/
theorem C86_java_names :
    javaTypeName (.other "A".toList) = "A".toList
    ∧ javaTypeName (.other "net::B".toList) = "net.B".toList
    ∧ javaTypeName (.other "a::b::C".toList) = "a.b.C".toList
    ∧ javaTypeName (.vector (.other "int".toList)) = "java.util.List<int>".toList
    ∧ javaTypeName (.vector (.other "a::b::C".toList)) = "java.util.List<a.b.C>".toList
    ∧ javaTypeName (.map (.other "int".toList) (.other "int".toList)) = "java.util.Map<int,int>".toList
    ∧ javaTypeName (.map (.other "int".toList) (.vector (.other "string".toList)))
        = "java.util.Map<int,java.util.List<string>>".toList
    ∧ javaTypeName (.other "(anonymous namespace)::Anon".toList) = "Anon".toList
    ∧ javaTypeName (.other "(anonymous namespace)::Anon::Anon2".toList) = "Anon.Anon2".toList := by
  decide +kernel

/-- **C86 is violated** by the tests of the vector class (include/test/SerializableVectorTests.cxx:18-138), whatever the
vector holds: it does have the name the first four expect, but the fingerprint is the one declared in the file
(line 13), and a vector of strings is named with a small letter. -/
theorem C86_vectors_violated (es : List Elem) :
    (Programs.vectorOf Programs.cppInt "IntVector".toList es).name = "java.util.List<int>".toList
    ∧ (Programs.vectorOf Programs.cppInt "IntVector".toList es).fp ≠ "things123".toList
    ∧ javaTypeName (.vector Programs.cppString) = "java.util.List<string>".toList
    ∧ javaTypeName (.vector Programs.cppString) ≠ "java.util.List<String>".toList := by
  refine ⟨rfl, ?_, ?_, ?_⟩
  · show "IntVector".toList ≠ "things123".toList
    decide +kernel
  · decide +kernel
  · decide +kernel

/-! ### Dumped values (src/test/Pair.cxx, Single.cxx) -/

/-- **C86, Pair.string and Single.string** (Pair.cxx:13-17, Single.cxx:13-17), for all texts. -/
theorem C86_texts (l r : Str) : (Val.pair l r).dump = l ++ " : ".toList ++ r ∧ (Val.single r).dump = r := by
  exact ⟨rfl, rfl⟩

/-- **C86, Pair.int, .UP1, .UP2, Single.list** (Pair.cxx:21-58, Single.cxx:21-44). -/
theorem C86_values :
    (Val.pair "Left".toList (intStr 101)).dump = "Left : 101".toList
    ∧ (Val.pair "property".toList (doubleStr 0x4024000000000000)).dump = "property : 10.000000".toList
    ∧ (Val.pairVec "Vector".toList [.pair "first".toList (intStr 1), .pair "second".toList (intStr 2)]).dump
        = "Vector : { first : 1, second : 2 }".toList
    ∧ (Val.singleList ([1, 2, 3, 4, 5].map fun n => Val.single (intStr n))).dump = "[ 1, 2, 3, 4, 5 ]".toList := by
  decide +kernel

#print axioms C86_single_partial
#print axioms C86_double
#print axioms C86_many_types
#print axioms C86_char_pointer_violated
#print axioms C86_int_list_violated
#print axioms C86_single_lists_violated
#print axioms C86_ordering
#print axioms C86_two_inserts
#print axioms C86_generic_names
#print axioms C86_list_depends
#print axioms C86_map_depends1
#print axioms C86_map_depends2
#print axioms C86_makePrim
#print axioms C86_java_names
#print axioms C86_vectors_violated
#print axioms C86_texts
#print axioms C86_values

end Corda.Props
