import Verif.Lemmas.Listing
import Verif.Props.Ordering

/-
C78, C79: what is seen when a schema, a collection of types or a single type is printed.
-/

namespace Corda.Props
open Corda Spec

/-- **C78, for names on one line.** Reading the listing of a collection line by line gives the levels, numbered from
one, each with the names of its types in their order. -/
theorem C78_listing_partial (levels : List (List TypeNotation))
    (h : ∀ l ∈ levels, ∀ t ∈ l, OneLine t.name) :
    readListing (printLevels levels)
      = (levels.zipIdx 1).map fun p => (dec p.2, p.1.map TypeNotation.name) := by
  have h' : ∀ l ∈ levels.map (List.map TypeNotation.name), ∀ n ∈ l, OneLine n := by
    intro l hl n hn
    obtain ⟨l', hl', rfl⟩ := List.mem_map.mp hl
    obtain ⟨t, ht, rfl⟩ := List.mem_map.mp hn
    exact h l' hl' t ht
  unfold readListing printLevels
  rw [readLevels_from 0 _ h', List.zipIdx_map]
  simp

/-- Two collections with the same listing have the same names level by level. -/
theorem C78_same_listing_partial (a b : List (List TypeNotation))
    (ha : ∀ l ∈ a, ∀ t ∈ l, OneLine t.name) (hb : ∀ l ∈ b, ∀ t ∈ l, OneLine t.name)
    (h : printLevels a = printLevels b) :
    a.map (List.map TypeNotation.name) = b.map (List.map TypeNotation.name) := by
  have := congrArg (fun s => (readListing s).map Prod.snd) h
  simp only [C78_listing_partial a ha, C78_listing_partial b hb, List.map_map] at this
  have e : ∀ l : List (List TypeNotation), (l.zipIdx 1).map (Prod.snd ∘ fun p => (dec p.2, p.1.map TypeNotation.name))
      = l.map (List.map TypeNotation.name) := by
    intro l
    have : (Prod.snd ∘ fun p : List TypeNotation × Nat => (dec p.2, p.1.map TypeNotation.name))
        = List.map TypeNotation.name ∘ Prod.fst := rfl
    rw [this, ← List.map_map, List.zipIdx_map_fst]
  rwa [e, e] at this

/-- The listing of what was inserted shows every inserted name, as often as it was inserted, whatever answers the
types gave about each other. -/
theorem C78_inserted_partial (dep : TypeNotation → TypeNotation → Int) (hd : Answers dep) (xs : List TypeNotation)
    (h : ∀ t ∈ xs, OneLine t.name) :
    ∃ r, insertAll dep xs = some r
      ∧ ((readListing (printLevels r)).map Prod.snd).flatten.Perm (xs.map TypeNotation.name) := by
  obtain ⟨r, hr, hp⟩ := C11_permutation dep hd xs
  refine ⟨r, hr, ?_⟩
  have hl : ∀ l ∈ r, ∀ t ∈ l, OneLine t.name :=
    fun l hl t ht => h t (hp.mem_iff.mp (List.mem_flatten.mpr ⟨l, hl, ht⟩))
  rw [C78_listing_partial r hl, List.map_map]
  have : (Prod.snd ∘ fun p : List TypeNotation × Nat => (dec p.2, p.1.map TypeNotation.name))
      = List.map TypeNotation.name ∘ Prod.fst := rfl
  rw [this, ← List.map_map, List.zipIdx_map_fst, ← List.map_flatten]
  exact hp.map _

/-- A composite type of the given name, for the examples. -/
def typeNamed0 (n : String) : TypeNotation := .comp ⟨n.toList, [], [], [], []⟩

/-- **C78 fails for other names.** One type whose name contains a line feed is listed like two types. -/
theorem C78_listing_violated :
    printLevels [[typeNamed0 "a\n    * b"]] = printLevels [[typeNamed0 "a", typeNamed0 "b"]]
    ∧ ([[typeNamed0 "a\n    * b"]] : List (List TypeNotation)) ≠ [[typeNamed0 "a", typeNamed0 "b"]] := by
  decide +kernel

/-! The listings the repository's tests expect (libs/amqp/src/test/Map.cxx). -/

/-- A list or a map as the tests make them. -/
def testRestricted (n : String) (k : RKind) : TypeNotation := .restr ⟨n.toList, [], [], [], k⟩

def testList : TypeNotation := testRestricted "java.util.List<net.corda.eee>" (.list "net.corda.eee".toList)
def testMap : TypeNotation :=
  testRestricted "java.util.Map<int, java.util.List<net.corda.eee>>"
    (.map "int".toList "java.util.List<net.corda.eee>".toList)
def testEnum : TypeNotation := testRestricted "net.corda.eee" (.enum ["a".toList, "b".toList])

/-- The three types in all six orders of insertion. -/
example : ∀ xs ∈ [[testList, testMap, testEnum], [testList, testEnum, testMap], [testMap, testList, testEnum],
      [testMap, testEnum, testList], [testEnum, testList, testMap], [testEnum, testMap, testList]],
    printLevels <$> insertAllR TypeNotation.dependsOn xs
      = .ok ("level 1\n    * net.corda.eee\n\nlevel 2\n    * java.util.List<net.corda.eee>\n\nlevel 3\n"
          ++ "    * java.util.Map<int, java.util.List<net.corda.eee>>\n\n").toList := by
  decide +kernel

example : readListing (printLevels [[testEnum], [testList, testMap]])
    = [("1".toList, ["net.corda.eee".toList]),
       ("2".toList, ["java.util.List<net.corda.eee>".toList,
          "java.util.Map<int, java.util.List<net.corda.eee>>".toList])] := by
  decide +kernel

/-! ### C79 -/

/-- **C79, schemas.** Printing a schema, or an envelope with it, gives one line per type in the order of the schema:
the name, and 0 for a composite, 1 for a restricted type. -/
theorem C79_schema_partial (types : List (List TypeNotation))
    (h : ∀ l ∈ types, ∀ t ∈ l, OneLine t.name) :
    linesOf (printSchema types)
      = types.flatten.map (fun t => t.name ++ [' ', match t with | .comp _ => '0' | .restr _ => '1']) ++ [[]] := by
  have e : printSchema types
      = (types.flatten.map (fun t => t.name ++ [' ', t.kindDigit])).flatMap (fun l => l ++ ['\n']) ++ [] := by
    clear h
    induction types with
    | nil => rfl
    | cons l ls ih =>
      simp only [printSchema, List.flatMap_cons, List.flatten_cons, List.map_append, List.flatMap_append,
        List.append_nil, List.flatMap_map, List.append_assoc, List.cons_append, List.nil_append] at ih ⊢
      rw [ih]
  rw [e, linesOf_lines]
  · rfl
  · intro l hl
    obtain ⟨t, ht, rfl⟩ := List.mem_map.mp hl
    obtain ⟨l', hl', ht'⟩ := List.mem_flatten.mp ht
    simp only [List.mem_append, not_or]
    refine ⟨h l' hl' t ht', ?_⟩
    cases t <;> simp [TypeNotation.kindDigit]

/-- The line a field is shown on. -/
def fieldLine (f : Field) : Str :=
  f.name ++ " : ".toList ++ f.type ++ " : [".toList ++ f.requires.flatten ++ "]".toList

/-- Nothing a composite type shows contains a line feed. -/
def OneLineComposite (c : Composite) : Prop :=
  OneLine c.name ∧ OneLine c.label ∧ OneLine c.descriptor
  ∧ ∀ f ∈ c.fields, OneLine f.name ∧ OneLine f.type ∧ ∀ r ∈ f.requires, OneLine r

theorem fieldLine_oneLine (f : Field) (h : OneLine f.name ∧ OneLine f.type ∧ ∀ r ∈ f.requires, OneLine r) :
    '\n' ∉ fieldLine f := by
  obtain ⟨h1, h2, h3⟩ := h
  have h4 : '\n' ∉ f.requires.flatten := by
    intro hm
    obtain ⟨r, hr, hc⟩ := List.mem_flatten.mp hm
    exact h3 r hr hc
  unfold OneLine at h1 h2
  simp [fieldLine, h1, h2]
  intro r hr
  exact h3 r hr

theorem columns_fields (head : Str) (hh : head.length = 13) (hn : '\n' ∉ head) (fs : List Field)
    (h : ∀ f ∈ fs, '\n' ∉ fieldLine f) :
    columns (head ++ fs.flatMap (fun f => printField f ++ pad13)) = fs.map fieldLine ++ [[]] := by
  induction fs generalizing head with
  | nil =>
    simp only [List.flatMap_nil, List.append_nil, List.map_nil, List.nil_append, columns, linesOf_last hn,
      List.map_cons]
    rw [List.drop_of_length_le (by omega)]
  | cons f fs ih =>
    have e : head ++ (f :: fs).flatMap (fun f => printField f ++ pad13)
        = (head ++ fieldLine f) ++ '\n' :: (pad13 ++ fs.flatMap (fun f => printField f ++ pad13)) := by
      simp [printField, fieldLine, fieldSep, fieldOpen]
    have hl : '\n' ∉ head ++ fieldLine f := by
      rw [List.mem_append, not_or]
      exact ⟨hn, h f (by simp)⟩
    have := ih pad13 rfl (by decide) (fun g hg => h g (by simp [hg]))
    unfold columns at this ⊢
    rw [e, linesOf_line hl, List.map_cons, this, List.drop_append, hh]
    simp [List.drop_of_length_le (Nat.le_of_eq hh)]

theorem columns_line (head a t : Str) (hh : head.length = 13) (hn : '\n' ∉ head) (ha : OneLine a) :
    columns (head ++ a ++ '\n' :: t) = a :: columns t := by
  have hl : '\n' ∉ head ++ a := by
    rw [List.mem_append, not_or]
    exact ⟨hn, ha⟩
  unfold columns
  rw [linesOf_line hl, List.map_cons, List.drop_append, hh]
  simp [List.drop_of_length_le (Nat.le_of_eq hh)]

/-- **C79, composite types.** Behind the headings stand the name, the label, the descriptor and then the fields, one
per line with name, type and requirements; the last line is empty. -/
theorem C79_composite_partial (c : Composite) (h : OneLineComposite c) :
    columns (printComposite c) = [c.name, c.label, c.descriptor] ++ c.fields.map fieldLine ++ [[]] := by
  obtain ⟨h1, h2, h3, h4⟩ := h
  have e : printComposite c = nameHead ++ c.name ++ '\n' :: (labelHead ++ c.label ++ '\n' ::
      (descriptorHead ++ c.descriptor ++ '\n' ::
        (fieldsHead ++ c.fields.flatMap (fun f => printField f ++ pad13)))) := by
    simp [printComposite]
  rw [e, columns_line _ _ _ rfl (by decide) h1, columns_line _ _ _ rfl (by decide) h2,
    columns_line _ _ _ rfl (by decide) h3,
    columns_fields _ rfl (by decide) _ (fun f hf => fieldLine_oneLine f (h4 f hf))]
  rfl

/-- The heading of the last section of a restricted type. -/
def provides13 : Str := "provides   : ".toList

theorem provides_eq : providesHead = provides13 ++ ['['] := by decide

theorem pad14_eq : pad14 = pad13 ++ [' '] := by decide

/-- **C79, restricted types.** Behind the headings stand the name, the label, the descriptor, the kind, and between
brackets what the type provides, one per line. -/
theorem C79_restricted_partial (r : Restricted) (h1 : OneLine r.name) (h2 : OneLine r.label)
    (h3 : OneLine r.descriptor) (h4 : ∀ p ∈ r.provides, OneLine p) :
    columns (printRestricted r)
      = [r.name, r.label, r.descriptor,
          match r.kind with
          | .list _ => "list".toList | .map _ _ => "map".toList | .enum _ => "enum".toList
          | .array _ => "array".toList, "[".toList]
        ++ r.provides.map (fun p => ' ' :: p) ++ ["]".toList, []] := by
  have e : printRestricted r = nameHead ++ r.name ++ '\n' :: (labelHead ++ r.label ++ '\n' ::
      (descriptorHead ++ r.descriptor ++ '\n' :: (sourceHead ++ r.kind.word ++ '\n' ::
        (provides13 ++ ['['] ++ '\n' ::
        (r.provides.flatMap (fun p => (pad14 ++ p) ++ ['\n']) ++ (pad13 ++ [']'] ++ '\n' :: [])))))) := by
    unfold printRestricted
    rw [provides_eq]
    simp only [List.append_assoc, List.cons_append, List.nil_append]
  have hk : OneLine r.kind.word := by
    cases r.kind
    · exact (by decide : '\n' ∉ listWord)
    · exact (by decide : '\n' ∉ mapWord)
    · exact (by decide : '\n' ∉ arrayWord)
    · exact (by decide : '\n' ∉ enumWord)
  have hp : ∀ (ps : List Str) (t : Str), (∀ p ∈ ps, OneLine p) →
      columns (ps.flatMap (fun p => (pad14 ++ p) ++ ['\n']) ++ t) = ps.map (fun p => ' ' :: p) ++ columns t := by
    intro ps t
    induction ps with
    | nil => intro _; rfl
    | cons p ps ih =>
      intro hps
      have e : (p :: ps).flatMap (fun p => (pad14 ++ p) ++ ['\n']) ++ t
          = pad13 ++ (' ' :: p) ++ '\n' :: (ps.flatMap (fun p => (pad14 ++ p) ++ ['\n']) ++ t) := by
        rw [pad14_eq]
        simp only [List.flatMap_cons, List.append_assoc, List.cons_append, List.nil_append]
      have hone : OneLine (' ' :: p) := by
        have := hps p (by simp)
        unfold OneLine at this ⊢
        simp [this]
      rw [e, columns_line _ _ _ rfl (by decide) hone, ih (fun q hq => hps q (by simp [hq]))]
      rfl
  rw [e, columns_line _ _ _ rfl (by decide) h1, columns_line _ _ _ rfl (by decide) h2,
    columns_line _ _ _ rfl (by decide) h3, columns_line _ _ _ rfl (by decide) hk,
    columns_line _ _ _ rfl (by decide) (by unfold OneLine; decide), hp _ _ h4,
    columns_line _ _ _ rfl (by decide) (by unfold OneLine; decide)]
  have ek : r.kind.word = match r.kind with
      | .list _ => "list".toList | .map _ _ => "map".toList | .enum _ => "enum".toList
      | .array _ => "array".toList := by
    cases r.kind <;> rfl
  rw [ek]
  simp [columns, linesOf]

/-! The headings. -/

theorem headings_line (head a t : Str) (hh : head.length = 13) (hn : '\n' ∉ head) (ha : OneLine a) :
    headings (head ++ a ++ '\n' :: t) = head :: headings t := by
  have hl : '\n' ∉ head ++ a := by
    rw [List.mem_append, not_or]
    exact ⟨hn, ha⟩
  unfold headings
  rw [linesOf_line hl, List.map_cons, List.take_append, hh]
  simp [List.take_of_length_le (Nat.le_of_eq hh)]

theorem headings_fields (head : Str) (hh : head.length = 13) (hn : '\n' ∉ head) (fs : List Field)
    (h : ∀ f ∈ fs, '\n' ∉ fieldLine f) :
    headings (head ++ fs.flatMap (fun f => printField f ++ pad13))
      = head :: List.replicate fs.length (List.replicate 13 ' ') := by
  induction fs generalizing head with
  | nil =>
    simp only [List.flatMap_nil, List.append_nil, headings, linesOf_last hn, List.map_cons, List.map_nil,
      List.length_nil, List.replicate_zero]
    rw [List.take_of_length_le (Nat.le_of_eq hh)]
  | cons f fs ih =>
    have e : head ++ (f :: fs).flatMap (fun f => printField f ++ pad13)
        = head ++ fieldLine f ++ '\n' :: (pad13 ++ fs.flatMap (fun f => printField f ++ pad13)) := by
      simp [printField, fieldLine, fieldSep, fieldOpen]
    rw [e, headings_line _ _ _ hh hn (h f (by simp)), ih pad13 rfl (by decide) (fun g hg => h g (by simp [hg]))]
    rw [List.length_cons, List.replicate_succ]
    rfl

/-- **C79, the headings of a composite type.** In front of what `C79_composite_partial` says stand the names of the four sections,
and blanks in front of every line of the last but its first. -/
theorem C79_composite_headings_partial (c : Composite) (h : OneLineComposite c) :
    headings (printComposite c)
      = ["name       : ".toList, "label      : ".toList, "descriptor : ".toList, "fields     : ".toList]
        ++ List.replicate c.fields.length (List.replicate 13 ' ') := by
  obtain ⟨h1, h2, h3, h4⟩ := h
  have e : printComposite c = nameHead ++ c.name ++ '\n' :: (labelHead ++ c.label ++ '\n' ::
      (descriptorHead ++ c.descriptor ++ '\n' ::
        (fieldsHead ++ c.fields.flatMap (fun f => printField f ++ pad13)))) := by
    simp [printComposite]
  rw [e, headings_line _ _ _ rfl (by decide) h1, headings_line _ _ _ rfl (by decide) h2,
    headings_line _ _ _ rfl (by decide) h3,
    headings_fields _ rfl (by decide) _ (fun f hf => fieldLine_oneLine f (h4 f hf))]
  rfl

/-- **C79, the headings of a restricted type.** -/
theorem C79_restricted_headings_partial (r : Restricted) (h1 : OneLine r.name) (h2 : OneLine r.label)
    (h3 : OneLine r.descriptor) (h4 : ∀ p ∈ r.provides, OneLine p) :
    headings (printRestricted r)
      = ["name       : ".toList, "label      : ".toList, "descriptor : ".toList, "source     : ".toList,
          "provides   : ".toList]
        ++ List.replicate (r.provides.length + 1) (List.replicate 13 ' ') ++ [[]] := by
  have e : printRestricted r = nameHead ++ r.name ++ '\n' :: (labelHead ++ r.label ++ '\n' ::
      (descriptorHead ++ r.descriptor ++ '\n' :: (sourceHead ++ r.kind.word ++ '\n' ::
        (provides13 ++ ['['] ++ '\n' ::
        (r.provides.flatMap (fun p => (pad14 ++ p) ++ ['\n']) ++ (pad13 ++ [']'] ++ '\n' :: [])))))) := by
    unfold printRestricted
    rw [provides_eq]
    simp only [List.append_assoc, List.cons_append, List.nil_append]
  have hk : OneLine r.kind.word := by
    cases r.kind
    · exact (by decide : '\n' ∉ listWord)
    · exact (by decide : '\n' ∉ mapWord)
    · exact (by decide : '\n' ∉ arrayWord)
    · exact (by decide : '\n' ∉ enumWord)
  have hp : ∀ (ps : List Str) (t : Str), (∀ p ∈ ps, OneLine p) →
      headings (ps.flatMap (fun p => (pad14 ++ p) ++ ['\n']) ++ t)
        = List.replicate ps.length (List.replicate 13 ' ') ++ headings t := by
    intro ps t
    induction ps with
    | nil => intro _; rfl
    | cons p ps ih =>
      intro hps
      have e : (p :: ps).flatMap (fun p => (pad14 ++ p) ++ ['\n']) ++ t
          = pad13 ++ (' ' :: p) ++ '\n' :: (ps.flatMap (fun p => (pad14 ++ p) ++ ['\n']) ++ t) := by
        rw [pad14_eq]
        simp only [List.flatMap_cons, List.append_assoc, List.cons_append, List.nil_append]
      have hone : OneLine (' ' :: p) := by
        have := hps p (by simp)
        unfold OneLine at this ⊢
        simp [this]
      rw [e, headings_line _ _ _ rfl (by decide) hone, ih (fun q hq => hps q (by simp [hq])),
        List.length_cons, List.replicate_succ]
      rfl
  rw [e, headings_line _ _ _ rfl (by decide) h1, headings_line _ _ _ rfl (by decide) h2,
    headings_line _ _ _ rfl (by decide) h3, headings_line _ _ _ rfl (by decide) hk,
    headings_line _ _ _ rfl (by decide) (by unfold OneLine; decide), hp _ _ h4,
    headings_line _ _ _ rfl (by decide) (by unfold OneLine; decide),
    show List.replicate (r.provides.length + 1) (List.replicate 13 ' ')
      = List.replicate r.provides.length (List.replicate 13 ' ') ++ [List.replicate 13 ' '] from List.replicate_succ']
  simp only [List.append_assoc, List.cons_append, List.nil_append]
  rfl

/-- An enumeration with the given constants. -/
def testColours (cs : List Str) : Restricted := ⟨"Colour".toList, [], [], "fp".toList, .enum cs⟩

/-- A field with the given requirements. -/
def requiring (rs : List Str) (mandatory : Bool) : Field :=
  ⟨.composite, "x".toList, "*".toList, rs, [], [], mandatory, false, []⟩

/-- **C79 fails for "printing tells types apart".** Two enumerations with different constants print the same, and so
do two fields that differ in where one requirement ends and the next begins, or in being mandatory. -/
theorem C79_distinct_violated :
    printRestricted (testColours ["red".toList]) = printRestricted (testColours ["blue".toList])
    ∧ printField (requiring ["ab".toList, "c".toList] true) = printField (requiring ["a".toList, "bc".toList] false) := by
  decide +kernel

example : printComposite ⟨"net.corda.P".toList, "l".toList, [], "net.corda:fp".toList,
      [requiring ["a.I".toList] true, ⟨.primitive, "y".toList, "int".toList, [], [], [], true, false, []⟩]⟩
    = ("name       : net.corda.P\nlabel      : l\ndescriptor : net.corda:fp\nfields     : x : * : [a.I]\n"
        ++ "             y : int : []\n             ").toList := by
  decide +kernel

example : headings (printRestricted ⟨"Colour".toList, [], ["a.I".toList], "fp".toList, .enum []⟩)
    = ["name       : ".toList, "label      : ".toList, "descriptor : ".toList, "source     : ".toList,
        "provides   : ".toList, "             ".toList, "             ".toList, []] := by
  decide +kernel

example : columns (printRestricted ⟨"Colour".toList, [], ["a.I".toList], "fp".toList, .enum []⟩)
    = ["Colour".toList, [], "fp".toList, "enum".toList, "[".toList, " a.I".toList, "]".toList, []] := by
  decide +kernel

example : printSchema [[testEnum], [typeNamed0 "A"]] = "net.corda.eee 1\nA 0\n".toList := by decide +kernel

#print axioms C78_listing_partial
#print axioms C78_same_listing_partial
#print axioms C78_inserted_partial
#print axioms C78_listing_violated
#print axioms C79_schema_partial
#print axioms C79_composite_partial
#print axioms C79_restricted_partial
#print axioms C79_composite_headings_partial
#print axioms C79_restricted_headings_partial
#print axioms C79_distinct_violated

end Corda.Props
