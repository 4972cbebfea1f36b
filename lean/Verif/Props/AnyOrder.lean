import Verif.Spec.AnyOrder
import Verif.Props.Shown
import Verif.Props.Writer

/-
C38 for object graphs whose classes write their properties in any order, if the types of the properties allow.
-/

namespace Corda.Props
open Corda Prog Spec

private def relabelled (names : Str × Str → Nat → Str) (a : (Str × Str) × List PropDesc) : (Str × Str) × List PropDesc :=
  (a.1, underNames (names a.1) 0 a.2)

private theorem isContainer_renamed (names : Str × Str → Nat → Str) (o : Obj) : (renamed names o).isContainer = o.isContainer := by
  cases o <;> rw [renamed] <;> rfl

private theorem memberDesc_renamed (names : Str × Str → Nat → Str) (n : Str) (m : Member) :
    memberDesc (renamedMember names n m) = { memberDesc m with name := n } := by
  cases m <;> rw [renamedMember] <;> simp only [memberDesc]
  rw [isContainer_renamed]
  split <;> rfl

mutual

private theorem same_object (names : Str × Str → Nat → Str) : (o : Obj) →
    shapes (renamed names o) = (shapes o).map (relabelled names) ∧ classes (renamed names o) = classes o
      ∧ objTree (renamed names o) = objTree o
  | .comp n f ms => by
    obtain ⟨h1, h2, h3, h4⟩ := same_members names (n, f) 0 ms
    rw [renamed, shapes, shapes, classes, classes, objTree, objTree, h1, h2, h3, h4]
    exact ⟨rfl, rfl, rfl⟩
  | .list n f es => by
    obtain ⟨h1, h2, h3⟩ := same_elems names es
    rw [renamed, shapes, shapes, classes, classes, objTree, objTree, h1, h2, h3]
    exact ⟨rfl, rfl, rfl⟩
  | .map n f es => by
    obtain ⟨h1, h2, h3⟩ := same_entries names es
    rw [renamed, shapes, shapes, classes, classes, objTree, objTree, h1, h2, h3]
    exact ⟨rfl, rfl, rfl⟩

private theorem same_members (names : Str × Str → Nat → Str) (k : Str × Str) (i : Nat) : (ms : List Member) →
    shapesMembers (renamedMembers names k i ms) = (shapesMembers ms).map (relabelled names)
      ∧ classesMembers (renamedMembers names k i ms) = classesMembers ms ∧ memberTrees (renamedMembers names k i ms) = memberTrees ms
      ∧ (renamedMembers names k i ms).map memberDesc = underNames (names k) i (ms.map memberDesc)
  | [] => by rw [renamedMembers]; exact ⟨rfl, rfl, rfl, rfl⟩
  | m :: ms => by
    obtain ⟨h1, h2, h3, h4⟩ := same_members names k (i + 1) ms
    obtain ⟨g1, g2, g3⟩ := same_member names (names k i) m
    rw [renamedMembers, shapesMembers, shapesMembers, classesMembers, classesMembers, memberTrees, memberTrees, h1, h2, h3, g1, g2, g3,
      List.map_append, List.map_cons, List.map_cons, h4, memberDesc_renamed, underNames]
    exact ⟨rfl, rfl, rfl, rfl⟩

private theorem same_member (names : Str × Str → Nat → Str) (n : Str) : (m : Member) →
    shapesMember (renamedMember names n m) = (shapesMember m).map (relabelled names)
      ∧ classesMember (renamedMember names n m) = classesMember m ∧ memberTree (renamedMember names n m) = memberTree m
  | .prim _ _ _ => by rw [renamedMember]; exact ⟨rfl, rfl, rfl⟩
  | .nullPrim _ _ => by rw [renamedMember]; exact ⟨rfl, rfl, rfl⟩
  | .nullObj _ _ => by rw [renamedMember]; exact ⟨rfl, rfl, rfl⟩
  | .obj _ _ _ o => by
    rw [renamedMember, shapesMember, shapesMember, classesMember, classesMember, memberTree, memberTree]
    exact same_object names o

private theorem same_elems (names : Str × Str → Nat → Str) : (es : List Elem) →
    shapesElems (renamedElems names es) = (shapesElems es).map (relabelled names)
      ∧ classesElems (renamedElems names es) = classesElems es ∧ elemTrees (renamedElems names es) = elemTrees es
  | [] => by rw [renamedElems]; exact ⟨rfl, rfl, rfl⟩
  | e :: es => by
    obtain ⟨h1, h2, h3⟩ := same_elems names es
    obtain ⟨g1, g2, g3⟩ := same_elem names e
    rw [renamedElems, shapesElems, shapesElems, classesElems, classesElems, elemTrees, elemTrees, h1, h2, h3, g1, g2, g3, List.map_append]
    exact ⟨rfl, rfl, rfl⟩

private theorem same_elem (names : Str × Str → Nat → Str) : (e : Elem) →
    shapesElem (renamedElem names e) = (shapesElem e).map (relabelled names)
      ∧ classesElem (renamedElem names e) = classesElem e ∧ elemTree (renamedElem names e) = elemTree e
  | .prim _ => by rw [renamedElem]; exact ⟨rfl, rfl, rfl⟩
  | .nullPrim _ => by rw [renamedElem]; exact ⟨rfl, rfl, rfl⟩
  | .obj o => by
    rw [renamedElem, shapesElem, shapesElem, classesElem, classesElem, elemTree, elemTree]
    exact same_object names o

private theorem same_entries (names : Str × Str → Nat → Str) : (es : List Entry) →
    shapesEntries (renamedEntries names es) = (shapesEntries es).map (relabelled names)
      ∧ classesEntries (renamedEntries names es) = classesEntries es ∧ entryTrees (renamedEntries names es) = entryTrees es
  | [] => by rw [renamedEntries]; exact ⟨rfl, rfl, rfl⟩
  | .mk k v :: es => by
    obtain ⟨h1, h2, h3⟩ := same_entries names es
    obtain ⟨g1, g2, g3⟩ := same_elem names k
    obtain ⟨f1, f2, f3⟩ := same_elem names v
    rw [renamedEntries, shapesEntries, shapesEntries, classesEntries, classesEntries, entryTrees, entryTrees, h1, h2, h3, g1, g2, g3, f1, f2, f3,
      List.map_append, List.map_append]
    exact ⟨rfl, rfl, rfl⟩

end

private theorem uniform_renamed {names : Str × Str → Nat → Str} {o : Obj} (hu : Uniform o) : Uniform (renamed names o) := by
  intro a ha b hb hk
  rw [(same_object names o).1] at ha hb
  obtain ⟨a, ha', rfl⟩ := List.mem_map.mp ha
  obtain ⟨b, hb', rfl⟩ := List.mem_map.mp hb
  have hk : a.1 = b.1 := hk
  have := hu a ha' b hb' hk
  simp only [relabelled, hk, this]

private theorem alphabetical_renamed {names : Str × Str → Nat → Str} {o : Obj} (h : NamedInOrder names o) : Alphabetical (renamed names o) := by
  intro a ha
  rw [(same_object names o).1] at ha
  obtain ⟨a, ha', rfl⟩ := List.mem_map.mp ha
  exact (h a ha').1

private theorem props_renamed {names : Str × Str → Nat → Str} {o : Obj} (h : NamedInOrder names o) (e : (Str × Str) × PropDesc) :
    e ∈ props (renamed names o) ↔ e ∈ props o := by
  rw [mem_props, mem_props, (same_object names o).1]
  constructor
  · rintro ⟨a, ha, h1, h2⟩
    obtain ⟨b, hb, rfl⟩ := List.mem_map.mp ha
    exact ⟨b, hb, h1, (h b hb).2.mem_iff.1 h2⟩
  · rintro ⟨b, hb, h1, h2⟩
    exact ⟨relabelled names b, List.mem_map_of_mem hb, h1, (h b hb).2.mem_iff.2 h2⟩

/-- A property is known by its class and name. -/
private theorem known {o : Obj} (hu : Uniform o) (ha : Alphabetical o) {d e : (Str × Str) × PropDesc} (hd : d ∈ props o) (he : e ∈ props o)
    (hk : d.1 = e.1) (hn : d.2.name = e.2.name) : d.2 = e.2 := by
  obtain ⟨a, hsa, a1, a2⟩ := (mem_props o d).1 hd
  obtain ⟨b, hsb, b1, b2⟩ := (mem_props o e).1 he
  have := hu a hsa b hsb (by rw [a1, b1, hk])
  rw [← this] at b2
  have hsorted := ha a hsa
  obtain ⟨i, hi, hie⟩ := List.mem_iff_getElem.mp a2
  obtain ⟨j, hj, hje⟩ := List.mem_iff_getElem.mp b2
  rcases Nat.lt_trichotomy i j with hij | hij | hij
  · have := List.pairwise_iff_getElem.mp hsorted i j hi hj hij
    rw [hie, hje, hn, strLt_irrefl] at this
    simp at this
  · subst hij; rw [← hie, hje]
  · have := List.pairwise_iff_getElem.mp hsorted j i hj hi hij
    rw [hie, hje, hn, strLt_irrefl] at this
    simp at this

private theorem firstProp_iff {ps : List ((Str × Str) × PropDesc)} (h : ∀ d ∈ ps, ∀ e ∈ ps, d.1 = e.1 → d.2.name = e.2.name → d.2 = e.2)
    (k : Str × Str) (p : PropDesc) : firstProp ps k p.name = some p ↔ (k, p) ∈ ps := by
  unfold firstProp
  constructor
  · intro hf
    obtain ⟨e, he, heq⟩ := List.exists_of_findSome?_eq_some hf
    by_cases hc : e.1 = k ∧ e.2.name = p.name
    · rw [if_pos hc] at heq
      have : e.2 = p := by simpa using heq
      rw [← this, ← hc.1]
      exact he
    · rw [if_neg hc] at heq; simp at heq
  · intro hp
    cases hf : ps.findSome? (fun e => if e.1 = k ∧ e.2.name = p.name then some e.2 else none) with
    | none =>
      have := List.findSome?_eq_none_iff.mp hf _ hp
      simp at this
    | some q =>
      obtain ⟨e, he, heq⟩ := List.exists_of_findSome?_eq_some hf
      by_cases hc : e.1 = k ∧ e.2.name = p.name
      · rw [if_pos hc] at heq
        have h1 : e.2 = q := by simpa using heq
        rw [← h1, h e he (k, p) hp hc.1 hc.2]
      · rw [if_neg hc] at heq; simp at heq

/-- **C38, written in any order: the blob.** If each class, in whatever order it writes its properties, writes a value of the type of its
alphabetically first property first, and so on, then the blob of an object graph is that of the graph with the names of the properties in
alphabetical order. -/
theorem C38_same_blob (names : Str × Str → Nat → Str) (o : Obj) (hn : NoClash o) (hc : NoCharPointers (renamed names o)) (hu : Uniform o)
    (hi : NamedInOrder names o) (n : Node) (hw : serialise o = .ok [n]) : serialise (renamed names o) = .ok [n] := by
  have hu' := uniform_renamed (names := names) hu
  have ha' := alphabetical_renamed hi
  have hcl := (same_object names o).2.1
  have hn' : NoClash (renamed names o) := by
    unfold NoClash
    rw [hcl]
    exact hn
  have hk : ∀ d ∈ props (renamed names o), ∀ e ∈ props (renamed names o), d.1 = e.1 → d.2.name = e.2.name → d.2 = e.2 :=
    fun d hd e he => known hu' ha' hd he
  have hk' : ∀ d ∈ props o, ∀ e ∈ props o, d.1 = e.1 → d.2.name = e.2.name → d.2 = e.2 :=
    fun d hd e he => known hu' ha' ((props_renamed hi d).2 hd) ((props_renamed hi e).2 he)
  obtain ⟨ns, hs⟩ := C30_succeeds _ hn' hc
  rcases serialise_eq o with ⟨ds, hd, -, h1⟩ | ⟨-, h1⟩ | ⟨-, h1⟩
  · rcases serialise_eq (renamed names o) with ⟨es, he, -, h2⟩ | ⟨-, h2⟩ | ⟨-, h2⟩
    · have : Describes (renamed names o) ds := by
        refine ⟨hd.sorted, hd.once, ?_, ?_, hd.propsSorted, hd.propsOnce, ?_⟩
        · rw [hcl]; exact hd.exact
        · rw [hcl]; exact hd.container
        · intro d hdm ps hb p
          rw [hd.propsExact d hdm ps hb p, firstProp_iff hk', firstProp_iff hk, props_renamed hi]
      rw [h2, describes_unique he this, (same_object names o).2.2, ← h1, hw]
    · rw [h2] at hs; simp at hs
    · rw [h2] at hs; simp at hs
  · rw [h1] at hw; simp at hw
  · rw [h1] at hw; simp at hw

/-- **C38, written in any order.** Of an object graph whose classes write their properties in any order, in the sense of `C38_same_blob`, the
inspector shows, for every nesting, the properties in alphabetical order of their names with the values in the order of writing. -/
theorem C38_any_order (leftFirst : Bool) (names : Str × Str → Nat → Str) (o : Obj) (n : Node) (hw : serialise o = .ok [n]) (hn : NoClash o)
    (hu : Uniform o) (hi : NamedInOrder names o) (ds : List ClassDesc) (hd : Describes (renamed names o) ds) (ts : List TypeNotation)
    (hm : (ds.map classType).map TypeDesc.make = ts.map Res.ok) (hs : Sound leftFirst ts) (hv : Showable ts (renamed names o))
    (ls : List (List TypeNotation)) (hl : insertAllR TypeNotation.dependsOn ts = .ok ls)
    (ho : Ordered [publicKeyType] ls.flatten) (c : Cursor) (hc : c.cur = some n) :
    inspect leftFirst c = (.ok (parsedText (objVal (renamed names o))), c) := by
  have hn' : NoClash (renamed names o) := by
    unfold NoClash
    rw [(same_object names o).2.1]
    exact hn
  exact C38_inspect_written_partial leftFirst _ n (C38_same_blob names o hn (showable_prints _ hv) hu hi n hw) hn'
    (uniform_renamed hu) (alphabetical_renamed hi) ds hd ts hm hs hv ls hl ho c hc

/-! A line of two points, whose classes write `q` before `p` and `y` before `x`: the points are shown exchanged, and so are the numbers. -/

private def point (y x : Int) : Obj := .comp "net.Point".toList "fpP".toList [.prim "y".toList false (.int y), .prim "x".toList false (.int x)]

private def line : Obj := .comp "net.Line".toList "fpL".toList
  [.obj "q".toList "net.Point".toList false (point 1 2), .obj "p".toList "net.Point".toList false (point 3 4)]

private def lineNames : Str × Str → Nat → Str
  | (_, f), i => if f = "fpP".toList then (if i = 0 then "x".toList else "y".toList) else (if i = 0 then "p".toList else "q".toList)

example : ∀ b, (inspect b (written line)).1 = .ok "{ Parsed : { p : { x : 1, y : 2 }, q : { x : 3, y : 4 } } }".toList := by
  decide +kernel

example : ∀ b, (inspect b (written line)).1 = .ok (parsedText (objVal (renamed lineNames line))) := by
  decide +kernel

example : NamedInOrder lineNames line := by
  unfold NamedInOrder
  simp only [line, point, shapes, shapesMembers, shapesMember]
  decide +kernel

/-- If the types do not allow it, nothing is shown: a number is in the place of the point, and a point in that of the number. -/
example : (inspect true (written (.comp "net.Line".toList "fpL".toList
      [.obj "q".toList "net.Point".toList false (point 1 2), .prim "p".toList false (.int 3)]))).1.Throws := by
  decide +kernel

#print axioms C38_same_blob
#print axioms C38_any_order

end Corda.Props
