import Verif.Spec.Declared
import Verif.Props.SavedFiles

/-
C109: different objects are saved as different files.
-/

namespace Corda.Props
open Corda Corda.Spec Corda.Programs

private theorem prim_inj {t : PrimType} {v v' : Prim} (h : OfType t v) (h' : OfType t v') (e : primNode v = primNode v') : v = v' := by
  obtain ⟨h1, h2⟩ := h
  obtain ⟨h1', h2'⟩ := h'
  cases v <;> cases v' <;> simp [Prim.type] at h1 h1' <;> subst h1 <;> simp at h1' <;> simp [primNode] at e
  case char.char a b =>
    have := h2 a rfl
    have := h2' b rfl
    congr 1
    omega
  all_goals (congr 1)

private theorem prim_null (v : Prim) : primNode v ≠ .mk .null [] := by cases v <;> simp [primNode]

private theorem obj_null (o : Obj) : objTree o ≠ .mk .null [] := by cases o <;> simp [objTree, describedNode]

mutual

private theorem tree_inj (T : Declarations) : (o o' : Obj) → Declared T o → Declared T o' → objTree o = objTree o' → o = o'
  | .comp n f ms, o', h, h', e => by
    cases o' <;> simp only [Declared] at h h' <;> simp only [objTree, describedNode, Node.mk.injEq, List.cons.injEq, true_and, and_true, Atom.symbol.injEq] at e
    case comp n' f' ms' =>
      obtain ⟨ds, h1, h2⟩ := h
      obtain ⟨ds', h1', h2'⟩ := h'
      obtain ⟨rfl, e⟩ := e
      rw [h1] at h1'
      simp only [Option.some.injEq, ClassDecl.comp.injEq] at h1'
      obtain ⟨rfl, rfl⟩ := h1'
      rw [members_inj T ds ms ms' h2 h2' e]
    case list n' f' es' =>
      obtain ⟨ds, h1, h2⟩ := h
      obtain ⟨d', h1', h2'⟩ := h'
      obtain ⟨rfl, e⟩ := e
      rw [h1] at h1'
      cases h1'
    case map n' f' es' => exact absurd e.2.1 (by simp)
  | .list n f es, o', h, h', e => by
    cases o' <;> simp only [Declared] at h h' <;> simp only [objTree, describedNode, Node.mk.injEq, List.cons.injEq, true_and, and_true, Atom.symbol.injEq] at e
    case comp n' f' ms' =>
      obtain ⟨ds, h1, h2⟩ := h
      obtain ⟨ds', h1', h2'⟩ := h'
      obtain ⟨rfl, e⟩ := e
      rw [h1] at h1'
      cases h1'
    case list n' f' es' =>
      obtain ⟨d, h1, h2⟩ := h
      obtain ⟨d', h1', h2'⟩ := h'
      obtain ⟨rfl, e⟩ := e
      rw [h1] at h1'
      simp only [Option.some.injEq, ClassDecl.list.injEq] at h1'
      obtain ⟨rfl, rfl⟩ := h1'
      rw [elems_inj T d es es' h2 h2' e]
    case map n' f' es' => exact absurd e.2.1 (by simp)
  | .map n f es, o', h, h', e => by
    cases o' <;> simp only [Declared] at h h' <;> simp only [objTree, describedNode, Node.mk.injEq, List.cons.injEq, true_and, and_true, Atom.symbol.injEq] at e
    case comp n' f' ms' => exact absurd e.2.1 (by simp)
    case list n' f' es' => exact absurd e.2.1 (by simp)
    case map n' f' es' =>
      obtain ⟨k, v, h1, h2⟩ := h
      obtain ⟨k', v', h1', h2'⟩ := h'
      obtain ⟨rfl, e⟩ := e
      rw [h1] at h1'
      simp only [Option.some.injEq, ClassDecl.map.injEq] at h1'
      obtain ⟨rfl, rfl, rfl⟩ := h1'
      rw [entries_inj T k v es es' h2 h2' e]
termination_by structural x => x


private theorem member_inj (T : Declarations) (d : PropDecl) : (m m' : Member) → DeclaredMember T d m → DeclaredMember T d m' →
    memberTree m = memberTree m' → m = m'
  | .prim n ptr v, m', h, h', e => by
    cases d <;> cases m' <;> simp only [DeclaredMember] at h h' <;> simp only [memberTree] at e
    case prim.prim =>
      obtain ⟨rfl, rfl, h⟩ := h
      obtain ⟨rfl, rfl, h'⟩ := h'
      rw [prim_inj h h' e]
    case prim.nullPrim => exact absurd e (prim_null _)
  | .nullPrim n t, m', h, h', e => by
    cases d <;> cases m' <;> simp only [DeclaredMember] at h h' <;> simp only [memberTree] at e
    case prim.prim => exact absurd e.symm (prim_null _)
    case prim.nullPrim =>
      obtain ⟨rfl, rfl, h⟩ := h
      obtain ⟨rfl, rfl, h'⟩ := h'
      rfl
  | .obj n t ptr o, m', h, h', e => by
    cases d <;> cases m' <;> simp only [DeclaredMember] at h h' <;> simp only [memberTree] at e
    case obj.obj =>
      obtain ⟨rfl, rfl, rfl, h⟩ := h
      obtain ⟨rfl, rfl, rfl, h'⟩ := h'
      rw [tree_inj T o _ h h' e]
    case obj.nullObj => exact absurd e (obj_null _)
  | .nullObj n t, m', h, h', e => by
    cases d <;> cases m' <;> simp only [DeclaredMember] at h h' <;> simp only [memberTree] at e
    case obj.obj => exact absurd e.symm (obj_null _)
    case obj.nullObj =>
      obtain ⟨rfl, rfl, h⟩ := h
      obtain ⟨rfl, rfl, h'⟩ := h'
      rfl
termination_by structural x => x


private theorem members_inj (T : Declarations) : (ds : List PropDecl) → (ms ms' : List Member) → DeclaredMembers T ds ms → DeclaredMembers T ds ms' →
    memberTrees ms = memberTrees ms' → ms = ms'
  | _, [], [], _, _, _ => rfl
  | _, [], _ :: _, _, _, e => by simp [memberTrees] at e
  | _, _ :: _, [], _, _, e => by simp [memberTrees] at e
  | [], m :: ms, m' :: ms', h, _, _ => by simp [DeclaredMembers] at h
  | d :: ds, m :: ms, m' :: ms', h, h', e => by
    simp only [DeclaredMembers] at h h'
    simp only [memberTrees, List.cons.injEq] at e
    rw [member_inj T d m m' h.1 h'.1 e.1, members_inj T ds ms ms' h.2 h'.2 e.2]
termination_by structural _ ms => ms


private theorem elem_inj (T : Declarations) (d : ElemDecl) : (a a' : Elem) → DeclaredElem T d a → DeclaredElem T d a' → elemTree a = elemTree a' → a = a'
  | .prim v, a', h, h', e => by
    cases d <;> cases a' <;> simp only [DeclaredElem] at h h' <;> simp only [elemTree] at e
    case prim.prim => rw [prim_inj h h' e]
    case prim.nullPrim => exact absurd e (prim_null _)
  | .nullPrim t, a', h, h', e => by
    cases d <;> cases a' <;> simp only [DeclaredElem] at h h' <;> simp only [elemTree] at e
    case prim.prim => exact absurd e.symm (prim_null _)
    case prim.nullPrim => rw [← h, ← h']
  | .obj o, a', h, h', e => by
    cases d <;> cases a' <;> simp only [DeclaredElem] at h h' <;> simp only [elemTree] at e
    case obj.obj => rw [tree_inj T o _ h h' e]
termination_by structural x => x


private theorem elems_inj (T : Declarations) (d : ElemDecl) : (es es' : List Elem) → DeclaredElems T d es → DeclaredElems T d es' →
    elemTrees es = elemTrees es' → es = es'
  | [], [], _, _, _ => rfl
  | [], _ :: _, _, _, e => by simp [elemTrees] at e
  | _ :: _, [], _, _, e => by simp [elemTrees] at e
  | a :: es, a' :: es', h, h', e => by
    simp only [DeclaredElems] at h h'
    simp only [elemTrees, List.cons.injEq] at e
    rw [elem_inj T d a a' h.1 h'.1 e.1, elems_inj T d es es' h.2 h'.2 e.2]
termination_by structural x => x


private theorem entries_inj (T : Declarations) (k v : ElemDecl) : (es es' : List Entry) → DeclaredEntries T k v es → DeclaredEntries T k v es' →
    entryTrees es = entryTrees es' → es = es'
  | [], [], _, _, _ => rfl
  | [], .mk _ _ :: _, _, _, e => by simp [entryTrees] at e
  | .mk _ _ :: _, [], _, _, e => by simp [entryTrees] at e
  | .mk a b :: es, .mk a' b' :: es', h, h', e => by
    simp only [DeclaredEntries] at h h'
    simp only [entryTrees, List.cons.injEq] at e
    rw [elem_inj T k a a' h.1 h'.1 e.1, elem_inj T v b b' h.2.1 h'.2.1 e.2.1, entries_inj T k v es es' h.2.2 h'.2.2 e.2.2]
termination_by structural x => x

end

/-- **C109, partial.** If every class has a fingerprint of its own, two objects that are serialised into the same blob are the same.
Missing: classes that share a fingerprint. -/
theorem C109_blob_partial (T : Declarations) (o o' : Obj) (h : Declared T o) (h' : Declared T o') (ns : List Node) (hs : serialise o = .ok ns)
    (hs' : serialise o' = .ok ns) : o = o' := by
  obtain ⟨ds, h1, -⟩ := C32_order o ns hs
  obtain ⟨ds', h1', -⟩ := C32_order o' ns hs'
  rw [h1] at h1'
  simp only [envelopeTree, element, List.cons.injEq, Node.mk.injEq, true_and, and_true] at h1'
  exact tree_inj T o o' h h' h1'.1

/-- **C109, partial: files.** Whatever encodings are chosen, the files are then different. -/
theorem C109_file_partial (T : Declarations) (o o' : Obj) (h : Declared T o) (h' : Declared T o') (hne : o ≠ o') (n n' : Node)
    (hs : serialise o = .ok [n]) (hs' : serialise o' = .ok [n']) (bytes bytes' : List Byte) (he : Encodes bytes n) (he' : Encodes bytes' n') :
    (CordaBytes.ofBlob bytes).toFile ≠ (CordaBytes.ofBlob bytes').toFile := by
  intro e
  have e1 : bytes = bytes' := by simpa [CordaBytes.toFile, CordaBytes.ofBlob] using e
  subst e1
  have hd := C71_decoded he []
  rw [C71_decoded he' []] at hd
  simp only [Option.some.injEq, Prod.mk.injEq, true_and] at hd
  subst hd
  exact hne (C109_blob_partial T o o' h h' _ hs hs')

/-- **C109, partial: the programs that write.** -/
theorem C109_programs_partial (T : Declarations) (w : Compiled) (f : ProgFiles) (creates : Str → Bool) (made made' : List Str) (o o' : Obj) (path : Str)
    (hc : creates path = true) (h : Declared T o) (h' : Declared T o') (hf : ObjFits o) (hf' : ObjFits o') (n n' : Node)
    (hs : serialise o = .ok [n]) (hs' : serialise o' = .ok [n']) (hl : (Wire.encode n).length < 2 ^ 32) (hl' : (Wire.encode n').length < 2 ^ 32) :
    (writerMain w f (protonWorld creates) made o [path]).written = (writerMain w f (protonWorld creates) made' o' [path]).written ↔ o = o' := by
  constructor
  · intro e
    rw [C106_run w f _ made o path n hs, C106_run w f _ made' o' path n' hs'] at e
    have e1 : fileMade (protonWorld creates) path n = [(path, magic ++ 0 :: Wire.encode n)] := if_pos hc
    have e2 : fileMade (protonWorld creates) path n' = [(path, magic ++ 0 :: Wire.encode n')] := if_pos hc
    simp only [e1, e2, List.cons.injEq, Prod.mk.injEq, true_and, and_true, List.append_cancel_left_eq] at e
    have hd := (C107_encoded hf hs hl).2
    rw [e, (C107_encoded hf' hs' hl').2] at hd
    simp only [Option.some.injEq, Prod.mk.injEq, true_and] at hd
    subst hd
    exact C109_blob_partial T o o' h h' _ hs hs'
  · rintro rfl
    rw [C106_run w f _ made o path n hs, C106_run w f _ made' o path n hs]

private def pair (name fp a b : Str) (v w : Int) : Obj := .comp name fp [.prim a false (.int v), .prim b false (.int w)]

private theorem pair_serialised (name fp a b : Str) (v w : Int) : ∃ ns, serialise (pair name fp a b v w) = .ok ns :=
  (C30_outcome _).1.2 ⟨by simp [pair, NoCharPointers, NoCharPointersMembers, NoCharPointersMember],
    by simp [pair, props, propsMembers, propsMember, classes, classesMembers, classesMember, List.lookup]⟩

/-- **C109 fails** for classes that share a fingerprint: the schema has the properties in alphabetical order, the payload in the order they are
written.  Two numbers under two names, and under the same names swapped, make the same blob, always. -/
theorem C109_violated (name fp a b : Str) (hab : a ≠ b) (v w : Int) : ∃ ns,
    serialise (.comp name fp [.prim a false (.int v), .prim b false (.int w)]) = .ok ns
      ∧ serialise (.comp name fp [.prim b false (.int v), .prim a false (.int w)]) = .ok ns := by
  obtain ⟨ns, hs⟩ := pair_serialised name fp a b v w
  obtain ⟨ns', hs'⟩ := pair_serialised name fp b a v w
  obtain ⟨schema, h1, h2⟩ := C108_classes _ _ (fun k => by simp [pair, classes, classesMembers, classesMember]) (fun k n => by
    simp only [pair, props, propsMembers, propsMember, memberDesc, firstProp, List.cons_append, List.nil_append, List.findSome?_cons, List.findSome?_nil]
    by_cases hk : (name, fp) = k
    · by_cases ha : a = n
      · by_cases hb : b = n
        · exact absurd (ha.trans hb.symm) hab
        · simp [hk, ha, hb, Prim.type]
      · by_cases hb : b = n <;> simp [hk, ha, hb, Prim.type]
    · simp [hk]) ns ns' hs hs'
  refine ⟨ns, hs, hs'.trans ?_⟩
  rw [h1, h2]
  simp [pair, objTree, memberTrees, memberTree]

/-! ### Examples -/

/-- The classes of writer-test-01. -/
private def classes01 : Declarations := fun f =>
  if f = fDSM123 then some (.comp (javaTypeName (named nDSM)) [.prim mVal .int false, .prim mVal2 .int true]) else none

example (val : Int) : Declared classes01 (writer01 val) := by
  simp [writer01, classOf, Declared, classes01, DeclaredMembers, DeclaredMember, OfType, Prim.type]

/-- With a pointer that is null. -/
example : Declared classes01 (classOf nDSM fDSM123 [.prim mVal false (.int 1), .nullPrim mVal2 .int]) := by
  simp [classOf, Declared, classes01, DeclaredMembers, DeclaredMember, OfType, Prim.type]

/-- Another property is another class. -/
example : ¬ Declared classes01 (classOf nDSM fDSM123 [.prim mVal false (.long 1), .nullPrim mVal2 .int]) := by
  simp [classOf, Declared, classes01, DeclaredMembers, DeclaredMember, OfType, Prim.type]

/-- The classes of writer-test-12: a map from numbers to lists of objects that have a text and a list of numbers. -/
private def classes12 : Declarations := fun f =>
  if f = fInner then some (.comp (javaTypeName (named nInner)) [.prim mA .string false, .obj mB (javaTypeName (.vector cppInt)) false])
  else if f = f12i then some (.list (javaTypeName (.vector cppInt)) (.prim .int))
  else if f = f12v then some (.list (javaTypeName (.vector (named nInner))) .obj)
  else if f = f12m then some (.map (javaTypeName (.map cppInt (.vector (named nInner)))) (.prim .int) .obj)
  else if f = fDSM then some (.comp (javaTypeName (named nDSM)) [.obj mMap (javaTypeName (.map cppInt (.vector (named nInner)))) false])
  else none

private theorem declared12 (m : List (Int × List (Str × List Int))) : Declared classes12 (writer12 m) := by
  have t1 : classes12 fInner = some (.comp (javaTypeName (named nInner)) [.prim mA .string false, .obj mB (javaTypeName (.vector cppInt)) false]) :=
    if_pos rfl
  have t2 : classes12 f12i = some (.list (javaTypeName (.vector cppInt)) (.prim .int)) := by
    rw [classes12, if_neg (by decide), if_pos rfl]
  have t3 : classes12 f12v = some (.list (javaTypeName (.vector (named nInner))) .obj) := by
    rw [classes12, if_neg (by decide), if_neg (by decide), if_pos rfl]
  have t4 : classes12 f12m = some (.map (javaTypeName (.map cppInt (.vector (named nInner)))) (.prim .int) .obj) := by
    rw [classes12, if_neg (by decide), if_neg (by decide), if_neg (by decide), if_pos rfl]
  have t5 : classes12 fDSM = some (.comp (javaTypeName (named nDSM)) [.obj mMap (javaTypeName (.map cppInt (.vector (named nInner)))) false]) := by
    rw [classes12, if_neg (by decide), if_neg (by decide), if_neg (by decide), if_neg (by decide), if_pos rfl]
  have hn : ∀ l : List Int, DeclaredElems classes12 (.prim .int) (l.map fun n => .prim (.int n)) := by
    intro l
    induction l with
    | nil => trivial
    | cons x l ih => exact ⟨⟨rfl, fun c h => by cases h⟩, ih⟩
  have hi : ∀ l : List (Str × List Int), DeclaredElems classes12 .obj (l.map fun x => .obj (inner12 x)) := by
    intro l
    induction l with
    | nil => trivial
    | cons x l ih => exact ⟨⟨_, t1, ⟨rfl, rfl, rfl, fun c h => by cases h⟩, ⟨rfl, rfl, rfl, _, t2, hn _⟩, trivial⟩, ih⟩
  refine ⟨_, t5, ⟨rfl, rfl, rfl, _, _, t4, ?_⟩, trivial⟩
  induction m with
  | nil => trivial
  | cons x m ih => exact ⟨⟨rfl, fun c h => by cases h⟩, ⟨_, t3, hi _⟩, ih⟩

/-- writer-test-12 never saves the same for two maps. -/
example (m m' : List (Int × List (Str × List Int))) (ns : List Node) (h : serialise (writer12 m) = .ok ns) (h' : serialise (writer12 m') = .ok ns) :
    writer12 m = writer12 m' := C109_blob_partial classes12 _ _ (declared12 m) (declared12 m') ns h h'

/-- Two maps of which one has the entries of the other in another order are told apart. -/
example : writer12 [(1, []), (2, [])] ≠ writer12 [(2, []), (1, [])] := by
  simp [writer12, classOf, holds, mapOf]

#print axioms C109_blob_partial
#print axioms C109_file_partial
#print axioms C109_programs_partial
#print axioms C109_violated

end Corda.Props
