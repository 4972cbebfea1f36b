import Verif.Props.Open
import Verif.Props.Readers
import Verif.Spec.Shown

/-
C38: inspecting what was written.
-/

namespace Corda.Props
open Corda Prog Spec

/-- Two strictly ascending lists with the same elements are the same. -/
theorem sorted_ext {α κ : Type} {lt : κ → κ → Bool} (ho : StrictOrder lt) (f : α → κ) :
    ∀ {l m : List α}, l.Pairwise (fun a b => lt (f a) (f b) = true) → m.Pairwise (fun a b => lt (f a) (f b) = true) →
      (∀ x, x ∈ l ↔ x ∈ m) → l = m
  | [], [], _, _, _ => rfl
  | [], b :: m, _, _, h => absurd ((h b).2 List.mem_cons_self) (by simp)
  | a :: l, [], _, _, h => absurd ((h a).1 List.mem_cons_self) (by simp)
  | a :: l, b :: m, hl, hm, h => by
    rw [List.pairwise_cons] at hl hm
    have asym : ∀ x y, lt (f x) (f y) = true → lt (f y) (f x) = true → False := fun x y h1 h2 => by
      have := ho.trans _ _ _ h1 h2
      rw [ho.irrefl] at this
      simp at this
    have hab : a = b := by
      rcases List.mem_cons.mp ((h a).1 List.mem_cons_self) with h1 | h1
      · exact h1
      · rcases List.mem_cons.mp ((h b).2 List.mem_cons_self) with h2 | h2
        · exact h2.symm
        · exact (asym a b (hl.1 b h2) (hm.1 a h1)).elim
    subst hab
    congr 1
    refine sorted_ext ho f hl.2 hm.2 fun x => ?_
    have irr : lt (f a) (f a) = true → False := by rw [ho.irrefl]; simp
    constructor
    · intro hx
      rcases List.mem_cons.mp ((h x).1 (List.mem_cons_of_mem _ hx)) with h1 | h1
      · subst h1; exact (irr (hl.1 _ hx)).elim
      · exact h1
    · intro hx
      rcases List.mem_cons.mp ((h x).2 (List.mem_cons_of_mem _ hx)) with h1 | h1
      · subst h1; exact (irr (hm.1 _ hx)).elim
      · exact h1

/-- The description of an object graph is determined by it. -/
theorem describes_unique {o : Obj} {ds es : List ClassDesc} (h : Describes o ds) (h' : Describes o es) : ds = es := by
  have half : ∀ {ds es : List ClassDesc}, Describes o ds → Describes o es → ∀ d ∈ ds, d ∈ es := by
    intro ds es h h' d hd
    have hk : d.key ∈ es.map ClassDesc.key := (h'.exact _).2 ((h.exact _).1 (List.mem_map_of_mem hd))
    obtain ⟨e, he, hke⟩ := List.mem_map.mp hk
    have : e = d := by
      obtain ⟨kd, bd⟩ := d
      obtain ⟨ke, be⟩ := e
      simp only at hke
      subst hke
      congr 1
      cases bd with
      | inr s =>
        have := (h.container _ hd s).1 rfl
        exact (h'.container _ he s).2 this
      | inl ps =>
        cases be with
        | inr s =>
          have := (h'.container _ he s).1 rfl
          have := (h.container _ hd s).2 this
          simp at this
        | inl qs =>
          congr 1
          refine sorted_ext strOrder PropDesc.name (h'.propsSorted _ he qs rfl) (h.propsSorted _ hd ps rfl) fun p => ?_
          rw [h.propsExact _ hd ps rfl p, h'.propsExact _ he qs rfl p]
    rw [← this]
    exact he
  exact sorted_ext keyOrder ClassDesc.key h.sorted h'.sorted fun x => ⟨half h h' x, half h' h x⟩

mutual

theorem shapes_classes : (o : Obj) → ∀ a ∈ shapes o, (a.1, none) ∈ classes o
  | .comp n f ms => by
    intro a ha
    rw [shapes] at ha
    rw [classes]
    rcases List.mem_cons.mp ha with rfl | ha
    · exact List.mem_cons_self
    · exact List.mem_cons_of_mem _ (shapes_classesMembers ms a ha)
  | .list n f es => by
    intro a ha
    rw [shapes] at ha
    rw [classes]
    exact List.mem_cons_of_mem _ (shapes_classesElems es a ha)
  | .map n f es => by
    intro a ha
    rw [shapes] at ha
    rw [classes]
    exact List.mem_cons_of_mem _ (shapes_classesEntries es a ha)

theorem shapes_classesMembers : (ms : List Member) → ∀ a ∈ shapesMembers ms, (a.1, none) ∈ classesMembers ms
  | [] => by intro a ha; simp [shapesMembers] at ha
  | m :: ms => by
    intro a ha
    rw [shapesMembers] at ha
    rw [classesMembers]
    rcases List.mem_append.mp ha with ha | ha
    · exact List.mem_append_left _ (shapes_classesMember m a ha)
    · exact List.mem_append_right _ (shapes_classesMembers ms a ha)

theorem shapes_classesMember : (m : Member) → ∀ a ∈ shapesMember m, (a.1, none) ∈ classesMember m
  | .obj n t ptr o => by
    intro a ha
    rw [shapesMember] at ha
    rw [classesMember]
    exact shapes_classes o a ha
  | .prim _ _ _ => by intro a ha; simp [shapesMember] at ha
  | .nullPrim _ _ => by intro a ha; simp [shapesMember] at ha
  | .nullObj _ _ => by intro a ha; simp [shapesMember] at ha

theorem shapes_classesElems : (es : List Elem) → ∀ a ∈ shapesElems es, (a.1, none) ∈ classesElems es
  | [] => by intro a ha; simp [shapesElems] at ha
  | e :: es => by
    intro a ha
    rw [shapesElems] at ha
    rw [classesElems]
    rcases List.mem_append.mp ha with ha | ha
    · exact List.mem_append_left _ (shapes_classesElem e a ha)
    · exact List.mem_append_right _ (shapes_classesElems es a ha)

theorem shapes_classesElem : (e : Elem) → ∀ a ∈ shapesElem e, (a.1, none) ∈ classesElem e
  | .obj o => by
    intro a ha
    rw [shapesElem] at ha
    rw [classesElem]
    exact shapes_classes o a ha
  | .prim _ => by intro a ha; simp [shapesElem] at ha
  | .nullPrim _ => by intro a ha; simp [shapesElem] at ha

theorem shapes_classesEntries : (es : List Entry) → ∀ a ∈ shapesEntries es, (a.1, none) ∈ classesEntries es
  | [] => by intro a ha; simp [shapesEntries] at ha
  | .mk k v :: es => by
    intro a ha
    rw [shapesEntries] at ha
    rw [classesEntries]
    rcases List.mem_append.mp ha with ha | ha
    · rcases List.mem_append.mp ha with ha | ha
      · exact List.mem_append_left _ (List.mem_append_left _ (shapes_classesElem k a ha))
      · exact List.mem_append_left _ (List.mem_append_right _ (shapes_classesElem v a ha))
    · exact List.mem_append_right _ (shapes_classesEntries es a ha)

end

/-- A property of one of these objects. -/
def InShapes (l : List ((Str × Str) × List PropDesc)) (e : (Str × Str) × PropDesc) : Prop := ∃ a ∈ l, a.1 = e.1 ∧ e.2 ∈ a.2

theorem inShapes_append {l m : List ((Str × Str) × List PropDesc)} {e : (Str × Str) × PropDesc} :
    InShapes (l ++ m) e ↔ InShapes l e ∨ InShapes m e := by
  unfold InShapes
  constructor
  · rintro ⟨a, ha, h⟩
    rcases List.mem_append.mp ha with ha | ha
    · exact .inl ⟨a, ha, h⟩
    · exact .inr ⟨a, ha, h⟩
  · rintro (⟨a, ha, h⟩ | ⟨a, ha, h⟩)
    · exact ⟨a, List.mem_append_left _ ha, h⟩
    · exact ⟨a, List.mem_append_right _ ha, h⟩

theorem inShapes_nil {e : (Str × Str) × PropDesc} : ¬ InShapes [] e := by rintro ⟨a, ha, -⟩; simp at ha

mutual

theorem mem_props : (o : Obj) → ∀ e, e ∈ props o ↔ InShapes (shapes o) e
  | .comp n f ms => by
    intro e
    rw [props, shapes, mem_propsMembers (n, f) ms e]
    constructor
    · rintro (⟨h1, h2⟩ | ⟨a, ha, h⟩)
      · exact ⟨_, List.mem_cons_self, h1.symm, h2⟩
      · exact ⟨a, List.mem_cons_of_mem _ ha, h⟩
    · rintro ⟨a, ha, h1, h2⟩
      rcases List.mem_cons.mp ha with rfl | ha
      · exact .inl ⟨h1.symm, h2⟩
      · exact .inr ⟨a, ha, h1, h2⟩
  | .list n f es => by
    intro e
    rw [props, shapes, mem_propsElems es e]
  | .map n f es => by
    intro e
    rw [props, shapes, mem_propsEntries es e]

theorem mem_propsMembers (key : Str × Str) : (ms : List Member) → ∀ e, e ∈ propsMembers key ms ↔
    (e.1 = key ∧ e.2 ∈ ms.map memberDesc) ∨ InShapes (shapesMembers ms) e
  | [] => by
    intro e
    rw [propsMembers, shapesMembers]
    simp [inShapes_nil]
  | m :: ms => by
    intro e
    rw [propsMembers, shapesMembers, List.mem_append, mem_propsMember key m e, mem_propsMembers key ms e, inShapes_append,
      List.map_cons, List.mem_cons]
    grind

theorem mem_propsMember (key : Str × Str) : (m : Member) → ∀ e, e ∈ propsMember key m ↔
    (e.1 = key ∧ e.2 = memberDesc m) ∨ InShapes (shapesMember m) e
  | .obj n t ptr o => by
    intro e
    rw [propsMember, shapesMember, List.mem_cons, mem_props o e]
    constructor
    · rintro (rfl | h)
      · exact .inl ⟨rfl, rfl⟩
      · exact .inr h
    · rintro (⟨h1, h2⟩ | h)
      · exact .inl (Prod.ext h1 h2)
      · exact .inr h
  | .prim n ptr v => by
    intro e
    rw [propsMember, shapesMember, List.mem_singleton]
    · simp only [inShapes_nil, or_false]; exact ⟨fun h => h ▸ ⟨rfl, rfl⟩, fun h => Prod.ext h.1 h.2⟩
    all_goals simp
  | .nullPrim n t => by
    intro e
    rw [propsMember, shapesMember, List.mem_singleton]
    · simp only [inShapes_nil, or_false]; exact ⟨fun h => h ▸ ⟨rfl, rfl⟩, fun h => Prod.ext h.1 h.2⟩
    all_goals simp
  | .nullObj n t => by
    intro e
    rw [propsMember, shapesMember, List.mem_singleton]
    · simp only [inShapes_nil, or_false]; exact ⟨fun h => h ▸ ⟨rfl, rfl⟩, fun h => Prod.ext h.1 h.2⟩
    all_goals simp

theorem mem_propsElems : (es : List Elem) → ∀ e, e ∈ propsElems es ↔ InShapes (shapesElems es) e
  | [] => by intro e; rw [propsElems, shapesElems]; simp [inShapes_nil]
  | x :: es => by
    intro e
    rw [propsElems, shapesElems, List.mem_append, inShapes_append, mem_propsElem x e, mem_propsElems es e]

theorem mem_propsElem : (x : Elem) → ∀ e, e ∈ propsElem x ↔ InShapes (shapesElem x) e
  | .obj o => by intro e; rw [propsElem, shapesElem, mem_props o e]
  | .prim _ => by intro e; rw [propsElem, shapesElem] <;> simp [inShapes_nil]
  | .nullPrim _ => by intro e; rw [propsElem, shapesElem] <;> simp [inShapes_nil]

theorem mem_propsEntries : (es : List Entry) → ∀ e, e ∈ propsEntries es ↔ InShapes (shapesEntries es) e
  | [] => by intro e; rw [propsEntries, shapesEntries]; simp [inShapes_nil]
  | .mk k v :: es => by
    intro e
    rw [propsEntries, shapesEntries, List.mem_append, List.mem_append, inShapes_append, inShapes_append,
      mem_propsElem k e, mem_propsElem v e, mem_propsEntries es e]

end

theorem lookup_isSome_of_mem {l : List ClassUse} {u : ClassUse} (h : u ∈ l) : ∃ k, l.lookup u.1 = some k := by
  cases hl : l.lookup u.1 with
  | some k => exact ⟨k, rfl⟩
  | none => exact absurd rfl ((lookup_none_iff l u.1).1 hl u h)

/-- The schema describes a class by exactly the properties its objects write. -/
theorem described_shape {o : Obj} {ds : List ClassDesc} (hd : Describes o ds) (hn : NoClash o) (hu : Uniform o)
    (ha : Alphabetical o) (a : (Str × Str) × List PropDesc) (hs : a ∈ shapes o) :
    ∃ d ∈ ds, d.key = a.1 ∧ d.body = .inl a.2 := by
  have hc := shapes_classes o a hs
  obtain ⟨d, hdm, hk⟩ := List.mem_map.mp ((hd.exact a.1).2 (List.mem_map.mpr ⟨_, hc, rfl⟩))
  refine ⟨d, hdm, hk, ?_⟩
  cases hb : d.body with
  | inr s =>
    have h1 := (hd.container d hdm s).1 hb
    have h2 := hn _ (mem_of_lookup _ _ _ h1) _ hc (by rw [hk])
    simp at h2
  | inl ps =>
    congr 1
    refine sorted_ext strOrder PropDesc.name (hd.propsSorted d hdm ps hb) (ha a hs) fun p => ?_
    rw [hd.propsExact d hdm ps hb p, hk]
    have hin : ∀ e ∈ props o, e.1 = a.1 → e.2 ∈ a.2 := by
      intro e he h1
      obtain ⟨b, hb, h2, h3⟩ := (mem_props o e).1 he
      rw [hu a hs b hb (by rw [h2, h1])]
      exact h3
    unfold firstProp
    constructor
    · intro h
      obtain ⟨e, he, heq⟩ := List.exists_of_findSome?_eq_some h
      by_cases hc : e.1 = a.1 ∧ e.2.name = p.name
      · rw [if_pos hc] at heq
        have : e.2 = p := by simpa using heq
        rw [← this]
        exact hin e he hc.1
      · rw [if_neg hc] at heq; simp at heq
    · intro h
      have hp : (a.1, p) ∈ props o := (mem_props o _).2 ⟨a, hs, rfl, h⟩
      have uniq : ∀ q ∈ a.2, q.name = p.name → q = p := by
        have hsorted := ha a hs
        intro q hq hqn
        obtain ⟨i, hi, rfl⟩ := List.mem_iff_getElem.mp hq
        obtain ⟨j, hj, rfl⟩ := List.mem_iff_getElem.mp h
        rcases Nat.lt_trichotomy i j with hij | hij | hij
        · have := List.pairwise_iff_getElem.mp hsorted i j hi hj hij
          rw [hqn, strLt_irrefl] at this
          simp at this
        · subst hij; rfl
        · have := List.pairwise_iff_getElem.mp hsorted j i hj hi hij
          rw [hqn, strLt_irrefl] at this
          simp at this
      cases hf : (props o).findSome? (fun e => if e.1 = a.1 ∧ e.2.name = p.name then some e.2 else none) with
      | none =>
        have := List.findSome?_eq_none_iff.mp hf _ hp
        simp at this
      | some q =>
        obtain ⟨e, he, heq⟩ := List.exists_of_findSome?_eq_some hf
        by_cases hc : e.1 = a.1 ∧ e.2.name = p.name
        · rw [if_pos hc] at heq
          have heq : e.2 = q := by simpa using heq
          rw [← heq, uniq e.2 (hin e he hc.1) hc.2]
        · rw [if_neg hc] at heq; simp at heq

/-- What is constructed for a property. -/
theorem field_made {p : PropDesc} {f : Field} (h : (propField p).make = .ok f) (hp : PlainField f) :
    f.name = p.name ∧ ∃ t, p.declared = some t ∧ f.resolvedType = .ok t := by
  have hstar : isArray "*".toList = .ok false := by decide +kernel
  have hsp : ∀ t, typeIsPrimitive t = true → t ≠ "*".toList := by rintro t ht rfl; revert ht; decide +kernel
  unfold FieldDesc.make propField Field.make at h
  simp only at h
  unfold PropDesc.declared
  split at h
  · rename_i hpr
    simp only [Res.pure_eq, Res.ok.injEq] at h; subst h
    exact ⟨rfl, p.type, by rw [if_neg (hsp _ hpr)], rfl⟩
  · rw [Res.bind_eq, Res.bind_eq_ok] at h
    obtain ⟨arr, harr, h⟩ := h
    split at h
    · rename_i hat
      rw [Res.bind_eq, Res.bind_eq_ok] at h
      obtain ⟨sub, -, h⟩ := h
      simp only [Res.pure_eq, Res.ok.injEq] at h; subst h
      refine ⟨rfl, p.type, ?_, rfl⟩
      rw [if_neg]
      intro e
      rw [e, hstar] at harr
      simp only [Res.ok.injEq] at harr
      rw [← harr] at hat
      simp at hat
    · split at h
      · rename_i hst
        rw [if_pos hst]
        cases hr : p.requires with
        | nil =>
          rw [hr] at h
          simp only [Res.pure_eq, Res.ok.injEq] at h; subst h
          exact absurd rfl hp.notCustom
        | cons r rs =>
          rw [hr] at h
          simp only [Res.bind_eq, Res.bind_eq_ok] at h
          obtain ⟨c, -, h⟩ := h
          split at h
          · rw [Res.bind_eq_ok] at h
            obtain ⟨sub, -, h⟩ := h
            simp only [Res.pure_eq, Res.ok.injEq] at h; subst h
            exact ⟨rfl, r, rfl, rfl⟩
          · simp at h
      · rename_i hst
        rw [Res.bind_eq, Res.bind_eq_ok] at h
        obtain ⟨sub, -, h⟩ := h
        simp only [Res.pure_eq, Res.ok.injEq] at h; subst h
        exact ⟨rfl, p.type, by rw [if_neg hst], rfl⟩

/-- The schema has the class, with a field for each property, in that order. -/
def HasClass (ts : List TypeNotation) (a : (Str × Str) × List PropDesc) : Prop :=
  ∃ c : Composite, .comp c ∈ ts ∧ c.name = a.1.1 ∧ c.descriptor = a.1.2 ∧
    Each (fun (p : PropDesc) (f : Field) => f.name = p.name ∧ ∃ t, p.declared = some t ∧ f.resolvedType = .ok t) a.2 c.fields

theorem hasClass {ds : List ClassDesc} {ts : List TypeNotation} (hm : (ds.map classType).map TypeDesc.make = ts.map Res.ok)
    (hp : ∀ t ∈ ts, PlainType t) {d : ClassDesc} (hd : d ∈ ds) {ps : List PropDesc} (hb : d.body = .inl ps) :
    HasClass ts (d.key, ps) := by
  have : (classType d).make ∈ ts.map Res.ok := by
    rw [← hm]; exact List.mem_map_of_mem (List.mem_map_of_mem hd)
  obtain ⟨t, ht, hte0⟩ := List.mem_map.mp this
  have hte := hte0.symm
  clear hte0
  simp only [classType, hb, TypeDesc.make, Res.bind_eq_ok] at hte
  obtain ⟨fs, hfs0, hte⟩ := hte
  simp only [Res.ok.injEq] at hte
  subst hte
  refine ⟨_, ht, rfl, rfl, ?_⟩
  have hfs := inOrder_eq_ok _ _ hfs0
  have hpl := (hp _ ht).2 _ rfl
  simp only at hpl ⊢
  clear hm hp this ht hb hfs0
  induction ps generalizing fs with
  | nil =>
    cases fs with
    | nil => exact .nil
    | cons => simp at hfs
  | cons p ps ih =>
    cases fs with
    | nil => simp at hfs
    | cons f fs =>
      simp only [List.map_cons, List.cons.injEq] at hfs
      exact .cons (field_made hfs.1 (hpl f List.mem_cons_self)) (ih fs hfs.2 fun g hg => hpl g (List.mem_cons_of_mem _ hg))

theorem primVal_tree {v : Prim} (h : Prim.shows v) : valTree (primVal v) = primNode v := by
  cases v <;> simp only [Prim.shows] at h <;> rw [primVal, valTree] <;> rfl

mutual

theorem objVal_tree {ts : List TypeNotation} : (o : Obj) → Showable ts o → valTree (objVal o) = objTree o
  | .comp n f ms => by
    intro h
    rw [Showable] at h
    rw [objVal, valTree, objTree, membersVal_tree ms h]
    rfl
  | .list n f es => by
    intro h
    rw [Showable] at h
    obtain ⟨r, l, -, -, -, -, h⟩ := h
    rw [objVal, valTree, objTree, elemsVal_tree es h]
    rfl
  | .map n f es => by
    intro h
    rw [Showable] at h
    obtain ⟨r, k, v, -, -, -, -, h⟩ := h
    rw [objVal, valTree, objTree, entriesVal_tree es h]
    rfl

theorem membersVal_tree {ts : List TypeNotation} : (ms : List Member) → ShowableMembers ts ms →
    valTrees (memberVals ms) = memberTrees ms
  | [] => by intro _; rw [memberVals, valTrees, memberTrees]
  | m :: ms => by
    intro h
    rw [ShowableMembers] at h
    rw [memberVals, valTrees, memberTrees, memberVal_tree m h.1, membersVal_tree ms h.2]

theorem memberVal_tree {ts : List TypeNotation} : (m : Member) → ShowableMember ts m → valTree (memberVal m) = memberTree m
  | .prim n p v => by
    intro h
    rw [ShowableMember] at h
    rw [memberVal, memberTree, primVal_tree h]
  | .nullPrim n t => by
    intro h
    rw [ShowableMember] at h
    exact h.elim
  | .obj n t p o => by
    intro h
    rw [ShowableMember] at h
    rw [memberVal, memberTree, objVal_tree o h.2]
  | .nullObj n t => by intro _; rw [memberVal, memberTree, valTree]

theorem elemsVal_tree {ts : List TypeNotation} {l : Str} : (es : List Elem) → ShowableElems ts l es →
    valTrees (elemVals es) = elemTrees es
  | [] => by intro _; rw [elemVals, valTrees, elemTrees]
  | e :: es => by
    intro h
    rw [ShowableElems] at h
    rw [elemVals, valTrees, elemTrees, elemVal_tree e h.1, elemsVal_tree es h.2]

theorem elemVal_tree {ts : List TypeNotation} {l : Str} : (e : Elem) → ShowableElem ts l e → valTree (elemVal e) = elemTree e
  | .prim v => by
    intro h
    rw [ShowableElem] at h
    rw [elemVal, elemTree, primVal_tree h.2]
  | .nullPrim t => by
    intro h
    rw [ShowableElem] at h
    exact h.elim
  | .obj o => by
    intro h
    rw [ShowableElem] at h
    rw [elemVal, elemTree, objVal_tree o h.2]

theorem entriesVal_tree {ts : List TypeNotation} {k v : Str} : (es : List Entry) → ShowableEntries ts k v es →
    pairTrees (entryVals es) = entryTrees es
  | [] => by intro _; rw [entryVals, pairTrees, entryTrees]
  | .mk a b :: es => by
    intro h
    rw [ShowableEntries] at h
    rw [entryVals, pairTrees, entryTrees, elemVal_tree a h.1, elemVal_tree b h.2.1, entriesVal_tree es h.2.2]

end

theorem primVal_typed {ts : List TypeNotation} {v : Prim} (h : Prim.shows v) : Typed ts v.type.typeName (primVal v) := by
  cases v with
  | int n => exact .int n
  | string s => exact .str s
  | bool b => exact .bool b
  | double b => exact .double b
  | long n => exact .long n
  | float _ => exact h.elim
  | char _ => exact h.elim

/-- The name and value of a member belong to the field made for it. -/
def MemberTyped (ts : List TypeNotation) (m : Member) : Prop :=
  ∀ t, (memberDesc m).declared = some t → Typed ts t (memberVal m)

theorem memberVals_length (ms : List Member) : (memberVals ms).length = ms.length := by
  induction ms with
  | nil => rw [memberVals]; rfl
  | cons m ms ih => rw [memberVals]; simp [ih]

theorem memberDesc_name (m : Member) : (memberDesc m).name = memberName m := by
  cases m with
  | obj n t ptr o => simp only [memberDesc, memberName]; split <;> rfl
  | _ => rfl

/-- An object all of whose members fit their fields belongs to its class. -/
theorem comp_typed {ts : List TypeNotation} {n f : Str} {ms : List Member} (hc : HasClass ts ((n, f), ms.map memberDesc))
    (hm : ∀ m ∈ ms, MemberTyped ts m) : Typed ts n (.obj f (ms.map memberName) (memberVals ms)) := by
  obtain ⟨c, h1, h2, h3, h4⟩ := hc
  simp only at h2 h3 h4
  subst h2 h3
  have key : ∀ {ms : List Member} {fs : List Field},
      Each (fun (p : PropDesc) (f : Field) => f.name = p.name ∧ ∃ t, p.declared = some t ∧ f.resolvedType = .ok t)
        (ms.map memberDesc) fs → (∀ m ∈ ms, MemberTyped ts m) →
      ms.map memberName = fs.map Field.name ∧ (memberVals ms).length = fs.length ∧
      (∀ f v t, (f, v) ∈ fs.zip (memberVals ms) → f.resolvedType = .ok t → Typed ts t v) ∧
      (∀ f ∈ fs, ∃ t, f.resolvedType = .ok t) := by
    intro ms
    induction ms with
    | nil =>
      intro fs h _
      cases h
      simp [memberVals]
    | cons m ms ih =>
      intro fs h hm
      rw [List.map_cons] at h
      cases h with
      | cons hq h =>
        rename_i fd fs
        obtain ⟨i1, i2, i3, i4⟩ := ih h fun x hx => hm x (List.mem_cons_of_mem _ hx)
        obtain ⟨q1, t, q2, q3⟩ := hq
        rw [memberVals]
        refine ⟨by simp [i1, q1, memberDesc_name], by simp [i2], ?_, ?_⟩
        · intro g v u hz hu
          rw [List.zip_cons_cons, List.mem_cons] at hz
          rcases hz with hz | hz
          · obtain ⟨rfl, rfl⟩ := Prod.mk.injEq .. ▸ hz
            rw [q3, Res.ok.injEq] at hu
            subst hu
            exact hm m List.mem_cons_self _ q2
          · exact i3 g v u hz hu
        · intro g hg
          rcases List.mem_cons.mp hg with rfl | hg
          · exact ⟨t, q3⟩
          · exact i4 g hg
  obtain ⟨k1, k2, k3, k4⟩ := key h4 hm
  rw [k1]
  exact .obj c (memberVals ms) h1 k2 k3 k4

theorem declared_named {p : PropDesc} (h : p.type ≠ "*".toList) : p.declared = some p.type := by
  unfold PropDesc.declared; rw [if_neg h]

theorem declared_plain {n t u : Str} {m : Bool} (h : (PropDesc.mk n t [] m).declared = some u) : u = t := by
  by_cases ht : t = "*".toList
  · unfold PropDesc.declared at h
    rw [if_pos ht] at h
    simp at h
  · rw [declared_named ht] at h
    simpa using h.symm

theorem declared_obj {n t u : Str} {ptr : Bool} {o : Obj} (h : (memberDesc (.obj n t ptr o)).declared = some u) : u = t := by
  have e : memberDesc (.obj n t ptr o) = if !ptr && o.isContainer then ⟨n, "*".toList, [t], false⟩ else ⟨n, t, [], false⟩ := rfl
  rw [e] at h
  by_cases hc : (!ptr && o.isContainer) = true
  · rw [if_pos hc] at h
    unfold PropDesc.declared at h
    rw [if_pos rfl] at h
    simpa using h.symm
  · rw [if_neg hc] at h
    exact declared_plain h

mutual

theorem objVal_typed {ts : List TypeNotation} : (o : Obj) → (∀ a ∈ shapes o, HasClass ts a) → Showable ts o →
    Typed ts o.name (objVal o)
  | .comp n f ms => by
    intro hc h
    rw [Showable] at h
    rw [shapes] at hc
    rw [objVal]
    exact comp_typed (hc _ List.mem_cons_self) (members_typed ms (fun a ha => hc a (List.mem_cons_of_mem _ ha)) h)
  | .list n f es => by
    intro hc h
    rw [Showable] at h
    rw [shapes] at hc
    obtain ⟨r, l, h1, h2, h3, h4, h5⟩ := h
    rw [objVal]
    subst h3
    have : Typed ts r.name (.list r.descriptor (elemVals es)) := .list r l _ h1 h4 (elems_typed es hc h5)
    rw [h2] at this
    exact this
  | .map n f es => by
    intro hc h
    rw [Showable] at h
    rw [shapes] at hc
    obtain ⟨r, k, v, h1, h2, h3, h4, h5⟩ := h
    rw [objVal]
    subst h3
    obtain ⟨h6, h7⟩ := entries_typed es hc h5
    have : Typed ts r.name (.map r.descriptor (entryVals es)) := .map r k v _ h1 h4 h6 h7
    rw [h2] at this
    exact this

theorem members_typed {ts : List TypeNotation} : (ms : List Member) → (∀ a ∈ shapesMembers ms, HasClass ts a) →
    ShowableMembers ts ms → ∀ m ∈ ms, MemberTyped ts m
  | [] => by intro _ _ m hm; simp at hm
  | x :: ms => by
    intro hc h m hm
    rw [ShowableMembers] at h
    rw [shapesMembers] at hc
    rcases List.mem_cons.mp hm with e | hm
    · rw [e]
      exact member_typed x (fun a ha => hc a (List.mem_append_left _ ha)) h.1
    · exact members_typed ms (fun a ha => hc a (List.mem_append_right _ ha)) h.2 m hm

theorem member_typed {ts : List TypeNotation} : (m : Member) → (∀ a ∈ shapesMember m, HasClass ts a) →
    ShowableMember ts m → MemberTyped ts m
  | .prim n p v => by
    intro _ h t ht
    rw [ShowableMember] at h
    rw [memberVal]
    have := declared_plain (n := n) (t := v.type.typeName) (m := p) ht
    subst this
    exact primVal_typed h
  | .nullPrim n t => by
    intro _ h
    rw [ShowableMember] at h
    exact h.elim
  | .obj n t p o => by
    intro hc h u hu
    rw [ShowableMember] at h
    rw [shapesMember] at hc
    rw [memberVal, declared_obj hu, h.1]
    exact objVal_typed o hc h.2
  | .nullObj n t => by
    intro _ h u hu
    rw [ShowableMember] at h
    obtain ⟨c, h1, h2⟩ := h
    rw [memberVal]
    have := declared_plain (n := n) (t := t) (m := false) hu
    subst this h2
    exact .null c h1

theorem elems_typed {ts : List TypeNotation} {l : Str} : (es : List Elem) → (∀ a ∈ shapesElems es, HasClass ts a) →
    ShowableElems ts l es → ∀ v ∈ elemVals es, Typed ts l v
  | [] => by intro _ _ v hv; rw [elemVals] at hv; simp at hv
  | e :: es => by
    intro hc h v hv
    rw [ShowableElems] at h
    rw [shapesElems] at hc
    rw [elemVals] at hv
    rcases List.mem_cons.mp hv with rfl | hv
    · exact elem_typed e (fun a ha => hc a (List.mem_append_left _ ha)) h.1
    · exact elems_typed es (fun a ha => hc a (List.mem_append_right _ ha)) h.2 v hv

theorem elem_typed {ts : List TypeNotation} {l : Str} : (e : Elem) → (∀ a ∈ shapesElem e, HasClass ts a) →
    ShowableElem ts l e → Typed ts l (elemVal e)
  | .prim v => by
    intro _ h
    rw [ShowableElem] at h
    rw [elemVal, ← h.1]
    exact primVal_typed h.2
  | .nullPrim t => by
    intro _ h
    rw [ShowableElem] at h
    exact h.elim
  | .obj o => by
    intro hc h
    rw [ShowableElem] at h
    rw [shapesElem] at hc
    rw [elemVal, ← h.1]
    exact objVal_typed o hc h.2

theorem entries_typed {ts : List TypeNotation} {k v : Str} : (es : List Entry) → (∀ a ∈ shapesEntries es, HasClass ts a) →
    ShowableEntries ts k v es → (∀ e ∈ entryVals es, Typed ts k e.key) ∧ (∀ e ∈ entryVals es, Typed ts v e.value)
  | [] => by intro _ _; rw [entryVals]; simp
  | .mk a b :: es => by
    intro hc h
    rw [ShowableEntries] at h
    rw [shapesEntries] at hc
    rw [entryVals]
    obtain ⟨h1, h2⟩ := entries_typed es (fun a ha => hc a (List.mem_append_right _ ha)) h.2.2
    have ha := elem_typed a (fun x hx => hc x (List.mem_append_left _ (List.mem_append_left _ hx))) h.1
    have hb := elem_typed b (fun x hx => hc x (List.mem_append_left _ (List.mem_append_right _ hx))) h.2.1
    constructor
    · intro e he
      rcases List.mem_cons.mp he with rfl | he
      · exact ha
      · exact h1 e he
    · intro e he
      rcases List.mem_cons.mp he with rfl | he
      · exact hb
      · exact h2 e he

end

theorem classType_tree_eq (d : ClassDesc) : (classType d).tree = d.tree := by
  obtain ⟨k, b⟩ := d
  cases b with
  | inl ps =>
    simp only [classType, TypeDesc.tree, ClassDesc.tree, List.map_map]
    rfl
  | inr s => rfl

/-- **C38, what does hold.** Serialise an object graph in which every object writes its properties in alphabetical order,
all objects of a class write the same properties, nothing is declared as a type other than its own, no null primitive,
float or character occurs, and null objects are of a class that also occurs.  If its types make sense (`Sound`) and the
library puts them into an order in which each follows those it needs, then inspecting the blob shows each property's name
with that property's value, to any depth. -/
theorem C38_inspect_written_partial (leftFirst : Bool) (o : Obj) (n : Node) (hw : serialise o = .ok [n]) (hn : NoClash o)
    (hu : Uniform o) (ha : Alphabetical o) (ds : List ClassDesc) (hd : Describes o ds) (ts : List TypeNotation)
    (hm : (ds.map classType).map TypeDesc.make = ts.map Res.ok) (hs : Sound leftFirst ts) (hv : Showable ts o)
    (ls : List (List TypeNotation)) (hl : insertAllR TypeNotation.dependsOn ts = .ok ls)
    (ho : Ordered [publicKeyType] ls.flatten) (c : Cursor) (hc : c.cur = some n) :
    inspect leftFirst c = (.ok (parsedText (objVal o)), c) := by
  rcases serialise_eq o with ⟨es, he, -, h1⟩ | ⟨-, h1⟩ | ⟨-, h1⟩
  · have := describes_unique he hd
    subst this
    rw [h1] at hw
    simp only [Res.ok.injEq, List.cons.injEq, and_true] at hw
    subst hw
    have hcl : ∀ a ∈ shapes o, HasClass ts a := by
      intro a hx
      obtain ⟨d, hdm, hk, hb⟩ := described_shape hd hn hu ha a hx
      have := hasClass hm hs.plain hdm hb
      rw [hk] at this
      exact this
    have hdv : descriptorOf (objVal o) = some (fingerprint o) := by cases o <;> rw [objVal] <;> rfl
    refine C57_inspect leftFirst (es.map classType) ts hm hs ls hl ho o.name (objVal o) (objVal_typed o hcl hv)
      (fingerprint o) hdv _ ?_ c hc
    have hp : (es.map classType).map TypeDesc.proton = (es.map ClassDesc.tree).map fun n => [n] := by
      rw [List.map_map, List.map_map]
      exact List.map_congr_left fun d _ => by simp only [Function.comp, TypeDesc.proton_eq, classType_tree_eq]
    rw [hp, schemaProton_eq, envelopeProton_eq, objVal_tree o hv]
  · rw [h1] at hw; simp at hw
  · rw [h1] at hw; simp at hw

/-! There is no text for characters, so nothing that can be shown has a pointer to one. -/

mutual

theorem showable_prints {ts : List TypeNotation} : (o : Obj) → Showable ts o → NoCharPointers o
  | .comp n f ms => by rw [Showable, NoCharPointers]; exact showable_prints_members ms
  | .list n f es => by
    rw [Showable, NoCharPointers]
    rintro ⟨r, l, -, -, -, -, h⟩
    exact showable_prints_elems l es h
  | .map n f es => by
    rw [Showable, NoCharPointers]
    rintro ⟨r, k, v, -, -, -, -, h⟩
    exact showable_prints_entries k v es h

theorem showable_prints_members {ts : List TypeNotation} :
    (ms : List Member) → ShowableMembers ts ms → NoCharPointersMembers ms
  | [] => by rw [NoCharPointersMembers]; exact fun _ => trivial
  | m :: ms => by
    rw [ShowableMembers, NoCharPointersMembers]
    exact fun h => ⟨showable_prints_member m h.1, showable_prints_members ms h.2⟩

theorem showable_prints_member {ts : List TypeNotation} : (m : Member) → ShowableMember ts m → NoCharPointersMember m
  | .prim n ptr v => by
    rw [ShowableMember, NoCharPointersMember]
    cases v <;> simp [Prim.shows, Prim.type]
  | .nullPrim n t => by rw [ShowableMember]; exact False.elim
  | .obj n t ptr o => by rw [ShowableMember, NoCharPointersMember]; exact fun h => showable_prints o h.2
  | .nullObj n t => by rw [NoCharPointersMember]; exact fun _ => trivial

theorem showable_prints_elems {ts : List TypeNotation} (l : Str) :
    (es : List Elem) → ShowableElems ts l es → NoCharPointersElems es
  | [] => by rw [NoCharPointersElems]; exact fun _ => trivial
  | e :: es => by
    rw [ShowableElems, NoCharPointersElems]
    exact fun h => ⟨showable_prints_elem l e h.1, showable_prints_elems l es h.2⟩

theorem showable_prints_elem {ts : List TypeNotation} (l : Str) : (e : Elem) → ShowableElem ts l e → NoCharPointersElem e
  | .prim v => by rw [NoCharPointersElem]; exact fun _ => trivial
  | .nullPrim t => by rw [ShowableElem]; exact False.elim
  | .obj o => by rw [ShowableElem, NoCharPointersElem]; exact fun h => showable_prints o h.2

theorem showable_prints_entries {ts : List TypeNotation} (k v : Str) :
    (es : List Entry) → ShowableEntries ts k v es → NoCharPointersEntries es
  | [] => by rw [NoCharPointersEntries]; exact fun _ => trivial
  | .mk a b :: es => by
    rw [ShowableEntries, NoCharPointersEntries]
    exact fun h => ⟨showable_prints_elem k a h.1, showable_prints_elem v b h.2.1, showable_prints_entries k v es h.2.2⟩

end

/-! Objects of primitives: no assumption about the schema is left. -/

/-- The members of an object that writes only primitives: name, by pointer, value. -/
def primMembers (ps : List (Str × Bool × Prim)) : List Member := ps.map fun x => .prim x.1 x.2.1 x.2.2

theorem primMembers_classes (ps : List (Str × Bool × Prim)) :
    classesMembers (primMembers ps) = [] ∧ shapesMembers (primMembers ps) = [] := by
  induction ps with
  | nil => exact ⟨rfl, rfl⟩
  | cons p ps ih =>
    unfold primMembers at ih ⊢
    rw [List.map_cons, classesMembers, shapesMembers, classesMember, shapesMember, ih.1, ih.2]
    · exact ⟨rfl, rfl⟩
    all_goals simp

theorem primMembers_showable (ts : List TypeNotation) (ps : List (Str × Bool × Prim)) (h : ∀ x ∈ ps, Prim.shows x.2.2) :
    ShowableMembers ts (primMembers ps) := by
  induction ps with
  | nil => unfold primMembers; rw [List.map_nil, ShowableMembers]; trivial
  | cons p ps ih =>
    unfold primMembers at ih ⊢
    rw [List.map_cons, ShowableMembers, ShowableMember]
    exact ⟨h p List.mem_cons_self, ih fun x hx => h x (List.mem_cons_of_mem _ hx)⟩

theorem primMembers_vals (ps : List (Str × Bool × Prim)) : memberVals (primMembers ps) = ps.map fun x => primVal x.2.2 := by
  induction ps with
  | nil => unfold primMembers; rw [List.map_nil, memberVals]; rfl
  | cons p ps ih =>
    unfold primMembers at ih ⊢
    rw [List.map_cons, memberVals, memberVal, ih]
    rfl

/-- The field made for a primitive property. -/
def primField (x : Str × Bool × Prim) : Field := ⟨.primitive, x.1, x.2.2.type.typeName, [], [], [], x.2.1, false, []⟩

theorem primField_made (x : Str × Bool × Prim) (h : Prim.shows x.2.2) :
    (propField (memberDesc (.prim x.1 x.2.1 x.2.2))).make = .ok (primField x) := by
  have ht : ∀ p : Prim, Prim.shows p → typeIsPrimitive p.type.typeName = true := by
    intro p hp
    cases p with
    | float => exact hp.elim
    | char => exact hp.elim
    | int n => exact (by decide +kernel : typeIsPrimitive PrimType.int.typeName = true)
    | string n => exact (by decide +kernel : typeIsPrimitive PrimType.string.typeName = true)
    | bool n => exact (by decide +kernel : typeIsPrimitive PrimType.bool.typeName = true)
    | double n => exact (by decide +kernel : typeIsPrimitive PrimType.double.typeName = true)
    | long n => exact (by decide +kernel : typeIsPrimitive PrimType.long.typeName = true)
  unfold FieldDesc.make propField Field.make
  simp only [memberDesc, ht _ h, if_true]
  rfl

theorem shows_readable (p : Prim) (h : Prim.shows p) : p.type.typeName ∈ readable := by
  cases p with
  | float => exact h.elim
  | char => exact h.elim
  | int n => exact (by decide +kernel : PrimType.int.typeName ∈ readable)
  | string n => exact (by decide +kernel : PrimType.string.typeName ∈ readable)
  | bool n => exact (by decide +kernel : PrimType.bool.typeName ∈ readable)
  | double n => exact (by decide +kernel : PrimType.double.typeName ∈ readable)
  | long n => exact (by decide +kernel : PrimType.long.typeName ∈ readable)

theorem unique_key {ds : List ClassDesc} (h : (ds.map ClassDesc.key).Nodup) {d e : ClassDesc} (hd : d ∈ ds) (he : e ∈ ds)
    (hk : d.key = e.key) : d = e := by
  induction ds with
  | nil => simp at hd
  | cons x ds ih =>
    rw [List.map_cons, List.nodup_cons] at h
    rcases List.mem_cons.mp hd with h1 | h1 <;> rcases List.mem_cons.mp he with h2 | h2
    · rw [h1, h2]
    · exact absurd (List.mem_map.mpr ⟨e, h2, by rw [← hk, h1]⟩) h.1
    · exact absurd (List.mem_map.mpr ⟨d, h1, by rw [hk, h2]⟩) h.1
    · exact ih h.2 h1 h2

/-- **C38 for objects of primitives.** Any object, with any number of properties, that writes only integers, texts, truth
values and doubles, in the alphabetical order of their names, and whose class is not named like a primitive type or
`java.security.PublicKey`, is serialised to a blob whose inspection shows each property's name with its value. -/
theorem C38_inspect_flat (leftFirst : Bool) (n f : Str) (ps : List (Str × Bool × Prim)) (hn : n ∉ readable)
    (hk : n ≠ publicKeyType) (hp : ∀ x ∈ ps, Prim.shows x.2.2)
    (hs : ps.Pairwise fun a b => strLt a.1 b.1 = true) :
    ∃ node, serialise (.comp n f (primMembers ps)) = .ok [node] ∧ ∀ c : Cursor, c.cur = some node →
      inspect leftFirst c = (.ok ("{ Parsed : ".toList ++
        braces (ps.map fun x => colon x.1 (shown (primVal x.2.2))) ++ " }".toList), c) := by
  let o : Obj := .comp n f (primMembers ps)
  have hcl : classes o = [((n, f), none)] := by show classes (.comp n f _) = _; rw [classes, (primMembers_classes ps).1]
  have hsh : shapes o = [((n, f), (primMembers ps).map memberDesc)] := by
    show shapes (.comp n f _) = _; rw [shapes, (primMembers_classes ps).2]
  have hno : NoClash o := by
    intro a ha b hb _
    rw [hcl, List.mem_singleton] at ha hb
    rw [ha, hb]
  have hcp : NoCharPointers o := by
    show NoCharPointers (.comp n f _)
    rw [NoCharPointers]
    clear hcl hsh hno hs
    induction ps with
    | nil => simp [primMembers, NoCharPointersMembers]
    | cons x ps ih =>
      refine ⟨?_, ih fun y hy => hp y (List.mem_cons_of_mem _ hy)⟩
      have := hp x List.mem_cons_self
      obtain ⟨a, b, v⟩ := x
      show NoCharPointersMember (.prim a b v)
      rw [NoCharPointersMember]
      cases v <;> simp [Prim.shows, Prim.type] at this ⊢
  obtain ⟨ns, hns⟩ := C30_succeeds o hno hcp
  have hu : Uniform o := by
    intro a ha b hb _
    rw [hsh, List.mem_singleton] at ha hb
    rw [ha, hb]
  have hal : Alphabetical o := by
    intro a ha
    rw [hsh, List.mem_singleton] at ha
    subst ha
    simp only [primMembers, List.map_map, List.pairwise_map]
    exact hs
  rcases serialise_eq o with ⟨ds, hd, -, h1⟩ | ⟨-, h1⟩ | ⟨-, h1⟩
  · refine ⟨_, h1, fun c hc => ?_⟩
    obtain ⟨d, hdm, hdk, hdb⟩ := described_shape hd hno hu hal _ (by rw [hsh]; exact List.mem_singleton.mpr rfl)
    have hds : ds = [d] := by
      have hall : ∀ e ∈ ds, e = d := by
        intro e he
        have h2 := (hd.exact e.key).1 (List.mem_map_of_mem he)
        rw [hcl] at h2
        have hek : e.key = d.key := by rw [hdk]; simpa using h2
        exact unique_key hd.once he hdm hek
      refine sorted_ext keyOrder ClassDesc.key hd.sorted (List.pairwise_singleton _ _) fun x => ?_
      rw [List.mem_singleton]
      exact ⟨hall x, fun h => h ▸ hdm⟩
    let cT : Composite := ⟨n, [], [], f, ps.map primField⟩
    have hmake : (ds.map classType).map TypeDesc.make = [TypeNotation.comp cT].map Res.ok := by
      rw [hds]
      simp only [List.map_cons, List.map_nil, classType, hdb, hdk, TypeDesc.make]
      have : (((primMembers ps).map memberDesc).map propField).map FieldDesc.make = (ps.map primField).map Res.ok := by
        simp only [primMembers, List.map_map]
        exact List.map_congr_left fun x hx => primField_made x (hp x hx)
      rw [this, inOrder_ok]
      rfl
    have hplain : ∀ x ∈ ps, PlainField (primField x) := fun x _ => ⟨by simp [primField], ⟨_, rfl⟩, fun h => absurd rfl h⟩
    have hso : Sound leftFirst [TypeNotation.comp cT] := by
      refine ⟨?_, ?_, ?_, ?_, ?_⟩
      · intro t ht
        rw [List.mem_singleton] at ht
        subst ht
        refine ⟨hn, fun c hc g hg => ?_⟩
        simp only [TypeNotation.comp.injEq] at hc
        subst hc
        obtain ⟨x, hx, rfl⟩ := List.mem_map.mp hg
        exact hplain x hx
      · intro t ht
        rw [List.mem_singleton] at ht
        subst ht
        exact hk
      · intro a ha b hb _
        rw [List.mem_singleton] at ha hb
        rw [ha, hb]
      · intro a ha b hb _
        rw [List.mem_singleton] at ha hb
        rw [ha, hb]
      · intro r k v hr
        simp at hr
    have hfin := C38_inspect_written_partial leftFirst o _ h1 hno hu hal ds hd _ hmake hso
      (by show Showable _ (.comp n f _); rw [Showable]; exact primMembers_showable _ ps hp)
      [[.comp cT]] rfl
      ⟨.inr (by
        intro g hg
        obtain ⟨x, hx, rfl⟩ := List.mem_map.mp hg
        exact .inl (shows_readable _ (hp x hx))), trivial⟩ c hc
    rw [hfin]
    congr 2
    unfold parsedText
    congr 2
    show shown (objVal (.comp n f _)) = _
    rw [objVal, shown, shownNamed_eq, primMembers_vals]
    congr 1
    simp only [primMembers, List.map_map]
    clear hs hp hcl hsh hno hcp hns hu hal hd h1 hdm hdb hdk hds hmake hplain hso hfin hc
    induction ps with
    | nil => rfl
    | cons p ps ih => simp only [List.map_cons, List.zip_cons_cons, ih]; rfl
  · rw [h1] at hns; simp at hns
  · rw [h1] at hns; simp at hns

/-- An object that writes `b` and then `a`. -/
def backwards : Obj := .comp "net.Foo".toList "fpFoo".toList [.prim "b".toList false (.int 1), .prim "a".toList false (.int 2)]

/-- The blob an object is serialised to, opened. -/
def written (o : Obj) : Cursor :=
  match serialise o with
  | .ok [n] => Cursor.root n
  | _ => Cursor.empty

/-- **C38 is violated.** An object with `b = 1` and `a = 2`, written in that order, is shown with `a : 1` and `b : 2`. -/
theorem C38_inspect_written_violated :
    (inspect true (written backwards)).1 = .ok "{ Parsed : { a : 1, b : 2 } }".toList := by
  decide +kernel

/-- Written the other way round it is shown correctly. -/
example : (inspect true (written (.comp "net.Foo".toList "fpFoo".toList
    [.prim "a".toList false (.int 2), .prim "b".toList false (.int 1)]))).1 = .ok "{ Parsed : { a : 2, b : 1 } }".toList := by
  decide +kernel

/-- Nested objects and lists. -/
def nested : Obj := .comp "net.Out".toList "fpOut".toList
  [.obj "first".toList "net.In".toList false (.comp "net.In".toList "fpIn".toList [.prim "x".toList false (.int 1)]),
   .obj "many".toList "java.util.List<net.In>".toList false (.list "java.util.List<net.In>".toList "fpL".toList
     [.obj (.comp "net.In".toList "fpIn".toList [.prim "x".toList false (.int 2)]),
      .obj (.comp "net.In".toList "fpIn".toList [.prim "x".toList false (.int 3)])]),
   .nullObj "other".toList "net.In".toList]

example : (inspect true (written nested)).1 =
    .ok "{ Parsed : { first : { x : 1 }, many : [ { x : 2 }, { x : 3 } ], other : <<NULL>> } }".toList := by
  decide +kernel

end Corda.Props

#print axioms Corda.Props.C38_inspect_written_partial
#print axioms Corda.Props.C38_inspect_flat
#print axioms Corda.Props.C38_inspect_written_violated
