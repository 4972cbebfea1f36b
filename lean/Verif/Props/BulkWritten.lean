import Verif.Spec.BulkWritten
import Verif.Props.Bulk
import Verif.Props.SavedFiles
import Verif.Props.Shown
import Verif.Props.Open
import Verif.Props.Size

/-
C98 for files the library wrote.
-/

namespace Corda.Props
open Corda Corda.Spec Corda.Programs

private theorem inside_mk {m : Node} {a : Atom} {ks : List Node} (h : Inside m (.mk a ks)) : m = .mk a ks ∨ ∃ k ∈ ks, Inside m k := by
  cases h with
  | here => exact .inl rfl
  | deeper _ _ k hk h => exact .inr ⟨k, hk, h⟩

private theorem inside_leaf {m : Node} {a : Atom} (h : Inside m (.mk a [])) : m = .mk a [] := by
  rcases inside_mk h with h | ⟨k, hk, -⟩
  · exact h
  · simp at hk

/-- What there is in the payload of an object, with the composite objects `S` and the classes `C`. -/
private inductive InPayload (S : List ((Str × Str) × List PropDesc)) (C : List ClassUse) : Node → Prop
  | prim (v : Prim) : InPayload S C (primNode v)
  | null : InPayload S C (.mk .null [])
  | sym (f : Str) : InPayload S C (.mk (.symbol f) [])
  | comp (n f : Str) (ps : List PropDesc) (ks : List Node) (h : ((n, f), ps) ∈ S) (hl : ks.length = ps.length) :
      InPayload S C (describedNode f .list ks)
  | cont (n f src : Str) (a : Atom) (ks : List Node) (h : ((n, f), some src) ∈ C) : InPayload S C (describedNode f a ks)
  | list (ks : List Node) : InPayload S C (.mk .list ks)
  | map (ks : List Node) (n f : Str) (h : ((n, f), some "map".toList) ∈ C) (he : ks.length % 2 = 0) : InPayload S C (.mk .map ks)

private theorem prim_leaf (v : Prim) : ∃ a, primNode v = .mk a [] := by cases v <;> exact ⟨_, rfl⟩

private theorem inside_prim {S : List ((Str × Str) × List PropDesc)} {C : List ClassUse} (v : Prim) (m : Node) (h : Inside m (primNode v)) :
    InPayload S C m := by
  obtain ⟨a, ha⟩ := prim_leaf v
  rw [ha] at h
  rw [inside_leaf h, ← ha]
  exact .prim v

private theorem inside_null {S : List ((Str × Str) × List PropDesc)} {C : List ClassUse} (m : Node) (h : Inside m (.mk .null [])) :
    InPayload S C m := inside_leaf h ▸ .null

private theorem inside_described {S : List ((Str × Str) × List PropDesc)} {C : List ClassUse} {f : Str} {a : Atom} {ks : List Node} {m : Node}
    (h : Inside m (describedNode f a ks)) (h1 : InPayload S C (describedNode f a ks)) (h2 : InPayload S C (.mk a ks))
    (h3 : ∀ k ∈ ks, Inside m k → InPayload S C m) : InPayload S C m := by
  rcases inside_mk h with rfl | ⟨k, hk, h⟩
  · exact h1
  · simp only [List.mem_cons, List.not_mem_nil, or_false] at hk
    rcases hk with rfl | rfl
    · exact inside_leaf h ▸ .sym f
    · rcases inside_mk h with rfl | ⟨k, hk, h⟩
      · exact h2
      · exact h3 k hk h

private theorem memberTrees_len (ms : List Member) : (memberTrees ms).length = ms.length := by
  induction ms with
  | nil => rw [memberTrees]; rfl
  | cons m ms ih => rw [memberTrees, List.length_cons, ih, List.length_cons]

private theorem entryTrees_even (es : List Entry) : (entryTrees es).length % 2 = 0 := by
  induction es with
  | nil => rw [entryTrees]; rfl
  | cons e es ih =>
    obtain ⟨k, v⟩ := e
    rw [entryTrees, List.length_cons, List.length_cons]
    omega

mutual

private theorem inside_obj {S : List ((Str × Str) × List PropDesc)} {C : List ClassUse} : (o : Obj) → (∀ a ∈ shapes o, a ∈ S) → (∀ a ∈ classes o, a ∈ C) →
    ∀ m, Inside m (objTree o) → InPayload S C m
  | .comp n f ms => by
    intro hs hc m h
    rw [shapes] at hs
    rw [classes] at hc
    rw [objTree] at h
    exact inside_described h (.comp n f _ _ (hs _ List.mem_cons_self) (by rw [memberTrees_len, List.length_map])) (.list _)
      fun k hk h => inside_members ms (fun a ha => hs a (List.mem_cons_of_mem _ ha)) (fun a ha => hc a (List.mem_cons_of_mem _ ha)) m k hk h
  | .list n f es => by
    intro hs hc m h
    rw [shapes] at hs
    rw [classes] at hc
    rw [objTree] at h
    exact inside_described h (.cont n f _ _ _ (hc _ List.mem_cons_self)) (.list _)
      fun k hk h => inside_elems es hs (fun a ha => hc a (List.mem_cons_of_mem _ ha)) m k hk h
  | .map n f es => by
    intro hs hc m h
    rw [shapes] at hs
    rw [classes] at hc
    rw [objTree] at h
    exact inside_described h (.cont n f _ _ _ (hc _ List.mem_cons_self)) (.map _ n f (hc _ List.mem_cons_self) (entryTrees_even es))
      fun k hk h => inside_entries es hs (fun a ha => hc a (List.mem_cons_of_mem _ ha)) m k hk h

private theorem inside_member {S : List ((Str × Str) × List PropDesc)} {C : List ClassUse} : (x : Member) → (∀ a ∈ shapesMember x, a ∈ S) → (∀ a ∈ classesMember x, a ∈ C) →
    ∀ m, Inside m (memberTree x) → InPayload S C m
  | .prim _ _ v => by intro _ _ m h; rw [memberTree] at h; exact inside_prim v m h
  | .nullPrim _ _ => by intro _ _ m h; rw [memberTree] at h; exact inside_null m h
  | .nullObj _ _ => by intro _ _ m h; rw [memberTree] at h; exact inside_null m h
  | .obj _ _ _ o => by
    intro hs hc m h
    rw [shapesMember] at hs
    rw [classesMember] at hc
    rw [memberTree] at h
    exact inside_obj o hs hc m h

private theorem inside_members {S : List ((Str × Str) × List PropDesc)} {C : List ClassUse} : (xs : List Member) → (∀ a ∈ shapesMembers xs, a ∈ S) → (∀ a ∈ classesMembers xs, a ∈ C) →
    ∀ m, ∀ k ∈ memberTrees xs, Inside m k → InPayload S C m
  | [] => by intro _ _ m k hk; rw [memberTrees] at hk; simp at hk
  | x :: xs => by
    intro hs hc m k hk h
    rw [shapesMembers] at hs
    rw [classesMembers] at hc
    rw [memberTrees] at hk
    rcases List.mem_cons.mp hk with rfl | hk
    · exact inside_member x (fun a ha => hs a (List.mem_append_left _ ha)) (fun a ha => hc a (List.mem_append_left _ ha)) m h
    · exact inside_members xs (fun a ha => hs a (List.mem_append_right _ ha)) (fun a ha => hc a (List.mem_append_right _ ha)) m k hk h

private theorem inside_elem {S : List ((Str × Str) × List PropDesc)} {C : List ClassUse} : (x : Elem) → (∀ a ∈ shapesElem x, a ∈ S) → (∀ a ∈ classesElem x, a ∈ C) →
    ∀ m, Inside m (elemTree x) → InPayload S C m
  | .prim v => by intro _ _ m h; rw [elemTree] at h; exact inside_prim v m h
  | .nullPrim _ => by intro _ _ m h; rw [elemTree] at h; exact inside_null m h
  | .obj o => by
    intro hs hc m h
    rw [shapesElem] at hs
    rw [classesElem] at hc
    rw [elemTree] at h
    exact inside_obj o hs hc m h

private theorem inside_elems {S : List ((Str × Str) × List PropDesc)} {C : List ClassUse} : (xs : List Elem) → (∀ a ∈ shapesElems xs, a ∈ S) → (∀ a ∈ classesElems xs, a ∈ C) →
    ∀ m, ∀ k ∈ elemTrees xs, Inside m k → InPayload S C m
  | [] => by intro _ _ m k hk; rw [elemTrees] at hk; simp at hk
  | x :: xs => by
    intro hs hc m k hk h
    rw [shapesElems] at hs
    rw [classesElems] at hc
    rw [elemTrees] at hk
    rcases List.mem_cons.mp hk with rfl | hk
    · exact inside_elem x (fun a ha => hs a (List.mem_append_left _ ha)) (fun a ha => hc a (List.mem_append_left _ ha)) m h
    · exact inside_elems xs (fun a ha => hs a (List.mem_append_right _ ha)) (fun a ha => hc a (List.mem_append_right _ ha)) m k hk h

private theorem inside_entries {S : List ((Str × Str) × List PropDesc)} {C : List ClassUse} : (xs : List Entry) → (∀ a ∈ shapesEntries xs, a ∈ S) → (∀ a ∈ classesEntries xs, a ∈ C) →
    ∀ m, ∀ k ∈ entryTrees xs, Inside m k → InPayload S C m
  | [] => by intro _ _ m k hk; rw [entryTrees] at hk; simp at hk
  | .mk x y :: xs => by
    intro hs hc m k hk h
    rw [shapesEntries] at hs
    rw [classesEntries] at hc
    rw [entryTrees] at hk
    rcases List.mem_cons.mp hk with rfl | hk
    · exact inside_elem x (fun a ha => hs a (List.mem_append_left _ (List.mem_append_left _ ha)))
        (fun a ha => hc a (List.mem_append_left _ (List.mem_append_left _ ha))) m h
    · rcases List.mem_cons.mp hk with rfl | hk
      · exact inside_elem y (fun a ha => hs a (List.mem_append_left _ (List.mem_append_right _ ha)))
          (fun a ha => hc a (List.mem_append_left _ (List.mem_append_right _ ha))) m h
      · exact inside_entries xs (fun a ha => hs a (List.mem_append_right _ ha)) (fun a ha => hc a (List.mem_append_right _ ha)) m k hk h

end

/-! What there is beside the payload. -/

/-- Neither a map nor the number of an envelope. -/
private def Harmless (n : Node) : Prop := n.val ≠ .map ∧ n.val ≠ .ulong (cordaId 1)

private def AllHarmless (n : Node) : Prop := ∀ m, Inside m n → Harmless m

private theorem harmless_mk {a : Atom} {ks : List Node} (h1 : a ≠ .map) (h2 : a ≠ .ulong (cordaId 1)) (h : ∀ k ∈ ks, AllHarmless k) : AllHarmless (.mk a ks) := by
  intro m hm
  rcases inside_mk hm with rfl | ⟨k, hk, hm⟩
  · exact ⟨h1, h2⟩
  · exact h k hk m hm

private theorem harmless_str (s : Str) : AllHarmless (str s) := harmless_mk (by simp) (by simp) (by simp)
private theorem harmless_null : AllHarmless (.mk .null []) := harmless_mk (by simp) (by simp) (by simp)
private theorem harmless_bool (b : Bool) : AllHarmless (.mk (.bool b) []) := harmless_mk (by simp) (by simp) (by simp)
private theorem harmless_strs (ss : List Str) : AllHarmless (strList ss) := harmless_mk (by simp) (by simp) (by
  intro k hk
  obtain ⟨s, -, rfl⟩ := List.mem_map.mp hk
  exact harmless_str s)

private theorem harmless_element {k : Nat} (hk : k ≠ 1) {ps : List Node} (h : ∀ p ∈ ps, AllHarmless p) : AllHarmless (element k ps) := by
  refine harmless_mk (by simp) (by simp) ?_
  intro n hn
  simp only [List.mem_cons, List.not_mem_nil, or_false] at hn
  rcases hn with rfl | rfl
  · refine harmless_mk (by simp) ?_ (by simp)
    intro he
    have : cordaId k = cordaId 1 := by injection he
    unfold cordaId at this
    omega
  · exact harmless_mk (by simp) (by simp) h

private theorem harmless_object (f : Str) : AllHarmless (objectTree f) := harmless_element (by decide) (by
  intro p hp
  simp only [List.mem_cons, List.not_mem_nil, or_false] at hp
  rcases hp with rfl | rfl
  · exact harmless_mk (by simp) (by simp) (by simp)
  · exact harmless_null)

private theorem harmless_prop (d : PropDesc) : AllHarmless d.tree := harmless_element (by decide) (by
  intro p hp
  simp only [List.mem_cons, List.not_mem_nil, or_false] at hp
  rcases hp with rfl | rfl | rfl | rfl | rfl | rfl | rfl
  · exact harmless_str _
  · exact harmless_str _
  · exact harmless_strs _
  · exact harmless_str _
  · exact harmless_str _
  · exact harmless_bool _
  · exact harmless_bool _)

private theorem harmless_class (d : ClassDesc) : AllHarmless d.tree := by
  unfold ClassDesc.tree
  split
  · refine harmless_element (by decide) ?_
    intro p hp
    simp only [List.mem_cons, List.not_mem_nil, or_false] at hp
    rcases hp with rfl | rfl | rfl | rfl | rfl
    · exact harmless_str _
    · exact harmless_str _
    · exact harmless_strs _
    · exact harmless_object _
    · refine harmless_mk (by simp) (by simp) ?_
      intro k hk
      obtain ⟨q, -, rfl⟩ := List.mem_map.mp hk
      exact harmless_prop q
  · refine harmless_element (by decide) ?_
    intro p hp
    simp only [List.mem_cons, List.not_mem_nil, or_false] at hp
    rcases hp with rfl | rfl | rfl | rfl | rfl | rfl
    · exact harmless_str _
    · exact harmless_str _
    · exact harmless_strs _
    · exact harmless_str _
    · exact harmless_object _
    · exact harmless_mk (by simp) (by simp) (by simp)

private theorem harmless_schema (ds : List ClassDesc) : AllHarmless (schemaTree (ds.map ClassDesc.tree)) := harmless_element (by decide) (by
  intro p hp
  simp only [List.mem_cons, List.not_mem_nil, or_false] at hp
  subst hp
  refine harmless_mk (by simp) (by simp) ?_
  intro k hk
  obtain ⟨d, -, rfl⟩ := List.mem_map.mp hk
  exact harmless_class d)

/-- No number of an envelope is in a payload. -/
private theorem payload_number {S : List ((Str × Str) × List PropDesc)} {C : List ClassUse} {m : Node} (h : InPayload S C m) (x : Nat) : m.val ≠ .ulong x := by
  cases h with
  | prim v => cases v <;> simp [primNode, Node.val]
  | _ => simp [describedNode, Node.val]

/-- The blob of a written object. -/
private theorem written_is {o : Obj} {n : Node} (hw : serialise o = .ok [n]) :
    ∃ ds, Describes o ds ∧ n = envelopeTree (objTree o) (schemaTree (ds.map ClassDesc.tree)) (.mk .null []) := by
  rcases serialise_eq o with ⟨ds, hd, -, h1⟩ | ⟨-, h1⟩ | ⟨-, h1⟩
  · rw [h1] at hw
    simp only [Res.ok.injEq, List.cons.injEq, and_true] at hw
    exact ⟨ds, hd, hw.symm⟩
  · rw [h1] at hw; simp at hw
  · rw [h1] at hw; simp at hw

private theorem written_parts {o : Obj} {n : Node} (hw : serialise o = .ok [n]) :
    ∃ s, AllHarmless s ∧ n = envelopeTree (objTree o) s (.mk .null []) := by
  obtain ⟨ds, -, h⟩ := written_is hw
  exact ⟨_, harmless_schema ds, h⟩

private theorem objTree_described (o : Obj) : ∃ ks, objTree o = .mk .described ks := by
  cases o <;> exact ⟨_, by rw [objTree]; rfl⟩

private theorem written_lone {o : Obj} {n : Node} (hw : serialise o = .ok [n]) : NoLoneParts n := by
  obtain ⟨s, hs, rfl⟩ := written_parts hw
  intro a ks is p hi h1 h0
  have hu : Inside (.mk (.ulong (cordaId 1)) is) (.mk a ks) := inside_nth (n := .mk a ks) h0
  rcases inside_mk hi with he | ⟨k, hk, hi⟩
  · simp only [Node.mk.injEq] at he
    rw [he.2] at h1
    simp [nth] at h1
  simp only [List.mem_cons, List.not_mem_nil, or_false] at hk
  rcases hk with rfl | rfl
  · have he := inside_leaf hi
    simp only [Node.mk.injEq] at he
    rw [he.2] at h0
    simp [nth] at h0
  rcases inside_mk hi with he | ⟨k, hk, hi⟩
  · simp only [Node.mk.injEq] at he
    rw [he.2] at h0
    obtain ⟨ks', hk⟩ := objTree_described o
    simp [nth, hk] at h0
  simp only [List.mem_cons, List.not_mem_nil, or_false] at hk
  have hi' := inside_trans hu hi
  rcases hk with rfl | rfl | rfl
  · exact payload_number (inside_obj (S := shapes o) (C := classes o) o (fun _ h => h) (fun _ h => h) _ hi') _ rfl
  · exact (hs _ hi').2 rfl
  · exact (harmless_null _ hi').2 rfl

private theorem written_noMaps {o : Obj} {n : Node} (hw : serialise o = .ok [n]) (hm : WithoutMaps o) : NoMaps n := by
  obtain ⟨s, hs, rfl⟩ := written_parts hw
  intro ks hi
  rcases inside_mk hi with he | ⟨k, hk, hi⟩
  · simp at he
  simp only [List.mem_cons, List.not_mem_nil, or_false] at hk
  rcases hk with rfl | rfl
  · simpa using inside_leaf hi
  rcases inside_mk hi with he | ⟨k, hk, hi2⟩
  · simp at he
  simp only [List.mem_cons, List.not_mem_nil, or_false] at hk
  rcases hk with rfl | rfl | rfl
  · have := inside_obj (S := shapes o) (C := classes o) o (fun _ h => h) (fun _ h => h) _ hi2
    generalize he : Node.mk .map ks = m at this
    cases this with
    | prim v => cases v <;> simp [primNode] at he
    | map ks n f h _ => exact hm _ h rfl
    | _ => simp [describedNode] at he
  · exact (hs (.mk .map ks) hi2).1 rfl
  · exact (harmless_null (.mk .map ks) hi2).1 rfl

/-! Nothing is missing in the payload. -/

private theorem length_le {α : Type} [DecidableEq α] {a b : List α} (ha : a.Nodup) (h : ∀ x ∈ a, x ∈ b) : a.length ≤ b.length := by
  induction a generalizing b with
  | nil => simp
  | cons x a ih =>
    have hx := h x List.mem_cons_self
    have h1 := ih (b := b.erase x) (List.nodup_cons.mp ha).2 fun y hy => by
      have hne : y ≠ x := fun e => (List.nodup_cons.mp ha).1 (e ▸ hy)
      exact (List.mem_erase_of_ne hne).mpr (h y (List.mem_cons_of_mem _ hy))
    have h2 := List.length_erase_of_mem hx
    have h3 := List.length_pos_of_mem hx
    rw [List.length_cons]
    omega

private theorem lookup_only {κ α : Type} [BEq κ] [LawfulBEq κ] {m : List (κ × α)} {k : κ} {v : α} (h : (k, v) ∈ m) (hu : ∀ a ∈ m, a.1 = k → a.2 = v) :
    m.lookup k = some v := by
  induction m with
  | nil => cases h
  | cons a m ih =>
    obtain ⟨k', v'⟩ := a
    rw [List.lookup_cons]
    by_cases hk : k = k'
    · subst hk
      rw [beq_self_eq_true]
      exact congrArg some (hu _ List.mem_cons_self rfl)
    · rw [beq_false_of_ne hk]
      refine ih ?_ fun a ha => hu a (List.mem_cons_of_mem _ ha)
      rcases List.mem_cons.mp h with h | h
      · exact absurd (congrArg Prod.fst h) hk
      · exact h

/-- The class a composite type of the schema is made of. -/
private theorem comp_from {ds : List ClassDesc} {ts : List TypeNotation} (hm : (ds.map classType).map TypeDesc.make = ts.map Res.ok) {c : Composite}
    (hc : .comp c ∈ ts) : ∃ d ∈ ds, ∃ ps, d.body = .inl ps ∧ d.key.2 = c.descriptor ∧ c.fields.length = ps.length := by
  have : (Res.ok (.comp c) : Res TypeNotation) ∈ (ds.map classType).map TypeDesc.make := by
    rw [hm]; exact List.mem_map_of_mem hc
  rw [List.map_map] at this
  obtain ⟨d, hd, he⟩ := List.mem_map.mp this
  refine ⟨d, hd, ?_⟩
  simp only [Function.comp, classType] at he
  split at he
  · rename_i ps hb
    refine ⟨ps, hb, ?_⟩
    simp only [TypeDesc.make, Res.bind_eq_ok] at he
    obtain ⟨fs, hfs, he⟩ := he
    simp only [Res.ok.injEq, TypeNotation.comp.injEq] at he
    subst he
    refine ⟨rfl, ?_⟩
    have := congrArg List.length (inOrder_eq_ok _ _ hfs)
    simpa using this.symm
  · simp only [TypeDesc.make, Res.bind_eq_ok] at he
    obtain ⟨r, -, he⟩ := he
    simp at he

/-- All properties of a class are properties of every object of it. -/
private theorem props_of_all {o : Obj} {ds : List ClassDesc} (hd : Describes o ds) (hu : Uniform o) {d : ClassDesc} (hdm : d ∈ ds) {ps : List PropDesc}
    (hb : d.body = .inl ps) {qs : List PropDesc} (hq : (d.key, qs) ∈ shapes o) : ps.length ≤ qs.length := by
  have hn : ps.Nodup := by
    have := hd.propsOnce d hdm ps hb
    exact (List.pairwise_map.mp this).imp fun h e => h (congrArg _ e)
  refine length_le hn fun p hp => ?_
  have h := (hd.propsExact d hdm ps hb p).mp hp
  unfold firstProp at h
  obtain ⟨e, he, heq⟩ := List.exists_of_findSome?_eq_some h
  by_cases hc : e.1 = d.key ∧ e.2.name = p.name
  · rw [if_pos hc] at heq
    have hep : e.2 = p := by simpa using heq
    obtain ⟨b, hb, h2, h3⟩ := (mem_props o e).1 he
    have := hu b hb _ hq (by rw [h2, hc.1])
    simp only at this
    rw [← this, ← hep]
    exact h3
  · rw [if_neg hc] at heq; simp at heq

private theorem written_filled {o : Obj} {n : Node} (hw : serialise o = .ok [n]) (hu : Uniform o) (hf : OwnFingerprints o) : Filled n := by
  intro s d p he hp
  have he' : (Prog.readEnvelope ⟨[], some n, [], []⟩).1 = .ok (s, d) := by rw [C89_any _ n rfl]; exact he
  obtain ⟨-, ds, hd, ts, hm, hperm⟩ := C56_open_content o n hw _ rfl s d he'
  have hpay : p = objTree o := by
    obtain ⟨sc, -, rfl⟩ := written_parts hw
    simp [payloadIn, envelopeTree, element, nth, listParts, valueOf, kidsOf, Node.kids, Node.val] at hp
    exact hp.symm
  subst hpay
  have hin := inside_obj (S := shapes o) (C := classes o) o (fun _ h => h) (fun _ h => h)
  constructor
  · intro ks ns x c hi hx ht hl
    have hc : .comp c ∈ ts ∧ c.descriptor = x := by
      unfold typeWith at ht
      split at ht
      · rename_i u hfind
        simp only [Res.ok.injEq] at ht
        subst ht
        exact ⟨hperm.mem_iff.mp (List.mem_of_find?_eq_some hfind), by simpa [TypeNotation.descriptor] using List.find?_some hfind⟩
      · simp at ht
    obtain ⟨cd, hcd, ps, hb, hk, hlen⟩ := comp_from hm hc.1
    rw [hlen]
    obtain ⟨u, hcu, hu1⟩ := List.mem_map.mp ((hd.exact cd.key).mp (List.mem_map_of_mem hcd))
    have hsame : ∀ n v, ((n, x), v) ∈ classes o → (cd.key, u.2) = ((n, x), v) := by
      intro n v hv
      have := hf u hcu _ hv (by rw [hu1, hk, hc.2])
      rw [← this, ← hu1]
    have hP := hin _ hi
    generalize hg : Node.mk .described ks = m at hP
    cases hP with
    | comp n f qs ks' hq hql =>
      simp only [describedNode, Node.mk.injEq, true_and] at hg
      subst hg
      have hfx : f = x := by simpa [symbolOf, nth, valueOf, Node.val] using hx
      subst hfx
      have hns : ks' = ns := by simpa [listParts, nth, valueOf, kidsOf, Node.val, Node.kids] using hl
      subst hns
      have h1 := hsame n none (shapes_classes o _ hq)
      simp only [Prod.mk.injEq] at h1
      rw [hql]
      exact props_of_all hd hu hcd hb (by rw [h1.1]; exact hq)
    | cont n f src a ks' hcl =>
      simp only [describedNode, Node.mk.injEq, true_and] at hg
      subst hg
      have hfx : f = x := by simpa [symbolOf, nth, valueOf, Node.val] using hx
      subst hfx
      have h1 := hsame n _ hcl
      simp only [Prod.mk.injEq] at h1
      have h2 : (classes o).lookup cd.key = some (some src) := lookup_only (by rw [h1.1]; exact hcl) fun a ha hk => by
        have := hf a ha _ hcl (by rw [hk, h1.1])
        rw [this]
      have := (hd.container cd hcd src).mpr h2
      rw [hb] at this
      simp at this
    | prim v => cases v <;> simp [primNode] at hg
    | _ => simp at hg
  · intro ks hi
    have hP := hin _ hi
    generalize hg : Node.mk .map ks = m at hP
    cases hP with
    | map ks' n f h he =>
      simp only [Node.mk.injEq, true_and] at hg
      subst hg
      exact he
    | prim v => cases v <;> simp [primNode] at hg
    | _ => simp [describedNode] at hg

/-! ### The files -/

private theorem found_is {o : Obj} (h : ObjFits o) {n : Node} (hw : serialise o = .ok [n]) (hl : (Wire.encode n).length < 2 ^ 32) {m : Node}
    (hm : InFile (magic ++ 0 :: Wire.encode n) m) : m = n := by
  have h1 := (C107_encoded h hw hl).2
  unfold InFile at hm
  have h2 : (magic ++ 0 :: Wire.encode n).drop 8 = Wire.encode n := rfl
  rw [h2, h1] at hm
  simp only [Option.some.injEq, Prod.mk.injEq] at hm
  exact hm.2.symm

private theorem file_short {n : Node} (hl : (Wire.encode n).length < 2 ^ 32) : (magic ++ 0 :: Wire.encode n).length < 2 ^ 63 := by
  simp only [List.length_append, List.length_cons, magic_length]
  omega

/-- **C98, the blob inspector on a saved file**: if all objects of a class have the same properties, and every class has a fingerprint
of its own, then the output is at most quadratic in the length of the file. -/
theorem C98_inspector_written (leftFirst : Bool) (o : Obj) (h : ObjFits o) (n : Node) (hw : serialise o = .ok [n]) (hl : (Wire.encode n).length < 2 ^ 32)
    (hu : Uniform o) (hf : OwnFingerprints o) (path out : Str) (hx : blobInspector leftFirst (holding (magic ++ 0 :: Wire.encode n)) [path] = .exit 0 out) :
    out.length ≤ 1600 * (magic ++ 0 :: Wire.encode n).length ^ 2 :=
  C98_inspector_partial leftFirst _ (file_short hl) path out hx fun m hm => by
    rw [found_is h hw hl hm]
    exact written_filled hw hu hf

/-- **C98, the data dumper on a saved file**: if there is no map in the object, the output is at most 900 times as long as the file. -/
theorem C98_data_written (o : Obj) (h : ObjFits o) (n : Node) (hw : serialise o = .ok [n]) (hl : (Wire.encode n).length < 2 ^ 32)
    (hm : WithoutMaps o) (path out : Str) (hx : dataDumper (holding (magic ++ 0 :: Wire.encode n)) [path] = .exit 0 out) :
    out.length ≤ 900 * (magic ++ 0 :: Wire.encode n).length :=
  C98_data_partial _ (file_short hl) path out hx fun m hm' => by
    rw [found_is h hw hl hm']
    exact written_noMaps hw hm

/-- **C98, the schema dumper with `raw` on a saved file**: whatever object was saved, the output is at most quadratic in the length of the file. -/
theorem C98_raw_written (o : Obj) (h : ObjFits o) (n : Node) (hw : serialise o = .ok [n]) (hl : (Wire.encode n).length < 2 ^ 32)
    (path out : Str) (hx : schemaDumper (holding (magic ++ 0 :: Wire.encode n)) [path, "raw".toList] = .exit 0 out) :
    out.length ≤ 170000 * (magic ++ 0 :: Wire.encode n).length ^ 2 :=
  C98_raw_partial _ (file_short hl) path out hx fun m hm => by
    rw [found_is h hw hl hm]
    exact written_lone hw

/-! ### Saved maps in maps -/

/-- Maps with one entry, of an empty map to such a map again. -/
def mapInMap : Nat → Obj
  | 0 => .map ['M'] nameM []
  | k + 1 => .map ['M'] nameM [.mk (.obj (.map ['M'] nameM [])) (.obj (mapInMap k))]

private theorem mapInMap_tree (k : Nat) : objTree (mapInMap k) = nestedMaps k := by
  induction k with
  | zero => rfl
  | succ k ih =>
    unfold mapInMap nestedMaps
    rw [objTree, entryTrees, elemTree, elemTree, ih, entryTrees]
    rfl

private theorem mapInMap_classes (k : Nat) : ∀ a ∈ classes (mapInMap k), a = ((['M'], nameM), some "map".toList) := by
  induction k with
  | zero => intro a ha; simpa [mapInMap, classes, classesEntries] using ha
  | succ k ih =>
    intro a ha
    unfold mapInMap at ha
    rw [classes, classesEntries, classesElem, classesElem, classesEntries, List.append_nil] at ha
    rcases List.mem_cons.mp ha with rfl | ha
    · rfl
    rcases List.mem_append.mp ha with ha | ha
    · simpa [classes, classesEntries] using ha
    · exact ih a ha

private theorem mapInMap_has (k : Nat) : ((['M'], nameM), some "map".toList) ∈ classes (mapInMap k) := by
  cases k <;> (unfold mapInMap; rw [classes]; exact List.mem_cons_self)

private theorem mapInMap_props (k : Nat) : props (mapInMap k) = [] := by
  induction k with
  | zero => rfl
  | succ k ih =>
    unfold mapInMap
    rw [props, propsEntries, propsElem, propsElem, ih, propsEntries]
    rfl

private theorem mapInMap_size (k : Nat) : objSize (mapInMap k) = 26 * k + 13 := by
  induction k with
  | zero => rfl
  | succ k ih =>
    unfold mapInMap
    rw [objSize, entriesSize, elemSize, elemSize, ih, entriesSize, show objSize (.map ['M'] nameM []) = 13 from rfl, show textSize nameM = 3 from rfl]
    omega

private theorem mapInMap_chars (k : Nat) : NoCharPointers (mapInMap k) := by
  induction k with
  | zero => simp [mapInMap, NoCharPointers, NoCharPointersEntries]
  | succ k ih =>
    unfold mapInMap
    simp only [NoCharPointers, NoCharPointersEntries, NoCharPointersElem, ih, and_self]

private theorem mapInMap_fits (k : Nat) : ObjFits (mapInMap k) := by
  have h1 : TextFits ['M'] := by unfold TextFits ByteText; decide
  have h2 : TextFits nameM := by unfold TextFits ByteText; decide
  induction k with
  | zero => simp [mapInMap, ObjFits, EntriesFit, h1, h2]
  | succ k ih =>
    unfold mapInMap
    simp [ObjFits, EntriesFit, ElemFits, ih, h1, h2]

private theorem lookup_same {l : List ClassUse} {a : ClassUse} (hm : a ∈ l) (h : ∀ b ∈ l, b = a) (k : Str × Str) : l.lookup k = [a].lookup k := by
  by_cases hk : k = a.1
  · subst hk
    rw [lookup_only (v := a.2) hm fun b hb _ => by rw [h b hb], lookup_only (v := a.2) (by simp) fun b hb _ => by rw [List.mem_singleton.mp hb]]
  · have : ∀ m : List ClassUse, (∀ b ∈ m, b = a) → m.lookup k = none := by
      intro m hm
      rw [List.lookup_eq_none_iff]
      intro b hb
      rw [hm b hb]
      simpa using hk
    rw [this l h, this [a] (by simp)]

private theorem mapInMap_zero : ∃ n, serialise (mapInMap 0) = .ok [n] ∧ (Wire.encode n).length = 115 := by
  have : (match serialise (mapInMap 0) with | .ok [n] => (Wire.encode n).length | _ => 0) = 115 := by decide +kernel
  split at this
  · exact ⟨_, by assumption, this⟩
  · simp at this

/-- **C98, the data dumper, is false for saved files**: the file of maps in maps is 26 bytes longer for each map, and what the data dumper prints for it
at least twice as long. -/
theorem C98_data_written_violated (k : Nat) (hk : k < 2 ^ 26) (path : Str) : ∃ n out, serialise (mapInMap k) = .ok [n] ∧ ObjFits (mapInMap k) ∧
    (magic ++ 0 :: Wire.encode n).length = 26 * k + 123 ∧ dataDumper (holding (magic ++ 0 :: Wire.encode n)) [path] = .exit 0 out ∧ 2 ^ k ≤ out.length := by
  obtain ⟨n0, h0, hl0⟩ := mapInMap_zero
  have hno : NoClash (mapInMap k) := fun a ha b hb _ => by rw [mapInMap_classes k a ha, mapInMap_classes k b hb]
  obtain ⟨ns, hns⟩ := C30_succeeds (mapInMap k) hno (mapInMap_chars k)
  have hcl : ∀ x, (classes (mapInMap 0)).lookup x = (classes (mapInMap k)).lookup x := fun x => by
    rw [lookup_same (mapInMap_has 0) (mapInMap_classes 0) x, lookup_same (mapInMap_has k) (mapInMap_classes k) x]
  have hpr : ∀ x y, firstProp (props (mapInMap 0)) x y = firstProp (props (mapInMap k)) x y := fun x y => by
    rw [mapInMap_props, mapInMap_props]
  obtain ⟨sc, -, hn⟩ := C108_classes _ _ hcl hpr _ _ h0 hns
  rw [hn] at hns
  have hsize := C114_same _ _ hcl hpr _ _ h0 hns
  rw [hl0, mapInMap_size, mapInMap_size, mapInMap_tree] at hsize
  rw [mapInMap_tree] at hns
  generalize hb : envelopeTree (nestedMaps k) sc (.mk .null []) = n at hns hsize
  have hlen : (magic ++ 0 :: Wire.encode n).length = 26 * k + 123 := by
    simp only [List.length_append, List.length_cons, magic_length]
    omega
  have hd : dataText (some n) = .ok (nestedText k) := by
    subst hb
    obtain ⟨m, hm, -⟩ := nested_is k
    have h1 : firstText [nestedMaps k, sc, .mk .null []] = .ok (nestedText k) := by
      unfold firstText
      rw [show describedParts (nth [nestedMaps k, sc, .mk .null []] 0) = .ok (nestedMaps k).kids by rw [hm]; rfl]
      exact nested_shown k
    unfold dataText
    rw [if_pos (show typeHere (some (envelopeTree (nestedMaps k) sc (.mk .null []))) = .described from rfl),
      if_pos (show numberHere (nth (kidsOf (some (envelopeTree (nestedMaps k) sc (.mk .null [])))) 0) % 2 ^ 32 = 1 by
        show cordaId 1 % 2 ^ 32 = 1
        decide)]
    exact h1
  have hfit : FilesFit (holding (magic ++ 0 :: Wire.encode n)) := by
    intro p c hc
    cases hc
    omega
  refine ⟨n, _, hns, mapInMap_fits k, hlen, (C68_data_dumper _ hfit _ _).mpr
    ⟨path, n, _, rfl, ⟨Wire.encode n, rfl, (C107_encoded (mapInMap_fits k) hns (by omega)).2⟩, by rw [C85_data]; exact hd, rfl⟩, ?_⟩
  have := nested_long k
  rw [List.length_append]
  omega

/-! ### Saved objects with a property less -/

/-- A property that points to objects in objects, each of which writes its first property only. -/
def halfMember : Nat → Member
  | 0 => .nullObj ['a'] nameA
  | k + 1 => .obj ['a'] nameA true (.comp nameA nameFp [halfMember k])

/-- An object of that class that writes both properties. -/
def halfChain (k : Nat) : Obj := .comp nameA nameFp [halfMember k, .nullObj ['b'] nameA]

private theorem halfMember_tree (k : Nat) : memberTree (halfMember k) = halfObjects k := by
  induction k with
  | zero => rfl
  | succ k ih =>
    unfold halfMember halfObjects
    rw [memberTree, objTree, memberTrees, ih, memberTrees]
    rfl

private theorem halfChain_tree (k : Nat) : objTree (halfChain k) = described nameFp (.mk .list [halfObjects k, .mk .null []]) := by
  unfold halfChain
  rw [objTree, memberTrees, halfMember_tree, memberTrees, memberTree, memberTrees]
  rfl

private theorem halfMember_classes (k : Nat) : ∀ a ∈ classesMember (halfMember k), a = ((nameA, nameFp), none) := by
  induction k with
  | zero => intro a ha; simp [halfMember, classesMember] at ha
  | succ k ih =>
    intro a ha
    unfold halfMember at ha
    rw [classesMember, classes, classesMembers, classesMembers, List.append_nil] at ha
    rcases List.mem_cons.mp ha with rfl | ha
    · rfl
    · exact ih a ha

private theorem halfChain_classes (k : Nat) : ∀ a ∈ classes (halfChain k), a = ((nameA, nameFp), none) := by
  intro a ha
  unfold halfChain at ha
  rw [classes, classesMembers, classesMembers, show classesMember (.nullObj ['b'] nameA) = [] from rfl, classesMembers, List.append_nil, List.append_nil] at ha
  rcases List.mem_cons.mp ha with rfl | ha
  · rfl
  · exact halfMember_classes k a ha

private theorem halfChain_has (k : Nat) : ((nameA, nameFp), none) ∈ classes (halfChain k) := by
  unfold halfChain; rw [classes]; exact List.mem_cons_self

private def propA : PropDesc := ⟨['a'], nameA, [], false⟩
private def propB : PropDesc := ⟨['b'], nameA, [], false⟩

private theorem halfMember_props (k : Nat) : ∃ l, propsMember (nameA, nameFp) (halfMember k) = ((nameA, nameFp), propA) :: l ∧
    ∀ a ∈ l, a = ((nameA, nameFp), propA) := by
  induction k with
  | zero => exact ⟨[], by unfold halfMember; rw [propsMember]; · rfl
                          · simp, by simp⟩
  | succ k ih =>
    obtain ⟨l, h1, h2⟩ := ih
    refine ⟨((nameA, nameFp), propA) :: l, ?_, ?_⟩
    · unfold halfMember
      rw [propsMember, props, propsMembers, h1, propsMembers, List.append_nil]
      rfl
    · intro a ha
      rcases List.mem_cons.mp ha with rfl | ha
      · rfl
      · exact h2 a ha

private theorem halfChain_props (k : Nat) (x : Str × Str) (y : Str) :
    firstProp (props (halfChain k)) x y = if (nameA, nameFp) = x ∧ ['a'] = y then some propA else if (nameA, nameFp) = x ∧ ['b'] = y then some propB else none := by
  obtain ⟨l, h1, h2⟩ := halfMember_props k
  unfold halfChain
  rw [props, propsMembers, h1, propsMembers, propsMember, propsMembers]
  · unfold firstProp
    rw [List.cons_append, List.findSome?_cons]
    by_cases h : (nameA, nameFp) = x ∧ ['a'] = y
    · rw [if_pos h]
      simp only [propA, h, and_self, if_true]
    · have hn : ∀ a ∈ l, (if a.1 = x ∧ a.2.name = y then some a.2 else none) = none := by
        intro a ha
        rw [h2 a ha]
        exact if_neg h
      rw [if_neg h, List.findSome?_append, List.findSome?_eq_none_iff.mpr hn]
      have e : (if ((nameA, nameFp), propA).1 = x ∧ ((nameA, nameFp), propA).2.name = y then some ((nameA, nameFp), propA).2 else none) = none := if_neg h
      rw [e]
      simp only [Option.none_or]
      show (([((nameA, nameFp), propB)].findSome? fun e => if e.1 = x ∧ e.2.name = y then some e.2 else none) : Option PropDesc) = _
      rw [List.findSome?_cons]
      by_cases h' : (nameA, nameFp) = x ∧ ['b'] = y
      · rw [if_pos h']
        simp only [propB, h', and_self, if_true]
      · have e' : (if ((nameA, nameFp), propB).1 = x ∧ ((nameA, nameFp), propB).2.name = y then some ((nameA, nameFp), propB).2 else none) = none := if_neg h'
        rw [e', if_neg h']
        rfl
  · simp

private theorem halfMember_size (k : Nat) : memberSize (halfMember k) = 14 * k + 1 := by
  induction k with
  | zero => rfl
  | succ k ih =>
    unfold halfMember
    rw [memberSize, objSize, membersSize, ih, membersSize, show textSize nameFp = 4 from rfl, listSize, if_neg (by simp)]
    omega

private theorem halfChain_size (k : Nat) : objSize (halfChain k) = 14 * k + 16 := by
  unfold halfChain
  rw [objSize, membersSize, halfMember_size, membersSize, memberSize, membersSize, show textSize nameFp = 4 from rfl, listSize, if_neg (by simp)]
  omega

private theorem halfChain_chars (k : Nat) : NoCharPointers (halfChain k) := by
  have : NoCharPointersMember (halfMember k) := by
    induction k with
    | zero => simp [halfMember, NoCharPointersMember]
    | succ k ih =>
      unfold halfMember
      simp only [NoCharPointersMember, NoCharPointers, NoCharPointersMembers, ih, and_self]
  unfold halfChain
  simp only [NoCharPointers, NoCharPointersMembers, NoCharPointersMember, this, and_self]

private theorem halfChain_fits (k : Nat) : ObjFits (halfChain k) := by
  have h1 : TextFits nameA := by unfold TextFits ByteText; decide
  have h2 : TextFits nameFp := by unfold TextFits ByteText; decide
  have h3 : TextFits ['a'] := by unfold TextFits ByteText; decide
  have h4 : TextFits ['b'] := by unfold TextFits ByteText; decide
  have : MemberFits (halfMember k) := by
    induction k with
    | zero => simp [halfMember, MemberFits, h1, h3]
    | succ k ih =>
      unfold halfMember
      simp [MemberFits, ObjFits, MembersFit, ih, h1, h2, h3]
  unfold halfChain
  simp [ObjFits, MembersFit, MemberFits, this, h1, h2, h4]

private theorem halfChain_zero : ∃ n, serialise (halfChain 0) = .ok [n] ∧ (Wire.encode n).length = 186
    ∧ n = envelopeTree (objTree (halfChain 0)) twoSchema (.mk .null []) := by
  have h1 : (match serialise (halfChain 0) with | .ok [n] => (Wire.encode n).length | _ => 0) = 186 := by decide +kernel
  have h2 : (match serialise (halfChain 0) with | .ok [n] => decide (n = envelopeTree (objTree (halfChain 0)) twoSchema (.mk .null [])) | _ => false) = true := by decide +kernel
  split at h1
  · rename_i n hn
    rw [hn] at h2
    exact ⟨n, hn, h1, of_decide_eq_true h2⟩
  · simp at h1

/-- **C98, the blob inspector, is false for saved files**: if one object of a class writes two properties and the others only the first, then the file is 14 bytes
longer for each object, and what the inspector prints for it at least twice as long. -/
theorem C98_inspector_written_violated (leftFirst : Bool) (k : Nat) (hk : k < 2 ^ 26) (path : Str) : ∃ n out, serialise (halfChain k) = .ok [n] ∧ ObjFits (halfChain k) ∧
    (magic ++ 0 :: Wire.encode n).length = 14 * k + 194 ∧ blobInspector leftFirst (holding (magic ++ 0 :: Wire.encode n)) [path] = .exit 0 out
    ∧ 2 ^ k ≤ out.length := by
  obtain ⟨n0, h0, hl0, hn0⟩ := halfChain_zero
  have hno : NoClash (halfChain k) := fun a ha b hb _ => by rw [halfChain_classes k a ha, halfChain_classes k b hb]
  obtain ⟨ns, hns⟩ := C30_succeeds (halfChain k) hno (halfChain_chars k)
  have hcl : ∀ x, (classes (halfChain 0)).lookup x = (classes (halfChain k)).lookup x := fun x => by
    rw [lookup_same (halfChain_has 0) (halfChain_classes 0) x, lookup_same (halfChain_has k) (halfChain_classes k) x]
  have hpr : ∀ x y, firstProp (props (halfChain 0)) x y = firstProp (props (halfChain k)) x y := fun x y => by
    rw [halfChain_props, halfChain_props]
  obtain ⟨sc, hz, hn⟩ := C108_classes _ _ hcl hpr _ _ h0 hns
  have hsc : sc = twoSchema := by
    rw [hn0] at hz
    simp only [envelopeTree, element, List.cons.injEq, Node.mk.injEq, and_true, true_and] at hz
    exact hz.symm
  subst hsc
  rw [hn] at hns
  have hsize := C114_same _ _ hcl hpr _ _ h0 hns
  rw [hl0, halfChain_size, halfChain_size, halfChain_tree] at hsize
  rw [halfChain_tree] at hns
  have hx := two_inspected leftFirst (.mk .list [halfObjects k, .mk .null []])
  generalize envelopeTree (described nameFp (.mk .list [halfObjects k, .mk .null []])) twoSchema (.mk .null []) = n at hns hsize hx
  have hlen : (magic ++ 0 :: Wire.encode n).length = 14 * k + 194 := by
    simp only [List.length_append, List.length_cons, magic_length]
    omega
  have ht : textIn leftFirst [.comp classA] tableA (described nameFp (.mk .list [halfObjects k, .mk .null []])).height true nameA
      (some (described nameFp (.mk .list [halfObjects k, .mk .null []]))) = .ok (braces [colon ['a'] (halfText k), colon ['b'] absent]) := by
    have hh : ∃ d, (described nameFp (.mk .list [halfObjects k, .mk .null []])).height = d + 1 ∧ k < d := by
      have h1 := half_height k
      have h2 := height_kids (v := .list) (ks := [halfObjects k, .mk .null []]) (k := halfObjects k) (by simp)
      have h3 := height_kids (v := .described) (ks := [.mk (.symbol nameFp) [], .mk .list [halfObjects k, .mk .null []]])
        (k := .mk .list [halfObjects k, .mk .null []]) (by simp)
      have h4 : (described nameFp (.mk .list [halfObjects k, .mk .null []])).height
        = (Node.mk .described [.mk (.symbol nameFp) [], .mk .list [halfObjects k, .mk .null []]]).height := rfl
      exact ⟨(described nameFp (.mk .list [halfObjects k, .mk .null []])).height - 1, by omega, by omega⟩
    obtain ⟨d, hd, hkd⟩ := hh
    rw [hd]
    have h0 := half_shown leftFirst 0 d true (by omega)
    have h1 := half_shown leftFirst k d true hkd
    have h2 : propertyTexts [.comp classA] (textIn leftFirst [.comp classA] tableA d) classA (some (described nameFp (.mk .list [halfObjects k, .mk .null []])))
        = all [(colon ['a']) <$> textIn leftFirst [.comp classA] tableA d true nameA (some (halfObjects k)),
            (colon ['b']) <$> textIn leftFirst [.comp classA] tableA d true nameA (some (halfObjects 0))] := rfl
    show braces <$> propertyTexts [.comp classA] (textIn leftFirst [.comp classA] tableA d) classA
      (some (described nameFp (.mk .list [halfObjects k, .mk .null []]))) = _
    rw [h2, h1, h0]
    rfl
  rw [ht] at hx
  have hfit : FilesFit (holding (magic ++ 0 :: Wire.encode n)) := by
    intro p c hc
    cases hc
    omega
  refine ⟨n, _, hns, halfChain_fits k, hlen, (C68_blob_inspector leftFirst _ hfit _ _).mpr
    ⟨path, n, _, rfl, ⟨magic, Wire.encode n, magic_length, rfl, (C107_encoded (halfChain_fits k) hns (by omega)).2⟩, by rw [C92_any leftFirst _ n rfl, hx]; rfl, rfl⟩, ?_⟩
  have h1 := half_long k
  have h2 : ∀ a b c d e f : Str, ∀ l : Str, (halfText k).length ≤ (a ++ (b ++ List.intercalate l [colon c (halfText k), d] ++ e) ++ f ++ l).length := by
    intro a b c d e f l
    simp only [List.intercalate, List.intersperse, List.flatten_cons, List.length_append, colon]
    omega
  have h3 : ∀ x : Str, x.length ≤ (("{ Parsed : ".toList ++ x ++ " }".toList) ++ ['\n']).length := by
    intro x
    simp only [List.length_append]
    omega
  have h4 : (halfText k).length ≤ (braces [colon ['a'] (halfText k), colon ['b'] absent]).length := by
    have : ∀ a b d e : Str, ∀ l : Str, (halfText k).length ≤ (a ++ List.intercalate l [colon b (halfText k), d] ++ e).length := by
      intro a b d e l
      simp only [List.intercalate, List.intersperse, List.flatten_cons, List.length_append, colon]
      omega
    exact this _ _ _ _ _
  exact Nat.le_trans h1 (Nat.le_trans h4 (h3 _))

/-- An object with which the tools do well. -/
private def pairObj : Obj := .comp "P".toList "p".toList [.prim "a".toList false (.int 7), .obj "b".toList "Q".toList false (.comp "Q".toList "q".toList [.prim "x".toList false (.string "hi".toList)])]

example : (match serialise pairObj with
    | .ok [n] => ((magic ++ 0 :: Wire.encode n).length, blobInspector true (holding (magic ++ 0 :: Wire.encode n)) ["f".toList])
    | _ => (0, .exit 1 [])) = (305, .exit 0 "{ Parsed : { a : 7, b : { x : \"hi\" } } }\n".toList) := by decide +kernel

#print axioms C98_inspector_written_violated
#print axioms C98_data_written_violated
#print axioms C98_inspector_written
#print axioms C98_data_written
#print axioms C98_raw_written

end Corda.Props
