import Verif.Lemmas.Wire
import Verif.Lemmas.Writer

/-
What the writer produces has an encoding.
-/

namespace Corda
open Corda.Spec

theorem fits_lit {s : Str} (h : (s.all fun c => decide (c.toNat < 256)) = true ∧ s.length < 2 ^ 32) : TextFits s := by
  refine ⟨fun c hc => ?_, h.2⟩
  simpa using List.all_eq_true.mp h.1 c hc

theorem proper_prim {v : Prim} (h : PrimFits v) : Proper (primNode v) := by
  cases v <;> refine .atom _ ?_
  case char n =>
    simp only [InRange]
    have h1 := Int.emod_nonneg n (show (2 ^ 32 : Int) ≠ 0 by decide)
    have h2 := Int.emod_lt_of_pos n (show (0 : Int) < 2 ^ 32 by decide)
    omega
  all_goals exact h

mutual

theorem proper_obj : ∀ o : Obj, ObjFits o → Proper (objTree o)
  | .comp _ _ ms, h => .described _ _ (.atom _ h.2.1) (.list _ (proper_members ms h.2.2))
  | .list _ _ es, h => .described _ _ (.atom _ h.2.1) (.list _ (proper_elems es h.2.2))
  | .map _ _ es, h => .described _ _ (.atom _ h.2.1) (.map _ (proper_entries es h.2.2).1 (proper_entries es h.2.2).2)

theorem proper_member : ∀ m : Member, MemberFits m → Proper (memberTree m)
  | .prim _ _ _, h => proper_prim h.2
  | .nullPrim _ _, _ => .atom _ trivial
  | .obj _ _ _ o, h => proper_obj o h.2.2
  | .nullObj _ _, _ => .atom _ trivial

theorem proper_elem : ∀ e : Elem, ElemFits e → Proper (elemTree e)
  | .prim _, h => proper_prim h
  | .nullPrim _, _ => .atom _ trivial
  | .obj o, h => proper_obj o h

theorem proper_members : ∀ ms : List Member, MembersFit ms → ∀ k ∈ memberTrees ms, Proper k
  | [], _, _, hk => by cases hk
  | m :: ms, h, k, hk => by
    rw [memberTrees, List.mem_cons] at hk
    rcases hk with rfl | hk
    · exact proper_member m h.1
    · exact proper_members ms h.2 k hk

theorem proper_elems : ∀ es : List Elem, ElemsFit es → ∀ k ∈ elemTrees es, Proper k
  | [], _, _, hk => by cases hk
  | e :: es, h, k, hk => by
    rw [elemTrees, List.mem_cons] at hk
    rcases hk with rfl | hk
    · exact proper_elem e h.1
    · exact proper_elems es h.2 k hk

theorem proper_entries : ∀ es : List Entry, EntriesFit es → (∀ k ∈ Spec.entryTrees es, Proper k) ∧ (Spec.entryTrees es).length % 2 = 0
  | [], _ => ⟨fun _ hk => (by cases hk), rfl⟩
  | .mk a b :: es, h => by
    have ih := proper_entries es h.2.2
    refine ⟨fun k hk => ?_, ?_⟩
    · rw [Spec.entryTrees, List.mem_cons, List.mem_cons] at hk
      rcases hk with rfl | rfl | hk
      · exact proper_elem a h.1
      · exact proper_elem b h.2.1
      · exact ih.1 k hk
    · rw [Spec.entryTrees, List.length_cons, List.length_cons]
      have := ih.2
      omega

end

mutual

theorem classes_fit : ∀ o : Obj, ObjFits o → ∀ u ∈ classes o, TextFits u.1.1 ∧ TextFits u.1.2
  | .comp _ _ ms, h, u, hu => by
    rw [classes, List.mem_cons] at hu
    rcases hu with rfl | hu
    · exact ⟨h.1, h.2.1⟩
    · exact classes_members_fit ms h.2.2 u hu
  | .list _ _ es, h, u, hu => by
    rw [classes, List.mem_cons] at hu
    rcases hu with rfl | hu
    · exact ⟨h.1, h.2.1⟩
    · exact classes_elems_fit es h.2.2 u hu
  | .map _ _ es, h, u, hu => by
    rw [classes, List.mem_cons] at hu
    rcases hu with rfl | hu
    · exact ⟨h.1, h.2.1⟩
    · exact classes_entries_fit es h.2.2 u hu

theorem classes_member_fit : ∀ m : Member, MemberFits m → ∀ u ∈ classesMember m, TextFits u.1.1 ∧ TextFits u.1.2
  | .prim _ _ _, _, _, hu => by simp [classesMember] at hu
  | .nullPrim _ _, _, _, hu => by simp [classesMember] at hu
  | .obj _ _ _ o, h, u, hu => classes_fit o h.2.2 u hu
  | .nullObj _ _, _, _, hu => by simp [classesMember] at hu

theorem classes_elem_fit : ∀ e : Elem, ElemFits e → ∀ u ∈ classesElem e, TextFits u.1.1 ∧ TextFits u.1.2
  | .prim _, _, _, hu => by simp [classesElem] at hu
  | .nullPrim _, _, _, hu => by simp [classesElem] at hu
  | .obj o, h, u, hu => classes_fit o h u hu

theorem classes_members_fit : ∀ ms : List Member, MembersFit ms → ∀ u ∈ classesMembers ms, TextFits u.1.1 ∧ TextFits u.1.2
  | [], _, _, hu => by cases hu
  | m :: ms, h, u, hu => by
    rw [classesMembers, List.mem_append] at hu
    rcases hu with hu | hu
    · exact classes_member_fit m h.1 u hu
    · exact classes_members_fit ms h.2 u hu

theorem classes_elems_fit : ∀ es : List Elem, ElemsFit es → ∀ u ∈ classesElems es, TextFits u.1.1 ∧ TextFits u.1.2
  | [], _, _, hu => by cases hu
  | e :: es, h, u, hu => by
    rw [classesElems, List.mem_append] at hu
    rcases hu with hu | hu
    · exact classes_elem_fit e h.1 u hu
    · exact classes_elems_fit es h.2 u hu

theorem classes_entries_fit : ∀ es : List Entry, EntriesFit es → ∀ u ∈ classesEntries es, TextFits u.1.1 ∧ TextFits u.1.2
  | [], _, _, hu => by cases hu
  | .mk a b :: es, h, u, hu => by
    rw [classesEntries, List.mem_append, List.mem_append] at hu
    rcases hu with (hu | hu) | hu
    · exact classes_elem_fit a h.1 u hu
    · exact classes_elem_fit b h.2.1 u hu
    · exact classes_entries_fit es h.2.2 u hu

end

/-- All texts in the description of a property fit. -/
def DescFits (d : PropDesc) : Prop := TextFits d.name ∧ TextFits d.type ∧ ∀ r ∈ d.requires, TextFits r

theorem fits_typeName (t : PrimType) : TextFits t.typeName := by cases t <;> exact fits_lit (by decide)

theorem desc_fits {m : Member} (h : MemberFits m) : DescFits (memberDesc m) := by
  cases m with
  | prim n ptr v => exact ⟨h.1, fits_typeName _, fun _ hr => (by cases hr)⟩
  | nullPrim n t => exact ⟨h, fits_typeName _, fun _ hr => (by cases hr)⟩
  | obj n t ptr o =>
    rw [memberDesc]
    split
    · refine ⟨h.1, fits_lit (s := "*".toList) (by decide), fun r hr => ?_⟩
      rw [List.mem_singleton.mp hr]
      exact h.2.1
    · exact ⟨h.1, h.2.1, fun _ hr => (by cases hr)⟩
  | nullObj n t => exact ⟨h.1, h.2, fun _ hr => (by cases hr)⟩

mutual

theorem props_fit : ∀ o : Obj, ObjFits o → ∀ u ∈ props o, DescFits u.2
  | .comp n f ms, h, u, hu => props_members_fit (n, f) ms h.2.2 u hu
  | .list _ _ es, h, u, hu => props_elems_fit es h.2.2 u hu
  | .map _ _ es, h, u, hu => props_entries_fit es h.2.2 u hu

theorem props_member_fit (key : Str × Str) : ∀ m : Member, MemberFits m → ∀ u ∈ propsMember key m, DescFits u.2
  | .prim n p v, h, u, hu => by
    rw [propsMember, List.mem_singleton] at hu
    · subst hu; exact desc_fits h
    · intro _ _ _ _ hx; cases hx
  | .nullPrim n t, h, u, hu => by
    rw [propsMember, List.mem_singleton] at hu
    · subst hu; exact desc_fits h
    · intro _ _ _ _ hx; cases hx
  | .obj n t p o, h, u, hu => by
    rw [propsMember, List.mem_cons] at hu
    rcases hu with rfl | hu
    · exact desc_fits h
    · exact props_fit o h.2.2 u hu
  | .nullObj n t, h, u, hu => by
    rw [propsMember, List.mem_singleton] at hu
    · subst hu; exact desc_fits h
    · intro _ _ _ _ hx; cases hx

theorem props_elem_fit : ∀ e : Elem, ElemFits e → ∀ u ∈ propsElem e, DescFits u.2
  | .prim _, _, _, hu => by simp [propsElem] at hu
  | .nullPrim _, _, _, hu => by simp [propsElem] at hu
  | .obj o, h, u, hu => props_fit o h u hu

theorem props_members_fit (key : Str × Str) : ∀ ms : List Member, MembersFit ms → ∀ u ∈ propsMembers key ms, DescFits u.2
  | [], _, _, hu => by cases hu
  | m :: ms, h, u, hu => by
    rw [propsMembers, List.mem_append] at hu
    rcases hu with hu | hu
    · exact props_member_fit key m h.1 u hu
    · exact props_members_fit key ms h.2 u hu

theorem props_elems_fit : ∀ es : List Elem, ElemsFit es → ∀ u ∈ propsElems es, DescFits u.2
  | [], _, _, hu => by cases hu
  | e :: es, h, u, hu => by
    rw [propsElems, List.mem_append] at hu
    rcases hu with hu | hu
    · exact props_elem_fit e h.1 u hu
    · exact props_elems_fit es h.2 u hu

theorem props_entries_fit : ∀ es : List Entry, EntriesFit es → ∀ u ∈ propsEntries es, DescFits u.2
  | [], _, _, hu => by cases hu
  | .mk a b :: es, h, u, hu => by
    rw [propsEntries, List.mem_append, List.mem_append] at hu
    rcases hu with (hu | hu) | hu
    · exact props_elem_fit a h.1 u hu
    · exact props_elem_fit b h.2.1 u hu
    · exact props_entries_fit es h.2.2 u hu

end

/-! The trees of the schema. -/

theorem proper_str {s : Str} (h : TextFits s) : Proper (str s) := .atom _ h
theorem proper_sym {s : Str} (h : TextFits s) : Proper (sym s) := .atom _ h

theorem proper_strs {ss : List Str} (h : ∀ s ∈ ss, TextFits s) : Proper (strList ss) := by
  refine .list _ fun k hk => ?_
  obtain ⟨s, hs, rfl⟩ := List.mem_map.mp hk
  exact proper_str (h s hs)

theorem proper_element {k : Nat} (hk : k < 256) {parts : List Node} (h : ∀ p ∈ parts, Proper p) : Proper (element k parts) := by
  refine .described _ _ (.atom _ ?_) (.list _ h)
  simp only [InRange, cordaId]
  omega

theorem fits_nil : TextFits [] := fits_lit (by decide)

theorem proper_desc {d : PropDesc} (h : DescFits d) : Proper d.tree := by
  refine proper_element (by decide) fun p hp => ?_
  simp only [List.mem_cons, List.not_mem_nil, or_false] at hp
  rcases hp with rfl | rfl | rfl | rfl | rfl | rfl | rfl
  · exact proper_str h.1
  · exact proper_str h.2.1
  · exact proper_strs h.2.2
  · exact proper_str fits_nil
  · exact proper_str fits_nil
  · exact .atom _ trivial
  · exact .atom _ trivial

theorem proper_fingerprint {s : Str} (h : TextFits s) : Proper (objectTree s) := by
  refine proper_element (by decide) fun p hp => ?_
  simp only [List.mem_cons, List.not_mem_nil, or_false] at hp
  rcases hp with rfl | rfl
  · exact proper_sym h
  · exact .atom _ trivial

theorem proper_class {d : ClassDesc} (hn : TextFits d.key.1) (hf : TextFits d.key.2)
    (hp : ∀ ps, d.body = .inl ps → ∀ p ∈ ps, DescFits p) (hs : ∀ s, d.body = .inr s → TextFits s) : Proper d.tree := by
  unfold ClassDesc.tree
  split
  · rename_i ps hb
    refine proper_element (by decide) fun p hpp => ?_
    simp only [List.mem_cons, List.not_mem_nil, or_false] at hpp
    rcases hpp with rfl | rfl | rfl | rfl | rfl
    · exact proper_str hn
    · exact proper_str fits_nil
    · exact proper_strs fun _ h => (by cases h)
    · exact proper_fingerprint hf
    · refine .list _ fun k hk => ?_
      obtain ⟨q, hq, rfl⟩ := List.mem_map.mp hk
      exact proper_desc (hp ps hb q hq)
  · rename_i s hb
    refine proper_element (by decide) fun p hpp => ?_
    simp only [List.mem_cons, List.not_mem_nil, or_false] at hpp
    rcases hpp with rfl | rfl | rfl | rfl | rfl | rfl
    · exact proper_str hn
    · exact proper_str fits_nil
    · exact proper_strs fun _ h => (by cases h)
    · exact proper_str (hs s hb)
    · exact proper_fingerprint hf
    · exact .list _ fun _ h => (by cases h)

mutual

theorem sources : ∀ o : Obj, ∀ u ∈ classes o, ∀ s, u.2 = some s → s = "list".toList ∨ s = "map".toList
  | .comp _ _ ms, u, hu, s, hs => by
    rw [classes, List.mem_cons] at hu
    rcases hu with rfl | hu
    · cases hs
    · exact sources_members ms u hu s hs
  | .list _ _ es, u, hu, s, hs => by
    rw [classes, List.mem_cons] at hu
    rcases hu with rfl | hu
    · cases hs; exact .inl rfl
    · exact sources_elems es u hu s hs
  | .map _ _ es, u, hu, s, hs => by
    rw [classes, List.mem_cons] at hu
    rcases hu with rfl | hu
    · cases hs; exact .inr rfl
    · exact sources_entries es u hu s hs

theorem sources_member : ∀ m : Member, ∀ u ∈ classesMember m, ∀ s, u.2 = some s → s = "list".toList ∨ s = "map".toList
  | .prim _ _ _, _, hu, _, _ => by simp [classesMember] at hu
  | .nullPrim _ _, _, hu, _, _ => by simp [classesMember] at hu
  | .obj _ _ _ o, u, hu, s, hs => sources o u hu s hs
  | .nullObj _ _, _, hu, _, _ => by simp [classesMember] at hu

theorem sources_elem : ∀ e : Elem, ∀ u ∈ classesElem e, ∀ s, u.2 = some s → s = "list".toList ∨ s = "map".toList
  | .prim _, _, hu, _, _ => by simp [classesElem] at hu
  | .nullPrim _, _, hu, _, _ => by simp [classesElem] at hu
  | .obj o, u, hu, s, hs => sources o u hu s hs

theorem sources_members : ∀ ms : List Member, ∀ u ∈ classesMembers ms, ∀ s, u.2 = some s → s = "list".toList ∨ s = "map".toList
  | [], _, hu, _, _ => by cases hu
  | m :: ms, u, hu, s, hs => by
    rw [classesMembers, List.mem_append] at hu
    rcases hu with hu | hu
    · exact sources_member m u hu s hs
    · exact sources_members ms u hu s hs

theorem sources_elems : ∀ es : List Elem, ∀ u ∈ classesElems es, ∀ s, u.2 = some s → s = "list".toList ∨ s = "map".toList
  | [], _, hu, _, _ => by cases hu
  | e :: es, u, hu, s, hs => by
    rw [classesElems, List.mem_append] at hu
    rcases hu with hu | hu
    · exact sources_elem e u hu s hs
    · exact sources_elems es u hu s hs

theorem sources_entries : ∀ es : List Entry, ∀ u ∈ classesEntries es, ∀ s, u.2 = some s → s = "list".toList ∨ s = "map".toList
  | [], _, hu, _, _ => by cases hu
  | .mk a b :: es, u, hu, s, hs => by
    rw [classesEntries, List.mem_append, List.mem_append] at hu
    rcases hu with (hu | hu) | hu
    · exact sources_elem a u hu s hs
    · exact sources_elem b u hu s hs
    · exact sources_entries es u hu s hs

end

theorem proper_written {o : Obj} (h : ObjFits o) {n : Node} (hw : serialise o = .ok [n]) : Proper n := by
  rcases serialise_eq o with ⟨ds, hd, -, h1⟩ | ⟨-, h1⟩ | ⟨-, h1⟩
  · rw [h1] at hw
    simp only [Res.ok.injEq, List.cons.injEq, and_true] at hw
    subst hw
    refine proper_element (by decide) fun p hp => ?_
    simp only [List.mem_cons, List.not_mem_nil, or_false] at hp
    rcases hp with rfl | rfl | rfl
    · exact proper_obj o h
    · refine proper_element (by decide) fun p hp => ?_
      rw [List.mem_singleton.mp hp]
      refine .list _ fun k hk => ?_
      obtain ⟨d, hdd, rfl⟩ := List.mem_map.mp hk
      obtain ⟨u, hu, huk⟩ := List.mem_map.mp ((hd.exact d.key).mp (List.mem_map_of_mem hdd))
      have hf := classes_fit o h u hu
      rw [huk] at hf
      refine proper_class hf.1 hf.2 (fun ps hb p hp => ?_) (fun s hb => ?_)
      · have h2 := (hd.propsExact d hdd ps hb p).mp hp
        unfold firstProp at h2
        obtain ⟨e, he, h3⟩ := List.exists_of_findSome?_eq_some h2
        split at h3
        · cases h3; exact props_fit o h e he
        · cases h3
      · have h2 := mem_of_lookup _ _ _ ((hd.container d hdd s).mp hb)
        rcases sources o _ h2 s rfl with rfl | rfl <;> exact fits_lit (by decide)
    · exact .atom _ trivial
  · rw [h1] at hw; cases hw
  · rw [h1] at hw; cases hw

end Corda
