import Verif.Spec.Size
import Verif.Props.SavedFiles
import Verif.Props.Form

/-
C114: the size of a saved file.
-/

namespace Corda.Props
open Corda Corda.Spec Corda.Programs

private theorem octets_length (w n : Nat) : (Wire.octets w n).length = w := by
  rw [Wire.octets_eq, Wire.length_bytesBE]

private theorem signed_length (w : Nat) (i : Int) : (Wire.signedOctets w i).length = w := octets_length _ _

private theorem text_length (a b : Byte) (s : Str) : (Wire.sizedText a b s).length = textSize s := by
  unfold Wire.sizedText textSize
  split <;> simp [octets_length] <;> omega

private theorem prim_length (v : Prim) : (Wire.encode (primNode v)).length = primSize v := by
  cases v with
  | int n =>
    simp only [primNode, Wire.encode, Wire.encodeAtom, primSize]
    split <;> simp [signed_length]
  | long n =>
    simp only [primNode, Wire.encode, Wire.encodeAtom, primSize]
    split <;> simp [signed_length]
  | string s => simp only [primNode, Wire.encode, Wire.encodeAtom, primSize, text_length]
  | bool b => rfl
  | float n => simp [primNode, Wire.encode, Wire.encodeAtom, primSize, octets_length]
  | double n => simp [primNode, Wire.encode, Wire.encodeAtom, primSize, octets_length]
  | char n => simp [primNode, Wire.encode, Wire.encodeAtom, primSize, octets_length]

private theorem list_length (ks : List Node) : (Wire.encode (.mk .list ks)).length = listSize ks.length (Wire.encodeAll ks).length := by
  cases ks with
  | nil => rfl
  | cons k ks =>
    simp only [Wire.encode, List.length_cons, List.length_append, octets_length, listSize, if_neg (Nat.succ_ne_zero _)]
    omega

private theorem map_length (ks : List Node) : (Wire.encode (.mk .map ks)).length = 9 + (Wire.encodeAll ks).length := by
  simp only [Wire.encode, List.length_cons, List.length_append, octets_length]
  omega

private theorem described_length (f : Str) (n : Node) : (Wire.encode (.mk .described [.mk (.symbol f) [], n])).length = 1 + textSize f + (Wire.encode n).length := by
  simp only [Wire.encode, Wire.encodeAll, Wire.encodeAtom, List.length_cons, List.length_append, text_length, List.length_nil]
  omega

private theorem memberTrees_length (ms : List Member) : (memberTrees ms).length = ms.length := by
  induction ms with
  | nil => rw [memberTrees]; rfl
  | cons m ms ih => rw [memberTrees, List.length_cons, ih, List.length_cons]

private theorem elemTrees_length (es : List Elem) : (elemTrees es).length = es.length := by
  induction es with
  | nil => rw [elemTrees]; rfl
  | cons m ms ih => rw [elemTrees, List.length_cons, ih, List.length_cons]

mutual

private theorem obj_length : (o : Obj) → (Wire.encode (objTree o)).length = objSize o
  | .comp _ f ms => by rw [objTree, describedNode, described_length, list_length, memberTrees_length, members_length ms, objSize]
  | .list _ f es => by rw [objTree, describedNode, described_length, list_length, elemTrees_length, elems_length es, objSize]
  | .map _ f es => by rw [objTree, describedNode, described_length, map_length, entries_length es, objSize]

private theorem member_length : (m : Member) → (Wire.encode (memberTree m)).length = memberSize m
  | .prim _ _ v => by rw [memberTree, memberSize, prim_length]
  | .nullPrim _ _ => by rw [memberTree, memberSize]; rfl
  | .obj _ _ _ o => by rw [memberTree, memberSize, obj_length o]
  | .nullObj _ _ => by rw [memberTree, memberSize]; rfl

private theorem elem_length : (e : Elem) → (Wire.encode (elemTree e)).length = elemSize e
  | .prim v => by rw [elemTree, elemSize, prim_length]
  | .nullPrim _ => by rw [elemTree, elemSize]; rfl
  | .obj o => by rw [elemTree, elemSize, obj_length o]

private theorem members_length : (ms : List Member) → (Wire.encodeAll (memberTrees ms)).length = membersSize ms
  | [] => by rw [memberTrees, membersSize]; rfl
  | m :: ms => by rw [memberTrees, membersSize, Wire.encodeAll, List.length_append, member_length m, members_length ms]

private theorem elems_length : (es : List Elem) → (Wire.encodeAll (elemTrees es)).length = elemsSize es
  | [] => by rw [elemTrees, elemsSize]; rfl
  | e :: es => by rw [elemTrees, elemsSize, Wire.encodeAll, List.length_append, elem_length e, elems_length es]

private theorem entries_length : (es : List Entry) → (Wire.encodeAll (Spec.entryTrees es)).length = entriesSize es
  | [] => by rw [Spec.entryTrees, entriesSize]; rfl
  | .mk k v :: es => by
    rw [Spec.entryTrees, entriesSize, Wire.encodeAll, Wire.encodeAll, List.length_append, List.length_append, elem_length k, elem_length v, entries_length es]
    omega

end

private theorem element_length (i : Nat) (k : Node) (ks : List Node) :
    (Wire.encode (element i (k :: ks))).length = elementSize (Wire.encodeAll (k :: ks)).length := by
  have h : ¬ cordaId i < 256 := by unfold cordaId; omega
  simp only [element, Wire.encode, Wire.encodeAll, Wire.encodeAtom, if_neg h, List.length_cons, List.length_append, octets_length, elementSize, List.length_nil]
  omega

private theorem str_length (s : Str) : (Wire.encode (str s)).length = textSize s := by
  simp only [str, Wire.encode, Wire.encodeAtom, text_length]

private theorem sym_length (s : Str) : (Wire.encode (sym s)).length = textSize s := by
  simp only [sym, Wire.encode, Wire.encodeAtom, text_length]

private theorem all_length {α : Type} (f : α → Node) (g : α → Nat) (h : ∀ a, (Wire.encode (f a)).length = g a) (l : List α) :
    (Wire.encodeAll (l.map f)).length = (l.map g).sum := by
  induction l with
  | nil => rfl
  | cons a l ih => rw [List.map_cons, Wire.encodeAll, List.length_append, h, ih, List.map_cons, List.sum_cons]

private theorem strList_length (ss : List Str) : (Wire.encode (strList ss)).length = listSize ss.length (ss.map textSize).sum := by
  rw [strList, list_length, List.length_map, all_length str textSize str_length]

private theorem bool_length (b : Bool) : (Wire.encode (.mk (.bool b) [])).length = 1 := rfl

private theorem null_length : (Wire.encode (.mk .null [])).length = 1 := rfl

private theorem field_length (d : PropDesc) : (Wire.encode d.tree).length = propSize d := by
  rw [PropDesc.tree, fieldTree, element_length]
  simp only [Wire.encodeAll, List.length_append, str_length, strList_length, bool_length, propSize, textSize, List.length_nil]
  simp only [show (0 : Nat) < 256 by decide, if_true]
  unfold elementSize
  omega

private theorem object_length (f : Str) : (Wire.encode (objectTree f)).length = elementSize (textSize f + 1) := by
  rw [objectTree, element_length]
  simp only [Wire.encodeAll, List.length_append, sym_length, null_length, List.length_nil]

private theorem class_length (d : ClassDesc) : (Wire.encode d.tree).length = classSize d := by
  obtain ⟨k, b⟩ := d
  cases b with
  | inl ps =>
    simp only [ClassDesc.tree, classSize, headSize, compositeTree, element_length, Wire.encodeAll, List.length_append, str_length, strList_length, object_length,
      list_length, all_length PropDesc.tree propSize field_length, List.length_map, List.length_nil]
    have e : textSize [] = 2 := rfl
    have e' : ∀ x, listSize 0 x = 1 := fun x => rfl
    rw [e, e']
    unfold elementSize
    omega
  | inr src =>
    simp only [ClassDesc.tree, classSize, headSize, restrictedTree, element_length, Wire.encodeAll, List.length_append, str_length, strList_length, object_length,
      list_length, List.length_nil]
    have e : textSize [] = 2 := rfl
    have e' : ∀ x, listSize 0 x = 1 := fun x => rfl
    rw [e, e', e']
    unfold elementSize
    omega

private theorem blob_length (o : Obj) (ds : List ClassDesc) :
    8 + (Wire.encode (envelopeTree (objTree o) (schemaTree (ds.map ClassDesc.tree)) (.mk .null []))).length = fileSize o ds := by
  rw [envelopeTree, element_length]
  simp only [Wire.encodeAll, List.length_append, obj_length, schemaTree, element_length, list_length, all_length ClassDesc.tree classSize class_length, List.length_map,
    null_length, List.length_nil, fileSize]
  rfl

/-- **C114.** The size of the file a program writes for an object is what its values, its texts and the descriptions of its classes take, each class once. -/
theorem C114_size (w : Compiled) (f : ProgFiles) (creates : Str → Bool) (made : List Str) (o : Obj) (path : Str) (n : Node) (h : serialise o = .ok [n])
    (hc : creates path = true) :
    ∃ bytes ds, (writerMain w f (protonWorld creates) made o [path]).written = [(path, bytes)] ∧ Describes o ds ∧ bytes.length = fileSize o ds := by
  obtain ⟨ds, hn, hd⟩ := C32_order o [n] h
  refine ⟨magic ++ 0 :: Wire.encode n, ds, ?_, hd, ?_⟩
  · rw [C106_run w f _ made o path n h]
    exact if_pos hc
  · cases hn
    rw [← blob_length, List.length_append, List.length_cons]
    have : magic.length = 7 := by decide
    omega

/-- The size of the file that is written for an object. -/
private theorem size_of {o : Obj} {n : Node} (h : serialise o = .ok [n]) {ds : List ClassDesc}
    (hn : [n] = [envelopeTree (objTree o) (schemaTree (ds.map ClassDesc.tree)) (.mk .null [])]) : 8 + (Wire.encode n).length = fileSize o ds := by
  cases hn
  exact blob_length o ds

/-- **C114, same classes**: the sizes of two files with objects of the same classes differ by what the objects themselves take. -/
theorem C114_same (o o' : Obj) (hc : ∀ k, (classes o).lookup k = (classes o').lookup k)
    (hp : ∀ k n, firstProp (props o) k n = firstProp (props o') k n) (n n' : Node) (hs : serialise o = .ok [n]) (hs' : serialise o' = .ok [n']) :
    (Wire.encode n).length + objSize o' = (Wire.encode n').length + objSize o := by
  obtain ⟨schema, h1, h2⟩ := C108_classes o o' hc hp _ _ hs hs'
  cases h1
  cases h2
  simp only [envelopeTree, element_length, Wire.encodeAll, List.length_append, obj_length, elementSize]
  omega

private theorem classesElems_append (as bs : List Elem) : classesElems (as ++ bs) = classesElems as ++ classesElems bs := by
  induction as with
  | nil => rw [classesElems]; rfl
  | cons a as ih => rw [List.cons_append, classesElems, classesElems, ih, List.append_assoc]

private theorem propsElems_append (as bs : List Elem) : propsElems (as ++ bs) = propsElems as ++ propsElems bs := by
  induction as with
  | nil => rw [propsElems]; rfl
  | cons a as ih => rw [List.cons_append, propsElems, propsElems, ih, List.append_assoc]

private theorem elemsSize_append (as bs : List Elem) : elemsSize (as ++ bs) = elemsSize as + elemsSize bs := by
  induction as with
  | nil => simp [elemsSize]
  | cons a as ih => rw [List.cons_append, elemsSize, elemsSize, ih]; omega

private theorem mem_classesOf (es : List Elem) (x : ClassUse) : x ∈ classesElems es ↔ ∃ e ∈ es, x ∈ classesElem e := by
  induction es with
  | nil => simp [classesElems]
  | cons e es ih => simp [classesElems, ih]

private theorem mem_propsOf (es : List Elem) (x : (Str × Str) × PropDesc) : x ∈ propsElems es ↔ ∃ e ∈ es, x ∈ propsElem e := by
  induction es with
  | nil => simp [propsElems]
  | cons e es ih => simp [propsElems, ih]

private theorem lookup_more {α β : Type} [BEq α] [LawfulBEq α] (a b : List (α × β)) (h : ∀ x ∈ b, x ∈ a) (k : α) : (a ++ b).lookup k = a.lookup k := by
  rw [List.lookup_append]
  cases ha : a.lookup k with
  | some v => rfl
  | none =>
    cases hb : b.lookup k with
    | none => rfl
    | some v =>
      obtain ⟨l1, l2, hl, -⟩ := List.lookup_eq_some_iff.mp hb
      have hm := h (k, v) (by rw [hl]; simp)
      rw [List.lookup_eq_none_iff] at ha
      exact absurd (ha _ hm) (by simp)

private theorem find_more {α β : Type} (f : α → Option β) (a b : List α) (h : ∀ x ∈ b, x ∈ a) : (a ++ b).findSome? f = a.findSome? f := by
  rw [List.findSome?_append]
  cases ha : a.findSome? f with
  | some v => rfl
  | none =>
    cases hb : b.findSome? f with
    | none => rfl
    | some v =>
      obtain ⟨x, hx, hf⟩ := List.exists_of_findSome?_eq_some hb
      rw [List.findSome?_eq_none_iff] at ha
      rw [ha x (h x hx)] at hf
      cases hf

/-- **C114, longer lists**: further elements, of the same classes as some that were there, take what they take by themselves, however many there are already: no description is
repeated. -/
theorem C114_more (name fp : Str) (es es' : List Elem) (hne : es ≠ [])
    (h : ∀ e ∈ es', ∃ e' ∈ es, classesElem e = classesElem e' ∧ propsElem e = propsElem e')
    (n n' : Node) (hs : serialise (.list name fp es) = .ok [n]) (hs' : serialise (.list name fp (es ++ es')) = .ok [n']) :
    (Wire.encode n').length = (Wire.encode n).length + elemsSize es' := by
  have e := C114_same (.list name fp es) (.list name fp (es ++ es')) (fun k => by
      rw [classes, classes, classesElems_append, ← List.cons_append, lookup_more]
      intro x hx
      obtain ⟨e, he, hx⟩ := (mem_classesOf es' x).1 hx
      obtain ⟨e', he', h1, -⟩ := h e he
      rw [h1] at hx
      exact List.mem_cons_of_mem _ ((mem_classesOf es x).2 ⟨e', he', hx⟩))
    (fun k m => by
      rw [props, props, propsElems_append, firstProp, firstProp, find_more]
      intro x hx
      obtain ⟨e, he, hx⟩ := (mem_propsOf es' x).1 hx
      obtain ⟨e', he', -, h1⟩ := h e he
      rw [h1] at hx
      exact (mem_propsOf es x).2 ⟨e', he', hx⟩) n n' hs hs'
  rw [objSize, objSize, elemsSize_append, listSize, listSize, List.length_append] at e
  have : es.length ≠ 0 := by simpa using hne
  rw [if_neg this, if_neg (by omega)] at e
  omega

private theorem sum_le {α : Type} [DecidableEq α] (g : α → Nat) (l m : List α) (hn : l.Nodup) (h : ∀ x ∈ l, x ∈ m) : (l.map g).sum ≤ (m.map g).sum := by
  induction l generalizing m with
  | nil => simp
  | cons a l ih =>
    obtain ⟨ha, hn⟩ := List.nodup_cons.mp hn
    have hm := h a (by simp)
    have h1 := ih (m.erase a) hn (fun x hx => (List.mem_erase_of_ne (fun e : x = a => ha (e ▸ hx))).2 (h x (by simp [hx])))
    have h2 : (m.map g).sum = g a + ((m.erase a).map g).sum := by
      have := ((List.perm_cons_erase hm).map g).sum_nat
      rw [this, List.map_cons, List.sum_cons]
    rw [List.map_cons, List.sum_cons, h2]
    omega

/-- The class use a description stands for. -/
private def useOf (d : ClassDesc) : ClassUse := (d.key, match d.body with | .inl _ => none | .inr src => some src)

private def propsIn (d : ClassDesc) : List ((Str × Str) × PropDesc) := match d.body with | .inl ps => ps.map fun p => (d.key, p) | .inr _ => []

private theorem class_parts (d : ClassDesc) : classSize d ≤ (headSize (useOf d).1 (useOf d).2 + 9) + ((propsIn d).map fun u => propSize u.2).sum := by
  obtain ⟨k, b⟩ := d
  cases b with
  | inl ps =>
    simp only [classSize, useOf, propsIn, List.map_map, listSize]
    have : ((fun u : (Str × Str) × PropDesc => propSize u.2) ∘ fun p => (k, p)) = propSize := rfl
    rw [this]
    split <;> omega
  | inr src =>
    simp only [classSize, useOf, propsIn]
    omega

private theorem classes_parts (ds : List ClassDesc) : (ds.map classSize).sum
    ≤ ((ds.map useOf).map fun u => headSize u.1 u.2 + 9).sum + ((ds.flatMap propsIn).map fun u => propSize u.2).sum := by
  induction ds with
  | nil => simp
  | cons d ds ih =>
    have := class_parts d
    simp only [List.map_cons, List.sum_cons, List.flatMap_cons, List.map_append, List.sum_append]
    simp only [List.map_map] at ih ⊢
    omega

private theorem nodup_of_map {α β : Type} (f : α → β) {l : List α} (h : (l.map f).Nodup) : l.Nodup := by
  induction l with
  | nil => exact List.nodup_nil
  | cons a l ih =>
    rw [List.map_cons, List.nodup_cons] at h
    exact List.nodup_cons.mpr ⟨fun ha => h.1 (List.mem_map.mpr ⟨a, ha, rfl⟩), ih h.2⟩

private theorem mem_of_lookup {α β : Type} [BEq α] [LawfulBEq α] {l : List (α × β)} {x : α × β} (h : l.lookup x.1 = some x.2) : x ∈ l := by
  obtain ⟨l1, l2, hl, -⟩ := List.lookup_eq_some_iff.mp h
  rw [hl]
  simp

private theorem lookup_of_mem {α β : Type} [BEq α] [LawfulBEq α] {l : List (α × β)} {k : α} (h : k ∈ l.map Prod.fst) : ∃ v, l.lookup k = some v := by
  cases hk : l.lookup k with
  | some v => exact ⟨v, rfl⟩
  | none =>
    obtain ⟨x, hx, rfl⟩ := List.mem_map.mp h
    rw [List.lookup_eq_none_iff] at hk
    exact absurd (hk x hx) (by simp)

private theorem nodup_props {ds : List ClassDesc} (h : (ds.map ClassDesc.key).Nodup) (hp : ∀ d ∈ ds, ∀ ps, d.body = .inl ps → (ps.map PropDesc.name).Nodup) :
    (ds.flatMap propsIn).Nodup := by
  induction ds with
  | nil => exact List.nodup_nil
  | cons d ds ih =>
    rw [List.map_cons, List.nodup_cons] at h
    rw [List.flatMap_cons, List.nodup_append]
    refine ⟨?_, ih h.2 (fun d hd => hp d (List.mem_cons_of_mem _ hd)), ?_⟩
    · have := hp d (List.mem_cons_self ..)
      obtain ⟨k, b⟩ := d
      cases b with
      | inr src => exact List.nodup_nil
      | inl ps =>
        refine nodup_of_map (fun u => u.2.name) ?_
        show ((ps.map fun p => (k, p)).map fun u : (Str × Str) × PropDesc => u.2.name).Nodup
        rw [List.map_map]
        exact this ps rfl
    · intro a ha b hb e
      subst e
      obtain ⟨d', hd', hb⟩ := List.mem_flatMap.mp hb
      have key : ∀ d : ClassDesc, a ∈ propsIn d → a.1 = d.key := by
        intro d h
        obtain ⟨k, b⟩ := d
        cases b with
        | inr src => cases h
        | inl ps =>
          obtain ⟨p, -, rfl⟩ := List.mem_map.mp h
          rfl
      refine h.1 ?_
      rw [← key d ha, key d' hb]
      exact List.mem_map.mpr ⟨d', hd', rfl⟩

/-- **C114, a bound** that needs only the object: never more than if everything was described wherever it is used. -/
theorem C114_bound (o : Obj) (n : Node) (hs : serialise o = .ok [n]) : 8 + (Wire.encode n).length ≤ fileBound o := by
  obtain ⟨ds, hn, hd⟩ := C32_order o [n] hs
  rw [size_of hs hn]
  have h1 : ((ds.map useOf).map fun u => headSize u.1 u.2 + 9).sum ≤ ((classes o).map fun u => headSize u.1 u.2 + 9).sum := by
    refine sum_le _ _ _ ?_ ?_
    · have : (ds.map useOf).map Prod.fst = ds.map ClassDesc.key := by rw [List.map_map]; rfl
      refine nodup_of_map Prod.fst ?_
      rw [this]
      exact hd.once
    · intro x hx
      obtain ⟨d, hm, rfl⟩ := List.mem_map.mp hx
      refine mem_of_lookup ?_
      obtain ⟨k, b⟩ := d
      cases b with
      | inr src => exact (hd.container _ hm src).1 rfl
      | inl ps =>
        have h1 := (hd.exact k).1 (List.mem_map.mpr ⟨_, hm, rfl⟩)
        obtain ⟨v, hv⟩ := lookup_of_mem h1
        cases v with
        | none => exact hv
        | some src => exact absurd ((hd.container _ hm src).2 hv) (fun h => by cases h)
  have h2 : ((ds.flatMap propsIn).map fun u => propSize u.2).sum ≤ ((props o).map fun u => propSize u.2).sum := by
    refine sum_le _ _ _ ?_ ?_
    · exact nodup_props hd.once hd.propsOnce
    · intro x hx
      obtain ⟨d, hm, hx⟩ := List.mem_flatMap.mp hx
      obtain ⟨k, b⟩ := d
      cases b with
      | inr src => cases hx
      | inl ps =>
        obtain ⟨p, hp, rfl⟩ := List.mem_map.mp hx
        have h1 := (hd.propsExact _ hm ps rfl p).1 hp
        obtain ⟨e, he, h2⟩ := List.exists_of_findSome?_eq_some h1
        split at h2
        · rename_i h3
          cases h2
          rw [← h3.1]
          exact he
        · cases h2
  have h3 := classes_parts ds
  simp only [fileSize, fileBound, elementSize, listSize]
  split <;> omega

private theorem text_le (s : Str) : textSize s ≤ 5 + s.length := by
  unfold textSize
  split <;> omega

private theorem prim_le (v : Prim) : primSize v ≤ 15 + primLetters v := by
  cases v <;> simp only [primSize, primLetters] <;> first | omega | (split <;> omega) | (have := text_le ‹Str›; omega)

mutual

private theorem obj_le : (o : Obj) → objSize o ≤ 15 * valueCount o + letterCount o
  | .comp _ f ms => by
    rw [objSize, valueCount, letterCount, listSize]
    have := members_le ms
    have := text_le f
    split <;> omega
  | .list _ f es => by
    rw [objSize, valueCount, letterCount, listSize]
    have := elems_le es
    have := text_le f
    split <;> omega
  | .map _ f es => by
    rw [objSize, valueCount, letterCount]
    have := entries_le es
    have := text_le f
    omega

private theorem members_le : (ms : List Member) → membersSize ms ≤ 15 * memberCount ms + memberLetters ms
  | [] => by simp [membersSize]
  | .prim _ _ v :: ms => by
    rw [membersSize, memberSize, memberCount, memberLetters]
    · have := members_le ms
      have := prim_le v
      omega
    · intro _ _ _ _ h; cases h
  | .nullPrim _ _ :: ms => by
    rw [membersSize, memberSize, memberCount, memberLetters]
    · have := members_le ms
      omega
    all_goals (intros; rename_i h; cases h)
  | .nullObj _ _ :: ms => by
    rw [membersSize, memberSize, memberCount, memberLetters]
    · have := members_le ms
      omega
    all_goals (intros; rename_i h; cases h)
  | .obj _ _ _ o :: ms => by
    rw [membersSize, memberSize, memberCount, memberLetters]
    have := members_le ms
    have := obj_le o
    omega

private theorem elem_le : (e : Elem) → elemSize e ≤ 15 * valueCountIn e + lettersIn e
  | .prim v => by
    rw [elemSize, valueCountIn, lettersIn]
    · have := prim_le v
      omega
    · intro _ h; cases h
  | .nullPrim _ => by
    rw [elemSize, valueCountIn, lettersIn]
    · omega
    · intro _ h; cases h
  | .obj o => by
    rw [elemSize, valueCountIn, lettersIn]
    exact obj_le o

private theorem elems_le : (es : List Elem) → elemsSize es ≤ 15 * elemCount es + elemLetters es
  | [] => by simp [elemsSize]
  | e :: es => by
    rw [elemsSize, elemCount, elemLetters]
    have := elem_le e
    have := elems_le es
    omega

private theorem entries_le : (es : List Entry) → entriesSize es ≤ 15 * entryCount es + entryLetters es
  | [] => by simp [entriesSize]
  | .mk k v :: es => by
    rw [entriesSize, entryCount, entryLetters]
    have := elem_le k
    have := elem_le v
    have := entries_le es
    omega

end

/-- **C114, values**: an object takes at most 15 bytes for each value in it, and one for each letter. -/
theorem C114_linear (o : Obj) : objSize o ≤ 15 * valueCount o + letterCount o := obj_le o

/-- A list of three objects with a number each. -/
private def three : Obj :=
  .list "L".toList "l".toList [.obj (.comp "A".toList "f".toList [.prim "a".toList false (.int 7)]), .obj (.comp "A".toList "f".toList [.prim "a".toList false (.int 1000)]),
    .obj (.comp "A".toList "f".toList [.nullPrim "a".toList .int])]

/-- The object takes 60 bytes, its file 262; if each object was described by itself, it would be at most 453. -/
example : objSize three = 60 ∧ (match serialise three with | .ok [n] => 8 + (Wire.encode n).length | _ => 0) = 262 ∧ fileBound three = 453 := by decide +kernel

#print axioms C114_linear
#print axioms C114_size
#print axioms C114_same
#print axioms C114_more
#print axioms C114_bound

end Corda.Props
