import Verif.Spec.Conforms
import Verif.Props.Shown

/-
Lemmas about object graphs of given classes.
-/

namespace Corda.Props
open Corda Spec

mutual

theorem classes_shapes : (o : Obj) → ∀ k, (k, none) ∈ classes o → ∃ a ∈ shapes o, a.1 = k
  | .comp n f ms => by
    intro k hk
    rw [classes] at hk
    rw [shapes]
    rcases List.mem_cons.mp hk with h | h
    · exact ⟨_, List.mem_cons_self, (Prod.ext_iff.mp h).1.symm⟩
    · obtain ⟨a, ha, e⟩ := classes_shapesMembers ms k h
      exact ⟨a, List.mem_cons_of_mem _ ha, e⟩
  | .list n f es => by
    intro k hk
    rw [classes] at hk
    rw [shapes]
    rcases List.mem_cons.mp hk with h | h
    · cases (Prod.ext_iff.mp h).2
    · exact classes_shapesElems es k h
  | .map n f es => by
    intro k hk
    rw [classes] at hk
    rw [shapes]
    rcases List.mem_cons.mp hk with h | h
    · cases (Prod.ext_iff.mp h).2
    · exact classes_shapesEntries es k h

theorem classes_shapesMember : (m : Member) → ∀ k, (k, none) ∈ classesMember m → ∃ a ∈ shapesMember m, a.1 = k
  | .obj n t ptr o => by
    intro k hk
    rw [classesMember] at hk
    rw [shapesMember]
    exact classes_shapes o k hk
  | .prim _ _ _ => by intro a ha; simp [classesMember] at ha
  | .nullPrim _ _ => by intro a ha; simp [classesMember] at ha
  | .nullObj _ _ => by intro a ha; simp [classesMember] at ha

theorem classes_shapesMembers : (ms : List Member) → ∀ k, (k, none) ∈ classesMembers ms → ∃ a ∈ shapesMembers ms, a.1 = k
  | [] => by intro k hk; simp [classesMembers] at hk
  | m :: ms => by
    intro k hk
    rw [classesMembers] at hk
    rw [shapesMembers]
    rcases List.mem_append.mp hk with h | h
    · obtain ⟨a, ha, e⟩ := classes_shapesMember m k h
      exact ⟨a, List.mem_append_left _ ha, e⟩
    · obtain ⟨a, ha, e⟩ := classes_shapesMembers ms k h
      exact ⟨a, List.mem_append_right _ ha, e⟩

theorem classes_shapesElem : (e : Elem) → ∀ k, (k, none) ∈ classesElem e → ∃ a ∈ shapesElem e, a.1 = k
  | .obj o => by
    intro k hk
    rw [classesElem] at hk
    rw [shapesElem]
    exact classes_shapes o k hk
  | .prim _ => by intro a ha; simp [classesElem] at ha
  | .nullPrim _ => by intro a ha; simp [classesElem] at ha

theorem classes_shapesElems : (es : List Elem) → ∀ k, (k, none) ∈ classesElems es → ∃ a ∈ shapesElems es, a.1 = k
  | [] => by intro k hk; simp [classesElems] at hk
  | e :: es => by
    intro k hk
    rw [classesElems] at hk
    rw [shapesElems]
    rcases List.mem_append.mp hk with h | h
    · obtain ⟨a, ha, e⟩ := classes_shapesElem e k h
      exact ⟨a, List.mem_append_left _ ha, e⟩
    · obtain ⟨a, ha, e⟩ := classes_shapesElems es k h
      exact ⟨a, List.mem_append_right _ ha, e⟩

theorem classes_shapesEntries : (es : List Entry) → ∀ k, (k, none) ∈ classesEntries es → ∃ a ∈ shapesEntries es, a.1 = k
  | [] => by intro k hk; simp [classesEntries] at hk
  | .mk x v :: es => by
    intro k hk
    rw [classesEntries] at hk
    rw [shapesEntries]
    rcases List.mem_append.mp hk with h | h
    · rcases List.mem_append.mp h with h | h
      · obtain ⟨a, ha, e⟩ := classes_shapesElem x k h
        exact ⟨a, List.mem_append_left _ (List.mem_append_left _ ha), e⟩
      · obtain ⟨a, ha, e⟩ := classes_shapesElem v k h
        exact ⟨a, List.mem_append_left _ (List.mem_append_right _ ha), e⟩
    · obtain ⟨a, ha, e⟩ := classes_shapesEntries es k h
      exact ⟨a, List.mem_append_right _ ha, e⟩

end

theorem sorted_inj {α κ : Type} {lt : κ → κ → Bool} (ho : StrictOrder lt) (f : α → κ) :
    ∀ {l : List α}, l.Pairwise (fun a b => lt (f a) (f b) = true) → ∀ x ∈ l, ∀ y ∈ l, f x = f y → x = y
  | [], _, _, hx => by simp at hx
  | a :: l, h, x, hx => by
    rw [List.pairwise_cons] at h
    intro y hy he
    rcases List.mem_cons.mp hx with h1 | h1 <;> rcases List.mem_cons.mp hy with h2 | h2
    · rw [h1, h2]
    · have := h.1 y h2
      rw [← h1, he, ho.irrefl] at this
      cases this
    · have := h.1 x h1
      rw [← h2, he, ho.irrefl] at this
      cases this
    · exact sorted_inj ho f h.2 x h1 y h2 he

theorem sorted_nodup {α κ : Type} {lt : κ → κ → Bool} (ho : StrictOrder lt) (f : α → κ) {l : List α}
    (h : l.Pairwise (fun a b => lt (f a) (f b) = true)) : (l.map f).Nodup := by
  unfold List.Nodup
  rw [List.pairwise_map]
  exact h.imp fun {a b} hab he => by rw [he, ho.irrefl] at hab; cases hab

theorem use_key {d : ClassDesc} : d.use.1 = d.key := rfl

/-- What it takes for an object graph to be written with a given schema. -/
theorem conforms_describes {ds : List ClassDesc} {o : Obj} (hc : Conforms ds o) (ha : InAlphabet ds) :
    Describes o ds ∧ NoClash o ∧ Uniform o ∧ Alphabetical o := by
  have inj := sorted_inj keyOrder ClassDesc.key ha.classes
  have huse : ∀ u ∈ classes o, ∃ d ∈ ds, d.use = u := fun u hu => List.mem_map.mp (hc.known u hu)
  have hno : NoClash o := by
    intro a hA b hB he
    obtain ⟨d, hd, rfl⟩ := huse a hA
    obtain ⟨e, he', rfl⟩ := huse b hB
    rw [inj d hd e he' he]
  have huni : Uniform o := by
    intro a hA b hB he
    have := inj _ (hc.props a hA) _ (hc.props b hB) he
    simp only [ClassDesc.mk.injEq, Sum.inl.injEq] at this
    exact this.2
  have hal : Alphabetical o := fun a hA => ha.props _ (hc.props a hA) _ rfl
  refine ⟨⟨ha.classes, sorted_nodup keyOrder _ ha.classes, ?_, ?_, ha.props,
    fun d hd ps hb => sorted_nodup strOrder _ (ha.props d hd ps hb), ?_⟩, hno, huni, hal⟩
  · intro k
    constructor
    · intro h
      obtain ⟨d, hd, rfl⟩ := List.mem_map.mp h
      exact List.mem_map.mpr ⟨_, hc.used d hd, rfl⟩
    · intro h
      obtain ⟨u, hu, rfl⟩ := List.mem_map.mp h
      obtain ⟨d, hd, rfl⟩ := huse u hu
      exact List.mem_map.mpr ⟨d, hd, rfl⟩
  · intro d hd src
    obtain ⟨k, hk⟩ := lookup_isSome_of_mem (hc.used d hd)
    rw [use_key] at hk
    have hm := mem_of_lookup _ _ _ hk
    have := hno _ hm _ (hc.used d hd) rfl
    rw [hk]
    simp only at this
    subst this
    unfold ClassDesc.use
    cases hb : d.body with
    | inl ps => simp
    | inr s => simp
  · intro d hd ps hb p
    have hcl : (d.key, none) ∈ classes o := by
      have := hc.used d hd
      unfold ClassDesc.use at this
      rwa [hb] at this
    obtain ⟨a, hA, hak⟩ := classes_shapes o d.key hcl
    have hd' : d = ⟨a.1, .inl a.2⟩ := inj d hd _ (hc.props a hA) hak.symm
    have hps : ps = a.2 := by rw [hd'] at hb; simpa using hb.symm
    have hmem : ∀ q, (d.key, q) ∈ props o ↔ q ∈ ps := by
      intro q
      rw [mem_props]
      constructor
      · rintro ⟨b, hB, h1, h2⟩
        have := huni a hA b hB (by rw [hak]; exact h1.symm)
        rw [hps, this]
        exact h2
      · intro hq
        exact ⟨a, hA, hak, hps ▸ hq⟩
    have hinj := sorted_inj strOrder PropDesc.name (ha.props d hd ps hb)
    unfold firstProp
    constructor
    · intro hp
      cases hf : (props o).findSome? (fun e => if e.1 = d.key ∧ e.2.name = p.name then some e.2 else none) with
      | none =>
        have := List.findSome?_eq_none_iff.mp hf _ ((hmem p).2 hp)
        simp at this
      | some q =>
        obtain ⟨e, he, heq⟩ := List.exists_of_findSome?_eq_some hf
        by_cases hcnd : e.1 = d.key ∧ e.2.name = p.name
        · rw [if_pos hcnd] at heq
          have heq : e.2 = q := by simpa using heq
          subst heq
          have : e.2 ∈ ps := (hmem e.2).1 (by rw [← hcnd.1]; exact he)
          rw [hinj _ this _ hp hcnd.2]
        · rw [if_neg hcnd] at heq; simp at heq
    · intro h
      obtain ⟨e, he, heq⟩ := List.exists_of_findSome?_eq_some h
      by_cases hcnd : e.1 = d.key ∧ e.2.name = p.name
      · rw [if_pos hcnd] at heq
        have heq : e.2 = p := by simpa using heq
        subst heq
        exact (hmem e.2).1 (by rw [← hcnd.1]; exact he)
      · rw [if_neg hcnd] at heq; simp at heq

theorem mem_classesElems {es : List Elem} {u : ClassUse} : u ∈ classesElems es ↔ ∃ e ∈ es, u ∈ classesElem e := by
  induction es with
  | nil => simp [classesElems]
  | cons e es ih => rw [classesElems, List.mem_append, ih]; simp

theorem mem_shapesElems {es : List Elem} {a : (Str × Str) × List PropDesc} : a ∈ shapesElems es ↔ ∃ e ∈ es, a ∈ shapesElem e := by
  induction es with
  | nil => simp [shapesElems]
  | cons e es ih => rw [shapesElems, List.mem_append, ih]; simp

theorem showableElems_iff {ts : List TypeNotation} {l : Str} {es : List Elem} :
    ShowableElems ts l es ↔ ∀ e ∈ es, ShowableElem ts l e := by
  induction es with
  | nil => simp [ShowableElems]
  | cons e es ih => rw [ShowableElems, ih]; simp

theorem mem_classesEntries {es : List Entry} {u : ClassUse} :
    u ∈ classesEntries es ↔ ∃ k v, Entry.mk k v ∈ es ∧ (u ∈ classesElem k ∨ u ∈ classesElem v) := by
  induction es with
  | nil => simp [classesEntries]
  | cons e es ih =>
    obtain ⟨k, v⟩ := e
    rw [classesEntries, List.mem_append, List.mem_append, ih]
    constructor
    · rintro (h | ⟨k', v', h, h'⟩)
      · exact ⟨k, v, List.mem_cons_self, h⟩
      · exact ⟨k', v', List.mem_cons_of_mem _ h, h'⟩
    · rintro ⟨k', v', h, h'⟩
      rcases List.mem_cons.mp h with h | h
      · cases h; exact .inl h'
      · exact .inr ⟨k', v', h, h'⟩

theorem mem_shapesEntries {es : List Entry} {a : (Str × Str) × List PropDesc} :
    a ∈ shapesEntries es ↔ ∃ k v, Entry.mk k v ∈ es ∧ (a ∈ shapesElem k ∨ a ∈ shapesElem v) := by
  induction es with
  | nil => simp [shapesEntries]
  | cons e es ih =>
    obtain ⟨k, v⟩ := e
    rw [shapesEntries, List.mem_append, List.mem_append, ih]
    constructor
    · rintro (h | ⟨k', v', h, h'⟩)
      · exact ⟨k, v, List.mem_cons_self, h⟩
      · exact ⟨k', v', List.mem_cons_of_mem _ h, h'⟩
    · rintro ⟨k', v', h, h'⟩
      rcases List.mem_cons.mp h with h | h
      · cases h; exact .inl h'
      · exact .inr ⟨k', v', h, h'⟩

theorem showableEntries_iff {ts : List TypeNotation} {k v : Str} {es : List Entry} :
    ShowableEntries ts k v es ↔ ∀ a b, Entry.mk a b ∈ es → ShowableElem ts k a ∧ ShowableElem ts v b := by
  induction es with
  | nil => simp [ShowableEntries]
  | cons e es ih =>
    obtain ⟨a, b⟩ := e
    rw [ShowableEntries, ih]
    constructor
    · rintro ⟨h1, h2, h3⟩ a' b' h
      rcases List.mem_cons.mp h with h | h
      · cases h; exact ⟨h1, h2⟩
      · exact h3 a' b' h
    · intro h
      exact ⟨(h a b List.mem_cons_self).1, (h a b List.mem_cons_self).2, fun a' b' h' => h a' b' (List.mem_cons_of_mem _ h')⟩

end Corda.Props

namespace Corda.Props
open Corda Spec

/-- All objects of the graph are of the classes, with their properties. -/
structure Within (ds : List ClassDesc) (cs : List ClassUse) (ss : List ((Str × Str) × List PropDesc)) : Prop where
  known : ∀ u ∈ cs, u ∈ ds.map ClassDesc.use
  props : ∀ a ∈ ss, (⟨a.1, .inl a.2⟩ : ClassDesc) ∈ ds

theorem Within.append {ds : List ClassDesc} {cs cs' : List ClassUse} {ss ss' : List ((Str × Str) × List PropDesc)} (h : Within ds cs ss)
    (h' : Within ds cs' ss') : Within ds (cs ++ cs') (ss ++ ss') :=
  ⟨fun u hu => (List.mem_append.mp hu).elim (h.known u) (h'.known u), fun u hu => (List.mem_append.mp hu).elim (h.props u) (h'.props u)⟩

theorem Within.nil {ds : List ClassDesc} : Within ds [] [] := ⟨by simp, by simp⟩

abbrev WithinObj (ds : List ClassDesc) (o : Obj) : Prop := Within ds (classes o) (shapes o)
abbrev WithinMember (ds : List ClassDesc) (m : Member) : Prop := Within ds (classesMember m) (shapesMember m)
abbrev WithinElem (ds : List ClassDesc) (e : Elem) : Prop := Within ds (classesElem e) (shapesElem e)

theorem within_members {ds : List ClassDesc} {ms : List Member} (h : ∀ m ∈ ms, WithinMember ds m) :
    Within ds (classesMembers ms) (shapesMembers ms) := by
  induction ms with
  | nil => exact Within.nil
  | cons m ms ih => exact (h m List.mem_cons_self).append (ih fun m' hm => h m' (List.mem_cons_of_mem _ hm))

theorem within_elems {ds : List ClassDesc} {es : List Elem} (h : ∀ e ∈ es, WithinElem ds e) :
    Within ds (classesElems es) (shapesElems es) := by
  induction es with
  | nil => exact Within.nil
  | cons m ms ih => exact (h m List.mem_cons_self).append (ih fun m' hm => h m' (List.mem_cons_of_mem _ hm))

theorem within_entries {ds : List ClassDesc} {es : List Entry} (h : ∀ k v, Entry.mk k v ∈ es → WithinElem ds k ∧ WithinElem ds v) :
    Within ds (classesEntries es) (shapesEntries es) := by
  induction es with
  | nil => exact Within.nil
  | cons e es ih =>
    obtain ⟨k, v⟩ := e
    have h0 := h k v List.mem_cons_self
    exact (h0.1.append h0.2).append (ih fun k v hm => h k v (List.mem_cons_of_mem _ hm))

theorem within_comp {ds : List ClassDesc} {n f : Str} {ms : List Member} (hd : (⟨(n, f), .inl (ms.map memberDesc)⟩ : ClassDesc) ∈ ds)
    (h : ∀ m ∈ ms, WithinMember ds m) : WithinObj ds (.comp n f ms) := by
  have h0 := within_members h
  constructor
  · intro u hu
    rw [classes] at hu
    rcases List.mem_cons.mp hu with rfl | hu
    · exact List.mem_map.mpr ⟨_, hd, rfl⟩
    · exact h0.known u hu
  · intro a ha
    rw [shapes] at ha
    rcases List.mem_cons.mp ha with rfl | ha
    · exact hd
    · exact h0.props a ha

theorem within_list {ds : List ClassDesc} {n f : Str} {es : List Elem} (hd : (⟨(n, f), .inr "list".toList⟩ : ClassDesc) ∈ ds)
    (h : ∀ e ∈ es, WithinElem ds e) : WithinObj ds (.list n f es) := by
  have h0 := within_elems h
  constructor
  · intro u hu
    rw [classes] at hu
    rcases List.mem_cons.mp hu with rfl | hu
    · exact List.mem_map.mpr ⟨_, hd, rfl⟩
    · exact h0.known u hu
  · intro a ha
    rw [shapes] at ha
    exact h0.props a ha

theorem within_map {ds : List ClassDesc} {n f : Str} {es : List Entry} (hd : (⟨(n, f), .inr "map".toList⟩ : ClassDesc) ∈ ds)
    (h : ∀ k v, Entry.mk k v ∈ es → WithinElem ds k ∧ WithinElem ds v) : WithinObj ds (.map n f es) := by
  have h0 := within_entries h
  constructor
  · intro u hu
    rw [classes] at hu
    rcases List.mem_cons.mp hu with rfl | hu
    · exact List.mem_map.mpr ⟨_, hd, rfl⟩
    · exact h0.known u hu
  · intro a ha
    rw [shapes] at ha
    exact h0.props a ha

theorem within_prim {ds : List ClassDesc} (v : Prim) : WithinElem ds (.prim v) := Within.nil
theorem within_nullObj {ds : List ClassDesc} (n t : Str) : WithinMember ds (.nullObj n t) := Within.nil
theorem within_primM {ds : List ClassDesc} (n : Str) (p : Bool) (v : Prim) : WithinMember ds (.prim n p v) := Within.nil
theorem within_objE {ds : List ClassDesc} {o : Obj} (h : WithinObj ds o) : WithinElem ds (.obj o) := h
theorem within_objM {ds : List ClassDesc} {o : Obj} (n t : Str) (p : Bool) (h : WithinObj ds o) : WithinMember ds (.obj n t p o) := h

theorem conforms_of {ds : List ClassDesc} {o : Obj} (h : WithinObj ds o) (hu : ∀ d ∈ ds, d.use ∈ classes o) : Conforms ds o :=
  ⟨h.known, hu, h.props⟩

theorem classes_self_comp (n f : Str) (ms : List Member) : ((n, f), none) ∈ classes (.comp n f ms) := by
  rw [classes]; exact List.mem_cons_self
theorem classes_self_list (n f : Str) (es : List Elem) : ((n, f), some "list".toList) ∈ classes (.list n f es) := by
  rw [classes]; exact List.mem_cons_self
theorem classes_self_map (n f : Str) (es : List Entry) : ((n, f), some "map".toList) ∈ classes (.map n f es) := by
  rw [classes]; exact List.mem_cons_self

theorem classes_in_comp {n f : Str} {ms : List Member} {x t : Str} {p : Bool} {o : Obj} (hm : Member.obj x t p o ∈ ms) {u : ClassUse}
    (hu : u ∈ classes o) : u ∈ classes (.comp n f ms) := by
  rw [classes]
  refine List.mem_cons_of_mem _ ?_
  induction ms with
  | nil => simp at hm
  | cons m ms ih =>
    rw [classesMembers]
    rcases List.mem_cons.mp hm with h | h
    · subst h; exact List.mem_append_left _ (by rw [classesMember]; exact hu)
    · exact List.mem_append_right _ (ih h)

theorem classes_in_list {n f : Str} {es : List Elem} {o : Obj} (hm : Elem.obj o ∈ es) {u : ClassUse} (hu : u ∈ classes o) :
    u ∈ classes (.list n f es) := by
  rw [classes]
  exact List.mem_cons_of_mem _ (mem_classesElems.2 ⟨_, hm, by rw [classesElem]; exact hu⟩)

theorem classes_in_map {n f : Str} {es : List Entry} {k : Elem} {o : Obj} (hm : Entry.mk k (.obj o) ∈ es) {u : ClassUse}
    (hu : u ∈ classes o) : u ∈ classes (.map n f es) := by
  rw [classes]
  exact List.mem_cons_of_mem _ (mem_classesEntries.2 ⟨_, _, hm, .inr (by rw [classesElem]; exact hu)⟩)

theorem elemVals_eq (es : List Elem) : elemVals es = es.map elemVal := by
  induction es with
  | nil => rw [elemVals]; rfl
  | cons e es ih => rw [elemVals, ih]; rfl

theorem entryVals_eq (es : List Entry) : entryVals es = es.map fun e => match e with | .mk k v => .mk (elemVal k) (elemVal v) := by
  induction es with
  | nil => rw [entryVals]; rfl
  | cons e es ih => obtain ⟨k, v⟩ := e; rw [entryVals, ih]; rfl

end Corda.Props
