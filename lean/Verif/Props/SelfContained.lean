import Verif.Spec.SelfContained
import Verif.Props.AnyInspect
import Verif.Props.Shown
import Verif.Props.Open

/-
C115: which types the schema of a serialised object describes.
-/

namespace Corda.Props
open Corda Corda.Spec

/-! ### What the inspector needs -/

private theorem named_readable {t : Str} {p : PrimReader} (h : primNamed t = some p) : t ∈ readable := by
  unfold primNamed at h
  unfold readable
  repeat' split at h
  all_goals first
    | (rename_i e; subst e; decide)
    | cases h

private theorem cons_lookup {T : Table} {a t : Str} {h : How} (hl : ((a, h) :: T).lookup t ≠ none) : t = a ∨ T.lookup t ≠ none := by
  rw [List.lookup_cons] at hl
  split at hl
  · rename_i e; exact .inl (by simpa using e)
  · exact .inr hl

private theorem cons_keeps {T : Table} {a t : Str} {h : How} (hl : T.lookup t ≠ none) : ((a, h) :: T).lookup t ≠ none := by
  rw [List.lookup_cons]
  split
  · simp
  · exact hl

/-- What a step makes known: what it was for, readable types, and nothing is forgotten. -/
private structure Grown (T T' : Table) : Prop where
  keeps : ∀ t, T.lookup t ≠ none → T'.lookup t ≠ none
  news : ∀ t, T'.lookup t ≠ none → T.lookup t ≠ none ∨ t ∈ readable

private theorem Grown.refl (T : Table) : Grown T T := ⟨fun _ h => h, fun _ h => .inl h⟩

private theorem Grown.trans {A B C : Table} (h : Grown A B) (g : Grown B C) : Grown A C :=
  ⟨fun t ht => g.keeps t (h.keeps t ht), fun t ht => (g.news t ht).elim (h.news t) .inr⟩

private theorem grown_primitive {T T' : Table} {t : Str} (h : needPrimitive T t = .ok T') : Grown T T' ∧ T'.lookup t ≠ none := by
  unfold needPrimitive at h
  split at h
  · rename_i hl
    cases h
    exact ⟨.refl _, by rw [hl]; simp⟩
  · split at h
    · rename_i p hp
      cases h
      refine ⟨⟨fun _ => cons_keeps, fun x hx => (cons_lookup hx).elim (fun e => .inr (e ▸ named_readable hp)) .inl⟩, ?_⟩
      rw [List.lookup_cons, beq_self_eq_true]
      simp
    · cases h

private theorem grown_known {T T' : Table} {t : Str} {s : String} (h : needKnown T t s = .ok T') : Grown T T' ∧ T'.lookup t ≠ none := by
  unfold needKnown at h
  split at h
  · rename_i hl
    cases h
    exact ⟨.refl _, by rw [hl]; simp⟩
  · cases h

private theorem grown_element {T T' : Table} {t : Str} (h : needElement T t = .ok T') : Grown T T' ∧ T'.lookup t ≠ none := by
  unfold needElement at h
  split at h
  · exact grown_primitive h
  · exact grown_known h

private theorem grown_field {self : Str} {T T' : Table} {f : Field} (h : needField self T f = .ok T') :
    Grown T T' ∧ ∀ t, fieldTypeName f = some t → t = self ∨ T'.lookup t ≠ none := by
  unfold needField at h
  split at h
  · cases h
  · rename_i t ht
    have key : Grown T T' ∧ (t = self ∨ T'.lookup t ≠ none) := by
      split at h
      · exact ⟨(grown_primitive h).1, .inr (grown_primitive h).2⟩
      · exact ⟨(grown_known h).1, .inr (grown_known h).2⟩
      · split at h
        · rename_i e
          cases h
          exact ⟨.refl _, .inl e⟩
        · exact ⟨(grown_known h).1, .inr (grown_known h).2⟩
    refine ⟨key.1, fun t' ht' => ?_⟩
    rw [ht] at ht'
    cases ht'
    exact key.2

private theorem grown_fields {self : Str} : ∀ {fs : List Field} {T T' : Table}, needFields self T fs = .ok T' →
    Grown T T' ∧ ∀ f ∈ fs, ∀ t, fieldTypeName f = some t → t = self ∨ T'.lookup t ≠ none
  | [], T, T', h => by
    unfold needFields at h
    cases h
    exact ⟨.refl _, by simp⟩
  | f :: fs, T, T', h => by
    unfold needFields at h
    obtain ⟨T1, h1, h2⟩ := Res.bind_eq_ok.mp h
    obtain ⟨g1, g2⟩ := grown_field h1
    obtain ⟨g3, g4⟩ := grown_fields h2
    refine ⟨g1.trans g3, fun x hx t ht => ?_⟩
    rcases List.mem_cons.mp hx with rfl | hx
    · exact (g2 t ht).imp id (g3.keeps t)
    · exact g4 x hx t ht

private theorem grown_type {lf : Bool} {T T' : Table} {u : TypeNotation} (h : needType lf T u = .ok T') :
    Grown T T' ∧ ∀ m, mentions u m = true → m = u.name ∨ T'.lookup m ≠ none := by
  unfold needType at h
  split at h
  · rename_i c
    obtain ⟨g1, g2⟩ := grown_fields h
    refine ⟨g1, fun m hm => ?_⟩
    simp only [mentions, List.any_eq_true, beq_iff_eq] at hm
    obtain ⟨f, hf, hm⟩ := hm
    exact g2 f hf m hm
  · rename_i r
    simp only [mentions]
    cases hk : r.kind with
    | enum cs =>
      simp only [hk] at h ⊢
      cases h
      exact ⟨.refl _, by simp⟩
    | list l =>
      simp only [hk] at h ⊢
      obtain ⟨g1, g2⟩ := grown_element h
      exact ⟨g1, fun m hm => .inr ((by simpa using hm : l = m) ▸ g2)⟩
    | array l =>
      simp only [hk] at h ⊢
      obtain ⟨g1, g2⟩ := grown_element h
      exact ⟨g1, fun m hm => .inr ((by simpa using hm : l = m) ▸ g2)⟩
    | map k v =>
      simp only [hk] at h ⊢
      split at h
      · obtain ⟨T1, h1, h2⟩ := Res.bind_eq_ok.mp h
        obtain ⟨g1, g2⟩ := grown_element h1
        obtain ⟨g3, g4⟩ := grown_element h2
        refine ⟨g1.trans g3, fun m hm => .inr ?_⟩
        simp only [Bool.or_eq_true, beq_iff_eq] at hm
        rcases hm with rfl | rfl
        · exact g3.keeps _ g2
        · exact g4
      · obtain ⟨T1, h1, h2⟩ := Res.bind_eq_ok.mp h
        obtain ⟨g1, g2⟩ := grown_element h1
        obtain ⟨g3, g4⟩ := grown_element h2
        refine ⟨g1.trans g3, fun m hm => .inr ?_⟩
        simp only [Bool.or_eq_true, beq_iff_eq] at hm
        rcases hm with rfl | rfl
        · exact g4
        · exact g3.keeps _ g2

private theorem learn_names {lf : Bool} {T T' : Table} {u : TypeNotation} (h : learn lf T u = .ok T') :
    ∀ t, T'.lookup t ≠ none → T.lookup t ≠ none ∨ t ∈ readable ∨ t = u.name := by
  unfold learn at h
  split at h
  · cases h
    exact fun _ h => .inl h
  · obtain ⟨T1, h1, h2⟩ := Res.bind_eq_ok.mp h
    cases h2
    intro t ht
    rcases cons_lookup ht with rfl | ht
    · exact .inr (.inr rfl)
    · exact ((grown_type h1).1.news t ht).imp id .inl

private theorem learnAll_names {lf : Bool} : ∀ {us : List TypeNotation} {T T' : Table}, learnAll lf T us = .ok T' →
    ∀ t, T'.lookup t ≠ none → T.lookup t ≠ none ∨ t ∈ readable ∨ t ∈ us.map TypeNotation.name
  | [], T, T', h => by
    unfold learnAll at h
    cases h
    exact fun _ h => .inl h
  | u :: us, T, T', h => by
    unfold learnAll at h
    obtain ⟨T1, h1, h2⟩ := Res.bind_eq_ok.mp h
    intro t ht
    rcases learnAll_names h2 t ht with h3 | h3 | h3
    · rcases learn_names h1 t h3 with h4 | h4 | h4
      · exact .inl h4
      · exact .inr (.inl h4)
      · exact .inr (.inr (by simp [h4]))
    · exact .inr (.inl h3)
    · exact .inr (.inr (by simp only [List.map_cons, List.mem_cons]; exact .inr h3))

private theorem learnAll_known {lf : Bool} {ts : List TypeNotation} {u : TypeNotation} (hs : ∀ a ∈ ts, a.name = u.name → a = u) (hr : u.name ∉ readable) :
    ∀ {us : List TypeNotation} {T T' : Table}, (∀ a ∈ us, a ∈ ts) → u ∈ us → T.lookup u.name = none → learnAll lf T us = .ok T' →
    ∀ m, mentions u m = true → T.lookup m ≠ none ∨ m ∈ readable ∨ m ∈ us.map TypeNotation.name
  | [], _, _, _, h, _, _ => by simp at h
  | v :: us, T, T', hsub, hu, hT, h => by
    unfold learnAll at h
    obtain ⟨T1, h1, h2⟩ := Res.bind_eq_ok.mp h
    intro m hm
    by_cases hv : v.name = u.name
    · have := hs v (hsub v List.mem_cons_self) hv
      subst this
      unfold learn at h1
      rw [hT] at h1
      obtain ⟨T2, h3, h4⟩ := Res.bind_eq_ok.mp h1
      rcases (grown_type h3).2 m hm with e | e
      · exact .inr (.inr (by simp [e]))
      · exact ((grown_type h3).1.news m e).imp id .inl
    · have hu' : u ∈ us := by
        rcases List.mem_cons.mp hu with e | e
        · exact absurd (congrArg TypeNotation.name e.symm) hv
        · exact e
      have hT1 : T1.lookup u.name = none := by
        cases hl : T1.lookup u.name with
        | none => rfl
        | some x =>
          rcases learn_names h1 u.name (by rw [hl]; simp) with e | e | e
          · exact absurd hT e
          · exact absurd e hr
          · exact absurd e.symm hv
      rcases learnAll_known hs hr (fun a ha => hsub a (List.mem_cons_of_mem _ ha)) hu' hT1 h2 m hm with e | e | e
      · rcases learn_names h1 m e with e | e | e
        · exact .inl e
        · exact .inr (.inl e)
        · exact .inr (.inr (by simp [e]))
      · exact .inr (.inl e)
      · exact .inr (.inr (by simp only [List.map_cons, List.mem_cons]; exact .inr e))

/-- **C115, for any blob**: if something is shown of it, then every type that is named in its schema is described there, or is a primitive
type that can be read, or the one of public keys. -/
theorem C115_shown (leftFirst : Bool) (c : Cursor) (n : Node) (hc : c.cur = some n) (text : Str) (hi : (inspect leftFirst c).1 = .ok text) :
    ∃ s d, (Prog.readEnvelope c).1 = .ok (s, d) ∧ (OwnNames s.types.flatten → AllKnown s.types.flatten) := by
  rw [C92_any leftFirst c n hc] at hi
  unfold inspectionOf at hi
  obtain ⟨⟨s, d⟩, h1, h2⟩ := Res.bind_eq_ok.mp hi
  obtain ⟨T, h3, -⟩ := Res.bind_eq_ok.mp h2
  refine ⟨s, d, by rw [C89_any c n hc]; exact h1, fun ho u hu m hm => ?_⟩
  have hk : onlyKeys.lookup u.name = none := by
    unfold onlyKeys
    rw [List.lookup_cons, beq_false_of_ne (ho.other u hu).2]
    rfl
  rcases learnAll_known (ts := s.types.flatten) (fun a ha e => ho.same a ha u hu e) (ho.other u hu).1 (fun _ h => h) hu hk h3 m hm with e | e | e
  · refine .inr (.inl ?_)
    rcases cons_lookup e with e | e
    · exact e
    · exact absurd rfl e
  · exact .inl e
  · exact .inr (.inr e)

/-! ### What the writer describes -/

private theorem prim_basic (t : PrimType) : t.typeName ∈ basicNames := by cases t <;> decide  +kernel

private theorem target_basic {m : Member} (h : (∃ n p v, m = .prim n p v) ∨ ∃ n t, m = .nullPrim n t) : (memberDesc m).target ∈ basicNames := by
  rcases h with ⟨n, p, v, rfl⟩ | ⟨n, t, rfl⟩
  · exact prim_basic v.type
  · exact prim_basic t

private theorem target_obj (n t : Str) (p : Bool) (o : Obj) : (memberDesc (.obj n t p o)).target = t := by
  simp only [memberDesc, PropDesc.target]
  split <;> rfl

private theorem name_mem (o : Obj) : o.name ∈ classNames o := by
  unfold classNames
  cases o <;> rw [classes] <;> simp [Obj.name]

private theorem elem_of {t : Str} {x : Elem} (h : elemOf t x = true) : t ∈ (classesElem x).map fun a => a.1.1 := by
  cases x with
  | prim v => simp [elemOf] at h
  | nullPrim v => simp [elemOf] at h
  | obj o =>
    have : o.name = t := by simpa [elemOf] using h
    rw [classesElem, ← this]
    exact name_mem o

private theorem elem_class {t : Str} : (es : List Elem) → (x : Elem) → x ∈ es → elemOf t x = true → t ∈ (classesElems es).map fun a => a.1.1
  | [], _, h, _ => by simp at h
  | y :: es, x, h, ht => by
    rw [classesElems, List.map_append]
    rcases List.mem_cons.mp h with rfl | h
    · exact List.mem_append_left _ (elem_of ht)
    · exact List.mem_append_right _ (elem_class es x h ht)

private theorem entry_class {t : Str} : (es : List Entry) → (x : Entry) → x ∈ es → entryHas t x = true → t ∈ (classesEntries es).map fun a => a.1.1
  | [], _, h, _ => by simp at h
  | .mk k v :: es, x, h, ht => by
    rw [classesEntries, List.map_append, List.map_append]
    rcases List.mem_cons.mp h with rfl | h
    · rw [entryHas, Bool.or_eq_true] at ht
      refine List.mem_append_left _ ?_
      rcases ht with ht | ht
      · exact List.mem_append_left _ (elem_of ht)
      · exact List.mem_append_right _ (elem_of ht)
    · exact List.mem_append_right _ (entry_class es x h ht)

mutual

/-- Everything named is there, basic, or missing. -/
private theorem named_obj : (o : Obj) → (∀ e ∈ props o, e.2.target ∈ basicNames ∨ e.2.target ∈ classNames o ∨ e.2.target ∈ missing o)
    ∧ ∀ a ∈ classes o, ∀ src, a.2 = some src → ∀ t ∈ heldBy a.1.1, t ∈ classNames o ∨ t ∈ missing o
  | .comp n f ms => by
    obtain ⟨h1, h2⟩ := named_members ms (n, f)
    refine ⟨fun e he => ?_, fun a ha src hs t ht => ?_⟩
    · rw [props] at he
      rw [missing]
      rcases h1 e he with h | h | h
      · exact .inl h
      · refine .inr (.inl ?_)
        unfold classNames
        rw [classes, List.map_cons]
        exact List.mem_cons_of_mem _ h
      · exact .inr (.inr h)
    · rw [classes] at ha
      rw [missing]
      rcases List.mem_cons.mp ha with rfl | ha
      · cases hs
      · refine (h2 a ha src hs t ht).imp (fun h => ?_) id
        unfold classNames
        rw [classes, List.map_cons]
        exact List.mem_cons_of_mem _ h
  | .list n f es => by
    obtain ⟨h1, h2⟩ := named_elems es
    have hc : ∀ t, t ∈ (classesElems es).map (fun a => a.1.1) → t ∈ classNames (.list n f es) := by
      intro t h
      unfold classNames
      rw [classes, List.map_cons]
      exact List.mem_cons_of_mem _ h
    refine ⟨fun e he => ?_, fun a ha src hs t ht => ?_⟩
    · rw [props] at he
      rw [missing]
      rcases h1 e he with h | h | h
      · exact .inl h
      · exact .inr (.inl (hc _ h))
      · exact .inr (.inr (List.mem_append_right _ h))
    · rw [classes] at ha
      rw [missing]
      rcases List.mem_cons.mp ha with rfl | ha
      · by_cases hb : es.any (elemOf t) = true
        · obtain ⟨x, hx, hxt⟩ := List.any_eq_true.mp hb
          exact .inl (hc _ (elem_class es x hx hxt))
        · exact .inr (List.mem_append_left _ (List.mem_filter.mpr ⟨ht, by simpa using hb⟩))
      · exact (h2 a ha src hs t ht).imp (hc _) (List.mem_append_right _)
  | .map n f es => by
    obtain ⟨h1, h2⟩ := named_entries es
    have hc : ∀ t, t ∈ (classesEntries es).map (fun a => a.1.1) → t ∈ classNames (.map n f es) := by
      intro t h
      unfold classNames
      rw [classes, List.map_cons]
      exact List.mem_cons_of_mem _ h
    refine ⟨fun e he => ?_, fun a ha src hs t ht => ?_⟩
    · rw [props] at he
      rw [missing]
      rcases h1 e he with h | h | h
      · exact .inl h
      · exact .inr (.inl (hc _ h))
      · exact .inr (.inr (List.mem_append_right _ h))
    · rw [classes] at ha
      rw [missing]
      rcases List.mem_cons.mp ha with rfl | ha
      · by_cases hb : es.any (entryHas t) = true
        · obtain ⟨x, hx, hxt⟩ := List.any_eq_true.mp hb
          exact .inl (hc _ (entry_class es x hx hxt))
        · exact .inr (List.mem_append_left _ (List.mem_filter.mpr ⟨ht, by simpa using hb⟩))
      · exact (h2 a ha src hs t ht).imp (hc _) (List.mem_append_right _)

private theorem named_member : (m : Member) → (k : Str × Str) →
    (∀ e ∈ propsMember k m, e.2.target ∈ basicNames ∨ e.2.target ∈ (classesMember m).map (fun a => a.1.1) ∨ e.2.target ∈ missingMember m)
    ∧ ∀ a ∈ classesMember m, ∀ src, a.2 = some src → ∀ t ∈ heldBy a.1.1, t ∈ (classesMember m).map (fun a => a.1.1) ∨ t ∈ missingMember m
  | .prim n p v, k => by
    rw [propsMember, classesMember]
    · refine ⟨fun e he => .inl ?_, by simp⟩
      rw [List.mem_singleton.mp he]
      exact target_basic (.inl ⟨n, p, v, rfl⟩)
    all_goals simp
  | .nullPrim n t, k => by
    rw [propsMember, classesMember]
    · refine ⟨fun e he => .inl ?_, by simp⟩
      rw [List.mem_singleton.mp he]
      exact target_basic (.inr ⟨n, t, rfl⟩)
    all_goals simp
  | .nullObj n t, k => by
    rw [propsMember, classesMember]
    · refine ⟨fun e he => .inr (.inr ?_), by simp⟩
      rw [List.mem_singleton.mp he, missingMember]
      exact List.mem_singleton.mpr rfl
    all_goals simp
  | .obj n t p o, k => by
    obtain ⟨h1, h2⟩ := named_obj o
    rw [propsMember, classesMember, missingMember]
    refine ⟨fun e he => ?_, fun a ha src hs u hu => (h2 a ha src hs u hu).imp id (List.mem_append_right _)⟩
    rcases List.mem_cons.mp he with rfl | he
    · rw [show (((k, memberDesc (.obj n t p o)) : (Str × Str) × PropDesc).2).target = t from target_obj n t p o]
      by_cases ht : t = o.name
      · exact .inr (.inl (ht ▸ name_mem o))
      · exact .inr (.inr (by rw [if_neg ht]; simp))
    · exact (h1 e he).imp id (Or.imp id (List.mem_append_right _))

private theorem named_members : (ms : List Member) → (k : Str × Str) →
    (∀ e ∈ propsMembers k ms, e.2.target ∈ basicNames ∨ e.2.target ∈ (classesMembers ms).map (fun a => a.1.1) ∨ e.2.target ∈ missingMembers ms)
    ∧ ∀ a ∈ classesMembers ms, ∀ src, a.2 = some src → ∀ t ∈ heldBy a.1.1, t ∈ (classesMembers ms).map (fun a => a.1.1) ∨ t ∈ missingMembers ms
  | [], k => by rw [propsMembers, classesMembers]; simp
  | m :: ms, k => by
    obtain ⟨h1, h2⟩ := named_member m k
    obtain ⟨h3, h4⟩ := named_members ms k
    rw [propsMembers, classesMembers, missingMembers, List.map_append]
    refine ⟨fun e he => ?_, fun a ha src hs t ht => ?_⟩
    · rcases List.mem_append.mp he with he | he
      · exact (h1 e he).imp id (Or.imp (List.mem_append_left _) (List.mem_append_left _))
      · exact (h3 e he).imp id (Or.imp (List.mem_append_right _) (List.mem_append_right _))
    · rcases List.mem_append.mp ha with ha | ha
      · exact (h2 a ha src hs t ht).imp (List.mem_append_left _) (List.mem_append_left _)
      · exact (h4 a ha src hs t ht).imp (List.mem_append_right _) (List.mem_append_right _)

private theorem named_elem : (x : Elem) →
    (∀ e ∈ propsElem x, e.2.target ∈ basicNames ∨ e.2.target ∈ (classesElem x).map (fun a => a.1.1) ∨ e.2.target ∈ missingElem x)
    ∧ ∀ a ∈ classesElem x, ∀ src, a.2 = some src → ∀ t ∈ heldBy a.1.1, t ∈ (classesElem x).map (fun a => a.1.1) ∨ t ∈ missingElem x
  | .prim v => by rw [propsElem, classesElem] <;> simp
  | .nullPrim t => by rw [propsElem, classesElem] <;> simp
  | .obj o => by
    rw [propsElem, classesElem, missingElem]
    exact named_obj o

private theorem named_elems : (xs : List Elem) →
    (∀ e ∈ propsElems xs, e.2.target ∈ basicNames ∨ e.2.target ∈ (classesElems xs).map (fun a => a.1.1) ∨ e.2.target ∈ missingElems xs)
    ∧ ∀ a ∈ classesElems xs, ∀ src, a.2 = some src → ∀ t ∈ heldBy a.1.1, t ∈ (classesElems xs).map (fun a => a.1.1) ∨ t ∈ missingElems xs
  | [] => by rw [propsElems, classesElems]; simp
  | x :: xs => by
    obtain ⟨h1, h2⟩ := named_elem x
    obtain ⟨h3, h4⟩ := named_elems xs
    rw [propsElems, classesElems, missingElems, List.map_append]
    refine ⟨fun e he => ?_, fun a ha src hs t ht => ?_⟩
    · rcases List.mem_append.mp he with he | he
      · exact (h1 e he).imp id (Or.imp (List.mem_append_left _) (List.mem_append_left _))
      · exact (h3 e he).imp id (Or.imp (List.mem_append_right _) (List.mem_append_right _))
    · rcases List.mem_append.mp ha with ha | ha
      · exact (h2 a ha src hs t ht).imp (List.mem_append_left _) (List.mem_append_left _)
      · exact (h4 a ha src hs t ht).imp (List.mem_append_right _) (List.mem_append_right _)

private theorem named_entries : (xs : List Entry) →
    (∀ e ∈ propsEntries xs, e.2.target ∈ basicNames ∨ e.2.target ∈ (classesEntries xs).map (fun a => a.1.1) ∨ e.2.target ∈ missingEntries xs)
    ∧ ∀ a ∈ classesEntries xs, ∀ src, a.2 = some src → ∀ t ∈ heldBy a.1.1, t ∈ (classesEntries xs).map (fun a => a.1.1) ∨ t ∈ missingEntries xs
  | [] => by rw [propsEntries, classesEntries]; simp
  | .mk x y :: xs => by
    obtain ⟨h1, h2⟩ := named_elem x
    obtain ⟨g1, g2⟩ := named_elem y
    obtain ⟨h3, h4⟩ := named_entries xs
    rw [propsEntries, classesEntries, missingEntries, List.map_append, List.map_append]
    refine ⟨fun e he => ?_, fun a ha src hs t ht => ?_⟩
    · rcases List.mem_append.mp he with he | he
      · rcases List.mem_append.mp he with he | he
        · exact (h1 e he).imp id (Or.imp (fun h => List.mem_append_left _ (List.mem_append_left _ h)) (fun h => List.mem_append_left _ (List.mem_append_left _ h)))
        · exact (g1 e he).imp id (Or.imp (fun h => List.mem_append_left _ (List.mem_append_right _ h)) (fun h => List.mem_append_left _ (List.mem_append_right _ h)))
      · exact (h3 e he).imp id (Or.imp (List.mem_append_right _) (List.mem_append_right _))
    · rcases List.mem_append.mp ha with ha | ha
      · rcases List.mem_append.mp ha with ha | ha
        · exact (h2 a ha src hs t ht).imp (fun h => List.mem_append_left _ (List.mem_append_left _ h)) (fun h => List.mem_append_left _ (List.mem_append_left _ h))
        · exact (g2 a ha src hs t ht).imp (fun h => List.mem_append_left _ (List.mem_append_right _ h)) (fun h => List.mem_append_left _ (List.mem_append_right _ h))
      · exact (h4 a ha src hs t ht).imp (List.mem_append_right _) (List.mem_append_right _)

end

mutual

/-- Everything missing is named. -/
private theorem missing_obj : (o : Obj) → ∀ t ∈ missing o, (∃ e ∈ props o, e.2.target = t) ∨ ∃ a ∈ classes o, ∃ src, a.2 = some src ∧ t ∈ heldBy a.1.1
  | .comp n f ms => by
    intro t ht
    rw [missing] at ht
    rw [props, classes]
    exact (missing_members ms (n, f) t ht).imp id fun ⟨a, ha, h⟩ => ⟨a, List.mem_cons_of_mem _ ha, h⟩
  | .list n f es => by
    intro t ht
    rw [missing] at ht
    rw [props, classes]
    rcases List.mem_append.mp ht with ht | ht
    · exact .inr ⟨_, List.mem_cons_self, _, rfl, (List.mem_filter.mp ht).1⟩
    · exact (missing_elems es t ht).imp id fun ⟨a, ha, h⟩ => ⟨a, List.mem_cons_of_mem _ ha, h⟩
  | .map n f es => by
    intro t ht
    rw [missing] at ht
    rw [props, classes]
    rcases List.mem_append.mp ht with ht | ht
    · exact .inr ⟨_, List.mem_cons_self, _, rfl, (List.mem_filter.mp ht).1⟩
    · exact (missing_entries es t ht).imp id fun ⟨a, ha, h⟩ => ⟨a, List.mem_cons_of_mem _ ha, h⟩

private theorem missing_member : (m : Member) → (k : Str × Str) → ∀ t ∈ missingMember m,
    (∃ e ∈ propsMember k m, e.2.target = t) ∨ ∃ a ∈ classesMember m, ∃ src, a.2 = some src ∧ t ∈ heldBy a.1.1
  | .prim n p v, k => by intro t ht; rw [missingMember] at ht; simp at ht
  | .nullPrim n p, k => by intro t ht; rw [missingMember] at ht; simp at ht
  | .nullObj n u, k => by
    intro t ht
    rw [missingMember] at ht
    rw [propsMember]
    · refine .inl ⟨_, List.mem_singleton.mpr rfl, ?_⟩
      rw [List.mem_singleton.mp ht]
      rfl
    all_goals simp
  | .obj n u p o, k => by
    intro t ht
    rw [missingMember] at ht
    rw [propsMember, classesMember]
    rcases List.mem_append.mp ht with ht | ht
    · refine .inl ⟨_, List.mem_cons_self, ?_⟩
      rw [show (((k, memberDesc (.obj n u p o)) : (Str × Str) × PropDesc).2).target = u from target_obj n u p o]
      split at ht
      · simp at ht
      · exact (List.mem_singleton.mp ht).symm
    · exact (missing_obj o t ht).imp (fun ⟨e, he, h⟩ => ⟨e, List.mem_cons_of_mem _ he, h⟩) id

private theorem missing_members : (ms : List Member) → (k : Str × Str) → ∀ t ∈ missingMembers ms,
    (∃ e ∈ propsMembers k ms, e.2.target = t) ∨ ∃ a ∈ classesMembers ms, ∃ src, a.2 = some src ∧ t ∈ heldBy a.1.1
  | [], k => by intro t ht; rw [missingMembers] at ht; simp at ht
  | m :: ms, k => by
    intro t ht
    rw [missingMembers] at ht
    rw [propsMembers, classesMembers]
    rcases List.mem_append.mp ht with ht | ht
    · exact (missing_member m k t ht).imp (fun ⟨e, he, h⟩ => ⟨e, List.mem_append_left _ he, h⟩) (fun ⟨e, he, h⟩ => ⟨e, List.mem_append_left _ he, h⟩)
    · exact (missing_members ms k t ht).imp (fun ⟨e, he, h⟩ => ⟨e, List.mem_append_right _ he, h⟩) (fun ⟨e, he, h⟩ => ⟨e, List.mem_append_right _ he, h⟩)

private theorem missing_elem : (x : Elem) → ∀ t ∈ missingElem x,
    (∃ e ∈ propsElem x, e.2.target = t) ∨ ∃ a ∈ classesElem x, ∃ src, a.2 = some src ∧ t ∈ heldBy a.1.1
  | .prim v => by intro t ht; simp [missingElem] at ht
  | .nullPrim v => by intro t ht; simp [missingElem] at ht
  | .obj o => by
    intro t ht
    rw [missingElem] at ht
    rw [propsElem, classesElem]
    exact missing_obj o t ht

private theorem missing_elems : (xs : List Elem) → ∀ t ∈ missingElems xs,
    (∃ e ∈ propsElems xs, e.2.target = t) ∨ ∃ a ∈ classesElems xs, ∃ src, a.2 = some src ∧ t ∈ heldBy a.1.1
  | [] => by intro t ht; rw [missingElems] at ht; simp at ht
  | x :: xs => by
    intro t ht
    rw [missingElems] at ht
    rw [propsElems, classesElems]
    rcases List.mem_append.mp ht with ht | ht
    · exact (missing_elem x t ht).imp (fun ⟨e, he, h⟩ => ⟨e, List.mem_append_left _ he, h⟩) (fun ⟨e, he, h⟩ => ⟨e, List.mem_append_left _ he, h⟩)
    · exact (missing_elems xs t ht).imp (fun ⟨e, he, h⟩ => ⟨e, List.mem_append_right _ he, h⟩) (fun ⟨e, he, h⟩ => ⟨e, List.mem_append_right _ he, h⟩)

private theorem missing_entries : (xs : List Entry) → ∀ t ∈ missingEntries xs,
    (∃ e ∈ propsEntries xs, e.2.target = t) ∨ ∃ a ∈ classesEntries xs, ∃ src, a.2 = some src ∧ t ∈ heldBy a.1.1
  | [] => by intro t ht; rw [missingEntries] at ht; simp at ht
  | .mk x y :: xs => by
    intro t ht
    rw [missingEntries] at ht
    rw [propsEntries, classesEntries]
    rcases List.mem_append.mp ht with ht | ht
    · rcases List.mem_append.mp ht with ht | ht
      · exact (missing_elem x t ht).imp (fun ⟨e, he, h⟩ => ⟨e, List.mem_append_left _ (List.mem_append_left _ he), h⟩)
          (fun ⟨e, he, h⟩ => ⟨e, List.mem_append_left _ (List.mem_append_left _ he), h⟩)
      · exact (missing_elem y t ht).imp (fun ⟨e, he, h⟩ => ⟨e, List.mem_append_left _ (List.mem_append_right _ he), h⟩)
          (fun ⟨e, he, h⟩ => ⟨e, List.mem_append_left _ (List.mem_append_right _ he), h⟩)
    · exact (missing_entries xs t ht).imp (fun ⟨e, he, h⟩ => ⟨e, List.mem_append_right _ he, h⟩) (fun ⟨e, he, h⟩ => ⟨e, List.mem_append_right _ he, h⟩)

end

private theorem lookup_class {C : List ClassUse} {k : Str × Str} {v : Option Str} (h : (k, v) ∈ C) (hu : ∀ a ∈ C, ∀ b ∈ C, a.1 = b.1 → a.2 = b.2) :
    C.lookup k = some v := by
  cases hl : C.lookup k with
  | none =>
    have := List.lookup_eq_none_iff.mp hl _ h
    simp at this
  | some w =>
    obtain ⟨l1, l2, e, -⟩ := List.lookup_eq_some_iff.mp hl
    have := hu (k, v) h (k, w) (by rw [e]; simp) rfl
    simp only at this
    rw [this]

/-- The names described are those of the classes. -/
private theorem described_names {o : Obj} {ds : List ClassDesc} (hd : Describes o ds) (t : Str) : t ∈ (ds.map fun e => e.key.1) ↔ t ∈ classNames o := by
  unfold classNames
  constructor
  · intro h
    obtain ⟨d, hdm, rfl⟩ := List.mem_map.mp h
    obtain ⟨a, ha, he⟩ := List.mem_map.mp ((hd.exact d.key).1 (List.mem_map_of_mem hdm))
    exact List.mem_map.mpr ⟨a, ha, by rw [he]⟩
  · intro h
    obtain ⟨a, ha, rfl⟩ := List.mem_map.mp h
    obtain ⟨d, hdm, he⟩ := List.mem_map.mp ((hd.exact a.1).2 (List.mem_map_of_mem ha))
    exact List.mem_map.mpr ⟨d, hdm, by rw [he]⟩

/-- A property that is written is described, and with its type. -/
private theorem described_prop {o : Obj} {ds : List ClassDesc} (hd : Describes o ds) (hn : NoClash o) (hs : Steady o) {e : (Str × Str) × PropDesc} (he : e ∈ props o) :
    ∃ d ∈ ds, ∃ ps, d.body = .inl ps ∧ ∃ q ∈ ps, q.target = e.2.target := by
  obtain ⟨b, hb, hb1, -⟩ := (mem_props o e).1 he
  have hc := shapes_classes o b hb
  rw [hb1] at hc
  obtain ⟨d, hdm, hdk⟩ := List.mem_map.mp ((hd.exact e.1).2 (List.mem_map.mpr ⟨_, hc, rfl⟩))
  refine ⟨d, hdm, ?_⟩
  cases hbody : d.body with
  | inr src =>
    have h1 := (hd.container d hdm src).1 hbody
    rw [hdk, lookup_class hc hn] at h1
    cases h1
  | inl ps =>
    obtain ⟨q, hq⟩ : ∃ q, firstProp (props o) e.1 e.2.name = some q := by
      cases hf : firstProp (props o) e.1 e.2.name with
      | some q => exact ⟨q, rfl⟩
      | none =>
        have := List.findSome?_eq_none_iff.mp hf e he
        simp at this
    have hq' := hq
    unfold firstProp at hq'
    obtain ⟨x, hx, hxq⟩ := List.exists_of_findSome?_eq_some hq'
    have hx2 : (x.1 = e.1 ∧ x.2.name = e.2.name) ∧ x.2 = q := by
      split at hxq
      · rename_i h
        exact ⟨h, by simpa using hxq⟩
      · cases hxq
    have hmem : q ∈ ps := (hd.propsExact d hdm ps hbody q).2 (by rw [hdk, ← hx2.2, hx2.1.2, hx2.2]; exact hq)
    have ht : q.target = e.2.target := by rw [← hx2.2]; exact hs x hx e he hx2.1.1 hx2.1.2
    exact ⟨ps, rfl, q, hmem, ht⟩

/-- **C115, exactly**: the schema of an object describes all the types it names, other than primitive ones, if, and only if, there are objects in the
object of all the classes that are missing somewhere in it: of null pointers, of empty containers, and declared classes of objects of other classes. -/
theorem C115_exact (o : Obj) (n : Node) (hw : serialise o = .ok [n]) (hn : NoClash o) (hs : Steady o) :
    ∃ ds, n = envelopeTree (objTree o) (schemaTree (ds.map ClassDesc.tree)) (.mk .null [])
      ∧ (SelfContained ds ↔ ∀ t ∈ missing o, t ∈ basicNames ∨ t ∈ classNames o) := by
  rcases serialise_eq o with ⟨ds, hd, -, h1⟩ | ⟨-, h1⟩ | ⟨-, h1⟩
  rotate_left
  · rw [h1] at hw; simp at hw
  · rw [h1] at hw; simp at hw
  rw [h1] at hw
  simp only [Res.ok.injEq, List.cons.injEq, and_true] at hw
  refine ⟨ds, hw.symm, ?_⟩
  constructor
  · intro h t ht
    have key : ∃ d ∈ ds, t ∈ d.named := by
      rcases missing_obj o t ht with ⟨e, he, rfl⟩ | ⟨a, ha, src, hsrc, hta⟩
      · obtain ⟨d, hdm, ps, hb, q, hq, hqt⟩ := described_prop hd hn hs he
        refine ⟨d, hdm, ?_⟩
        unfold ClassDesc.named
        rw [hb]
        exact List.mem_map.mpr ⟨q, hq, hqt⟩
      · obtain ⟨d, hdm, hdk⟩ := List.mem_map.mp ((hd.exact a.1).2 (List.mem_map_of_mem ha))
        refine ⟨d, hdm, ?_⟩
        have hb := (hd.container d hdm src).2 (by rw [hdk]; exact lookup_class (by rw [← hsrc]; exact ha) hn)
        unfold ClassDesc.named
        rw [hb, hdk]
        exact hta
    obtain ⟨d, hdm, hdt⟩ := key
    exact (h d hdm t hdt).imp id (described_names hd t).1
  · intro h d hdm t ht
    rw [described_names hd]
    have key : t ∈ basicNames ∨ t ∈ classNames o ∨ t ∈ missing o := by
      unfold ClassDesc.named at ht
      split at ht
      · rename_i ps hb
        obtain ⟨q, hq, rfl⟩ := List.mem_map.mp ht
        have hf := (hd.propsExact d hdm ps hb q).1 hq
        unfold firstProp at hf
        obtain ⟨x, hx, hxq⟩ := List.exists_of_findSome?_eq_some hf
        split at hxq
        · have : x.2 = q := by simpa using hxq
          rw [← this]
          exact (named_obj o).1 x hx
        · cases hxq
      · rename_i src hb
        obtain ⟨l1, l2, e, -⟩ := List.lookup_eq_some_iff.mp ((hd.container d hdm src).1 hb)
        exact .inr ((named_obj o).2 (d.key, some src) (by rw [e]; simp) src rfl t ht)
    rcases key with k | k | k
    · exact .inl k
    · exact .inr k
    · exact h t k

/-! ### What cannot be shown -/

private def Formed (q : PropDesc) : Prop := q.requires = [] ∨ q.type = "*".toList

private theorem formed_member (m : Member) : Formed (memberDesc m) := by
  cases m with
  | prim n p v => exact .inl rfl
  | nullPrim n t => exact .inl rfl
  | nullObj n t => exact .inl rfl
  | obj n t p o =>
    simp only [memberDesc]
    split
    · exact .inr rfl
    · exact .inl rfl

mutual

private theorem formed_obj : (o : Obj) → ∀ a ∈ shapes o, ∀ q ∈ a.2, Formed q
  | .comp n f ms => by
    intro a ha q hq
    rw [shapes] at ha
    rcases List.mem_cons.mp ha with rfl | ha
    · obtain ⟨m, -, rfl⟩ := List.mem_map.mp hq
      exact formed_member m
    · exact formed_members ms a ha q hq
  | .list n f es => by intro a ha; rw [shapes] at ha; exact formed_elems es a ha
  | .map n f es => by intro a ha; rw [shapes] at ha; exact formed_entries es a ha

private theorem formed_members : (ms : List Member) → ∀ a ∈ shapesMembers ms, ∀ q ∈ a.2, Formed q
  | [] => by intro a ha; simp [shapesMembers] at ha
  | .obj _ _ _ o :: ms => by
    intro a ha
    rw [shapesMembers, shapesMember] at ha
    exact (List.mem_append.mp ha).elim (formed_obj o a) (formed_members ms a)
  | .prim _ _ _ :: ms => by intro a ha; simp only [shapesMembers, shapesMember, List.nil_append] at ha; exact formed_members ms a ha
  | .nullPrim _ _ :: ms => by intro a ha; simp only [shapesMembers, shapesMember, List.nil_append] at ha; exact formed_members ms a ha
  | .nullObj _ _ :: ms => by intro a ha; simp only [shapesMembers, shapesMember, List.nil_append] at ha; exact formed_members ms a ha

private theorem formed_elem : (x : Elem) → ∀ a ∈ shapesElem x, ∀ q ∈ a.2, Formed q
  | .obj o => by intro a ha; rw [shapesElem] at ha; exact formed_obj o a ha
  | .prim _ => by intro a ha; simp [shapesElem] at ha
  | .nullPrim _ => by intro a ha; simp [shapesElem] at ha

private theorem formed_elems : (xs : List Elem) → ∀ a ∈ shapesElems xs, ∀ q ∈ a.2, Formed q
  | [] => by intro a ha; simp [shapesElems] at ha
  | x :: xs => by
    intro a ha
    rw [shapesElems] at ha
    exact (List.mem_append.mp ha).elim (formed_elem x a) (formed_elems xs a)

private theorem formed_entries : (xs : List Entry) → ∀ a ∈ shapesEntries xs, ∀ q ∈ a.2, Formed q
  | [] => by intro a ha; simp [shapesEntries] at ha
  | .mk x y :: xs => by
    intro a ha
    rw [shapesEntries] at ha
    exact (List.mem_append.mp ha).elim (fun h => (List.mem_append.mp h).elim (formed_elem x a) (formed_elem y a)) (formed_entries xs a)

end

/-- The type of the field made of a property. -/
private theorem made_target {q : PropDesc} {f : Field} (hq : Formed q) (hne : q.target ≠ "*".toList) (h : (propField q).make = .ok f) :
    fieldTypeName f = some q.target := by
  unfold FieldDesc.make propField Field.make at h
  simp only [] at h
  rcases hq with hq | hq
  · have ht : q.target = q.type := by unfold PropDesc.target; rw [hq]; rfl
    rw [ht] at hne ⊢
    split at h
    · cases h; rfl
    · obtain ⟨arr, -, h⟩ := Res.bind_eq_ok.mp h
      split at h
      · obtain ⟨sub, -, h⟩ := Res.bind_eq_ok.mp h
        cases h; rfl
      · obtain ⟨sub, -, h⟩ := Res.bind_eq_ok.mp h
        cases h; rfl
  · rw [hq] at h
    have h1 : typeIsPrimitive "*".toList = false := by decide +kernel
    have h2 : isArray "*".toList = .ok false := by decide +kernel
    rw [h1, h2] at h
    simp only [Bool.false_eq_true, if_false, Res.bind_eq, Res.bind, if_true] at h
    cases hr : q.requires with
    | nil =>
      exfalso
      apply hne
      unfold PropDesc.target
      rw [hr]
      exact hq
    | cons r rs =>
      rw [hr] at h
      simp only [] at h
      have ht : q.target = r := by unfold PropDesc.target; rw [hr]; rfl
      rw [ht]
      cases hc : isContainer r with
      | throw m => rw [hc] at h; cases h
      | ub m => rw [hc] at h; cases h
      | ok b =>
        rw [hc] at h
        cases b with
        | false => cases h
        | true =>
          cases hs : allNested (r :: rs) with
          | throw m => rw [hs] at h; cases h
          | ub m => rw [hs] at h; cases h
          | ok sub => rw [hs] at h; cases h; rfl

/-- A field of each property is among the types read. -/
private theorem read_mentions {o : Obj} {n : Node} (hw : serialise o = .ok [n]) (hn : NoClash o) (hs : Steady o) {c : Cursor} (hc : c.cur = some n)
    {s : Schema} {d : Str} (hr : (Prog.readEnvelope c).1 = .ok (s, d)) {e : (Str × Str) × PropDesc} (he : e ∈ props o) (hne : e.2.target ≠ "*".toList) :
    ∃ u ∈ s.types.flatten, mentions u e.2.target = true := by
  obtain ⟨-, ds, hd, ts, hm, hperm⟩ := C56_open_content o n hw c hc s d hr
  obtain ⟨x, hx, ps, hb, q, hq, hqt⟩ := described_prop hd hn hs he
  have hform : Formed q := by
    have hf := (hd.propsExact x hx ps hb q).1 hq
    unfold firstProp at hf
    obtain ⟨y, hy, hyq⟩ := List.exists_of_findSome?_eq_some hf
    split at hyq
    · have : y.2 = q := by simpa using hyq
      rw [← this]
      obtain ⟨b, hb, -, h2⟩ := (mem_props o y).1 hy
      exact formed_obj o b hb _ h2
    · cases hyq
  obtain ⟨u, hu, hxu⟩ : ∃ u ∈ ts, (classType x).make = .ok u := by
    have : (classType x).make ∈ (ds.map classType).map TypeDesc.make := by
      rw [List.map_map]
      exact List.mem_map_of_mem (f := TypeDesc.make ∘ classType) hx
    rw [hm] at this
    obtain ⟨u, hu, h⟩ := List.mem_map.mp this
    exact ⟨u, hu, h.symm⟩
  refine ⟨u, hperm.mem_iff.mpr hu, ?_⟩
  unfold classType at hxu
  rw [hb] at hxu
  simp only [TypeDesc.make, Res.bind_eq_ok] at hxu
  obtain ⟨fs, hfs, hxu⟩ := hxu
  simp only [Res.ok.injEq] at hxu
  subst hxu
  have hall := inOrder_eq_ok _ _ hfs
  have : (propField q).make ∈ fs.map Res.ok := by
    rw [← hall, List.map_map]
    exact List.mem_map_of_mem (f := FieldDesc.make ∘ propField) hq
  obtain ⟨f, hf, hfq⟩ := List.mem_map.mp this
  simp only [mentions, List.any_eq_true, beq_iff_eq]
  exact ⟨f, hf, by rw [← hqt] at hne ⊢; exact made_target hform hne hfq.symm⟩

/-- **C115, what follows**: an object with a property of a class that its schema does not describe, or of a primitive type that cannot be read, is not
shown by the inspector. -/
theorem C115_not_shown (leftFirst : Bool) (o : Obj) (n : Node) (hw : serialise o = .ok [n]) (hn : NoClash o) (hs : Steady o) (c : Cursor) (hc : c.cur = some n)
    (e : (Str × Str) × PropDesc) (he : e ∈ props o) (hne : e.2.target ≠ "*".toList) (hr : e.2.target ∉ readable) (hk : e.2.target ≠ keyType)
    (hd : ∀ s d, (Prog.readEnvelope c).1 = .ok (s, d) → OwnNames s.types.flatten ∧ e.2.target ∉ s.types.flatten.map TypeNotation.name) :
    ∀ text, (inspect leftFirst c).1 ≠ .ok text := by
  intro text hi
  obtain ⟨s, d, h1, h2⟩ := C115_shown leftFirst c n hc text hi
  obtain ⟨h3, h4⟩ := hd s d h1
  obtain ⟨u, hu, hm⟩ := read_mentions hw hn hs hc h1 he hne
  rcases h2 h3 u hu _ hm with h | h | h
  · exact hr h
  · exact hk h
  · exact h4 h

/-- The same for objects without containers, said of the object. -/
theorem C115_plain_not_shown (leftFirst : Bool) (o : Obj) (n : Node) (hw : serialise o = .ok [n]) (hs : Steady o) (c : Cursor) (hc : c.cur = some n)
    (hp : ∀ a ∈ classes o, a.2 = none) (hu : ∀ a ∈ classes o, ∀ b ∈ classes o, a.1.1 = b.1.1 → a = b)
    (ho : ∀ a ∈ classes o, a.1.1 ∉ readable ∧ a.1.1 ≠ keyType)
    (e : (Str × Str) × PropDesc) (he : e ∈ props o) (hne : e.2.target ≠ "*".toList) (hr : e.2.target ∉ readable) (hk : e.2.target ≠ keyType)
    (hm : e.2.target ∉ classNames o) : ∀ text, (inspect leftFirst c).1 ≠ .ok text := by
  have hn : NoClash o := fun a ha b hb _ => by rw [hp a ha, hp b hb]
  refine C115_not_shown leftFirst o n hw hn hs c hc e he hne hr hk fun s d hsd => ?_
  obtain ⟨-, ds, hd, ts, hmk, hperm⟩ := C56_open_content o n hw c hc s d hsd
  have hfrom : ∀ u ∈ s.types.flatten, ∃ x ∈ ds, (classType x).make = .ok u ∧ u.name = x.key.1 := by
    intro u hu'
    have hmem : (Res.ok u : Res TypeNotation) ∈ (ds.map classType).map TypeDesc.make := by
      rw [hmk]; exact List.mem_map_of_mem (hperm.mem_iff.mp hu')
    rw [List.map_map] at hmem
    obtain ⟨x, hx, hxu⟩ := List.mem_map.mp hmem
    refine ⟨x, hx, hxu, ?_⟩
    cases hb : x.body with
    | inr src =>
      obtain ⟨l1, l2, e', -⟩ := List.lookup_eq_some_iff.mp ((hd.container x hx src).1 hb)
      have := hp (x.key, some src) (by rw [e']; simp)
      cases this
    | inl ps =>
      simp only [Function.comp, classType, hb, TypeDesc.make, Res.bind_eq_ok] at hxu
      obtain ⟨fs, -, hxu⟩ := hxu
      simp only [Res.ok.injEq] at hxu
      subst hxu
      rfl
  have hkey : ∀ x ∈ ds, ∃ a ∈ classes o, a.1 = x.key := by
    intro x hx
    obtain ⟨a, ha, he⟩ := List.mem_map.mp ((hd.exact x.key).1 (List.mem_map_of_mem hx))
    exact ⟨a, ha, he⟩
  refine ⟨⟨?_, ?_⟩, ?_⟩
  · intro a ha b hb hab
    obtain ⟨x, hx, h1, h2⟩ := hfrom a ha
    obtain ⟨y, hy, h3, h4⟩ := hfrom b hb
    obtain ⟨p, hpm, hp2⟩ := hkey x hx
    obtain ⟨q, hqm, hq2⟩ := hkey y hy
    have hpq := hu p hpm q hqm (by rw [hp2, hq2, ← h2, ← h4, hab])
    have hxy : x = y := unique_key hd.once hx hy (by rw [← hp2, ← hq2, hpq])
    subst hxy
    rw [h1] at h3
    simpa using h3
  · intro a ha
    obtain ⟨x, hx, -, h2⟩ := hfrom a ha
    obtain ⟨p, hpm, hp2⟩ := hkey x hx
    rw [h2, ← hp2]
    exact ho p hpm
  · intro h
    obtain ⟨u, hu', hue⟩ := List.mem_map.mp h
    obtain ⟨x, hx, -, h2⟩ := hfrom u hu'
    apply hm
    rw [← hue, h2]
    exact (described_names hd _).1 (List.mem_map.mpr ⟨x, hx, rfl⟩)

/-- **C115, what does hold**: if there is an object wherever a class is named, the schema describes all the types it names. -/
theorem C115_self_contained_partial (o : Obj) (n : Node) (hw : serialise o = .ok [n]) (hn : NoClash o) (hs : Steady o) (hm : missing o = []) :
    ∃ ds, n = envelopeTree (objTree o) (schemaTree (ds.map ClassDesc.tree)) (.mk .null []) ∧ SelfContained ds := by
  obtain ⟨ds, h1, h2⟩ := C115_exact o n hw hn hs
  exact ⟨ds, h1, h2.2 (by rw [hm]; simp)⟩

/-- **C115 is violated** by every object with a null pointer to an object of another class: its schema names a class that it does not describe, and the
inspector does not show it. -/
theorem C115_violated (leftFirst : Bool) (n f a t : Str) (hn : n ∉ readable) (hk : n ≠ keyType) (ht : t ∉ basicNames) (hr : t ∉ readable) (htk : t ≠ keyType)
    (hts : t ≠ "*".toList) (htn : t ≠ n) :
    ∃ node ds, serialise (.comp n f [.nullObj a t]) = .ok [node]
      ∧ node = envelopeTree (objTree (.comp n f [.nullObj a t])) (schemaTree (ds.map ClassDesc.tree)) (.mk .null [])
      ∧ ¬ SelfContained ds
      ∧ ∀ c : Cursor, c.cur = some node → ∀ text, (inspect leftFirst c).1 ≠ .ok text := by
  have hcl : classes (.comp n f [.nullObj a t]) = [((n, f), none)] := rfl
  have hpr : props (.comp n f [.nullObj a t]) = [((n, f), ⟨a, t, [], false⟩)] := rfl
  have hno : NoClash (.comp n f [.nullObj a t]) := by
    intro x hx y hy _
    rw [hcl, List.mem_singleton] at hx hy
    rw [hx, hy]
  have hst : Steady (.comp n f [.nullObj a t]) := by
    intro x hx y hy _ _
    rw [hpr, List.mem_singleton] at hx hy
    rw [hx, hy]
  obtain ⟨ns, hns⟩ := C30_succeeds (.comp n f [.nullObj a t]) hno (by
    simp [NoCharPointers, NoCharPointersMembers, NoCharPointersMember])
  obtain ⟨node, rfl⟩ : ∃ node, ns = [node] := by
    rcases serialise_eq (.comp n f [.nullObj a t]) with ⟨ds, -, -, h1⟩ | ⟨-, h1⟩ | ⟨-, h1⟩
    · rw [h1] at hns
      exact ⟨_, by simpa using hns.symm⟩
    · rw [h1] at hns; simp at hns
    · rw [h1] at hns; simp at hns
  obtain ⟨ds, h1, h2⟩ := C115_exact _ node hns hno hst
  refine ⟨node, ds, hns, h1, fun h => ?_, fun c hc => ?_⟩
  · rcases h2.1 h t (by simp [missing, missingMembers, missingMember]) with h | h
    · exact ht h
    · unfold classNames at h
      rw [hcl] at h
      exact htn (by simpa using h)
  · refine C115_plain_not_shown leftFirst _ node hns hst c hc ?_ ?_ ?_ ((n, f), ⟨a, t, [], false⟩) (by rw [hpr]; simp) hts hr htk ?_
    · intro x hx
      rw [hcl, List.mem_singleton] at hx
      rw [hx]
    · intro x hx y hy _
      rw [hcl, List.mem_singleton] at hx hy
      rw [hx, hy]
    · intro x hx
      rw [hcl, List.mem_singleton] at hx
      rw [hx]
      exact ⟨hn, hk⟩
    · unfold classNames
      rw [hcl]
      show t ∉ [n]
      simpa using htn

/-- A character cannot be shown: no object without containers that has one is. -/
theorem C115_characters (leftFirst : Bool) (o : Obj) (n : Node) (hw : serialise o = .ok [n]) (hs : Steady o) (c : Cursor) (hc : c.cur = some n)
    (hp : ∀ a ∈ classes o, a.2 = none) (hu : ∀ a ∈ classes o, ∀ b ∈ classes o, a.1.1 = b.1.1 → a = b)
    (ho : ∀ a ∈ classes o, a.1.1 ∉ readable ∧ a.1.1 ≠ keyType ∧ a.1.1 ≠ "char".toList)
    (k : Str × Str) (q : PropDesc) (hq : (k, q) ∈ props o) (ht : q.target = "char".toList) : ∀ text, (inspect leftFirst c).1 ≠ .ok text := by
  refine C115_plain_not_shown leftFirst o n hw hs c hc hp hu (fun a ha => ⟨(ho a ha).1, (ho a ha).2.1⟩) (k, q) hq ?_ ?_ ?_ ?_
  · show q.target ≠ _
    rw [ht]; decide +kernel
  · show q.target ∉ _
    rw [ht]; decide +kernel
  · show q.target ≠ _
    rw [ht]; decide +kernel
  · intro h
    obtain ⟨a, ha, he⟩ := List.mem_map.mp h
    exact (ho a ha).2.2 (he.trans ht)

/-! Examples. -/

private def inner : Obj := .comp "net.In".toList "fpIn".toList [.prim "x".toList false (.int 1)]

/-- A chain with a null pointer at its end names no class that is not there; a null pointer alone, an empty list, a map without values and an object of a derived
class do. -/
example : missing (.comp "net.Link".toList "fp".toList [.obj "next".toList "net.Link".toList true (.comp "net.Link".toList "fp".toList [.nullObj "next".toList "net.Link".toList])])
      = ["net.Link".toList]
    ∧ missing (.comp "net.Out".toList "fp".toList [.obj "a".toList "net.In".toList false inner, .nullObj "b".toList "net.In".toList]) = ["net.In".toList]
    ∧ missing (.comp "net.Out".toList "fp".toList [.nullObj "b".toList "net.In".toList]) = ["net.In".toList]
    ∧ missing (.list "java.util.List<net.In>".toList "fp".toList []) = ["net.In".toList]
    ∧ missing (.list "java.util.List<net.In>".toList "fp".toList [.obj inner]) = []
    ∧ missing (.map "java.util.Map<string,java.util.Map<int,net.In>>".toList "fp".toList []) = ["string".toList, "java.util.Map<int,net.In>".toList]
    ∧ missing (.comp "net.Out".toList "fp".toList [.obj "a".toList "net.Base".toList true inner]) = ["net.Base".toList] := by decide +kernel

/-- The outcomes: the null pointer beside an object of its class is shown; alone it is not, nor are the empty list, the derived class and the character. -/
example : (inspect true (written (.comp "net.Out".toList "fp".toList [.obj "a".toList "net.In".toList false inner, .nullObj "b".toList "net.In".toList]))).1
      = .ok "{ Parsed : { a : { x : 1 }, b : <<NULL>> } }".toList
    ∧ (inspect true (written (.comp "net.Out".toList "fp".toList [.nullObj "b".toList "net.In".toList]))).1 = .throw "Can't find"
    ∧ (inspect true (written (.list "java.util.List<net.In>".toList "fp".toList []))).1 = .throw "Missing type in serialisers map"
    ∧ (inspect true (written (.comp "net.Out".toList "fp".toList [.obj "a".toList "net.Base".toList true inner]))).1 = .throw "Can't find"
    ∧ (inspect true (written (.comp "net.Out".toList "fp".toList [.prim "c".toList false (.char 65)]))).1 = .throw "Can't find" := by decide +kernel

#print axioms C115_shown
#print axioms C115_exact
#print axioms C115_not_shown
#print axioms C115_plain_not_shown
#print axioms C115_self_contained_partial
#print axioms C115_violated
#print axioms C115_characters

end Corda.Props
