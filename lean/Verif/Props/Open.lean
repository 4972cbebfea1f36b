import Verif.Props.RoundTrip
import Verif.Props.Malformed

/-
C56: a serialised object's blob can be opened by the schema reader.
-/

namespace Corda.Props
open Corda Prog Spec

/-- A property as a field of the schema. -/
def propField (p : PropDesc) : FieldDesc := ⟨p.name, p.type, p.requires, [], [], p.mandatory, false⟩

/-- A class as a type of the schema. -/
def classType (d : ClassDesc) : TypeDesc :=
  match d.body with
  | .inl ps => .comp d.key.1 [] [] d.key.2 (ps.map propField)
  | .inr source => .restr d.key.1 source d.key.2

private theorem classType_tree (d : ClassDesc) : (classType d).tree = d.tree := by
  obtain ⟨k, b⟩ := d
  cases b with
  | inl ps =>
    simp only [classType, TypeDesc.tree, ClassDesc.tree, List.map_map]
    rfl
  | inr s => rfl

/-- The fingerprint of the class of an object. -/
def fingerprint : Obj → Str
  | .comp _ f _ => f
  | .list _ f _ => f
  | .map _ f _ => f

private theorem objTree_payload (o : Obj) : ∃ body, objTree o = payloadTree (fingerprint o) body := by
  cases o <;> rw [objTree] <;> exact ⟨_, rfl⟩

/-- What opening the blob of an object makes, if all its classes can be made. -/
theorem open_written (o : Obj) (ds : List ClassDesc) (ts : List TypeNotation)
    (hm : (ds.map classType).map TypeDesc.make = ts.map Res.ok) (c : Cursor)
    (hc : c.cur = some (envelopeTree (objTree o) (schemaTree (ds.map ClassDesc.tree)) (.mk .null []))) :
    readEnvelope c = ((insertAllR TypeNotation.dependsOn ts).bind (fun ls => .ok (Schema.make ls, fingerprint o)), c) := by
  obtain ⟨body, hb⟩ := objTree_payload o
  have ht : ds.map ClassDesc.tree = (ds.map classType).map TypeDesc.tree := by
    rw [List.map_map]
    exact List.map_congr_left fun d _ => (classType_tree d).symm
  have hp : (ds.map classType).map TypeDesc.proton = ((ds.map classType).map TypeDesc.tree).map fun n => [n] := by
    rw [List.map_map (f := TypeDesc.tree)]
    exact List.map_congr_left fun d _ => TypeDesc.proton_eq d
  refine C22_envelope_round_trip (ds.map classType) ts (fingerprint o) body hm c _ ?_ hc
  rw [hp, schemaProton_eq, envelopeProton_eq, hb, ht]

/-- **C56, what is found.** If the blob of any serialised object can be opened, then its outer type is the fingerprint
of the object, and the schema holds exactly the classes that were written, each constructed from its description. -/
theorem C56_open_content (o : Obj) (n : Node) (hs : serialise o = .ok [n]) (c : Cursor) (hc : c.cur = some n)
    (s : Schema) (t : Str) (hr : (readEnvelope c).1 = .ok (s, t)) :
    t = fingerprint o ∧ ∃ ds, Describes o ds ∧ ∃ ts, (ds.map classType).map TypeDesc.make = ts.map Res.ok
      ∧ s.types.flatten.Perm ts := by
  rcases serialise_eq o with ⟨ds, hd, -, h1⟩ | ⟨-, h1⟩ | ⟨-, h1⟩
  · rw [h1] at hs
    simp only [Res.ok.injEq, List.cons.injEq, and_true] at hs
    subst hs
    obtain ⟨body, hb⟩ := objTree_payload o
    have ht : ds.map ClassDesc.tree = (ds.map classType).map TypeDesc.tree := by
      rw [List.map_map]
      exact List.map_congr_left fun d _ => (classType_tree d).symm
    obtain ⟨ts, hts⟩ := C22_envelope_only (ds.map classType) (fingerprint o) body (.mk .null []) c
      (by rw [hc, hb, ht]) _ hr
    rw [open_written o ds ts hts c hc] at hr
    simp only [Res.bind_eq_ok] at hr
    obtain ⟨ls, hl, hr⟩ := hr
    simp only [Res.ok.injEq, Prod.mk.injEq] at hr
    refine ⟨hr.2.symm, ds, hd, ts, hts, ?_⟩
    rw [← hr.1, schema_make_types]
    exact (C11_schema_types ts ls hl).1
  · rw [h1] at hs; simp at hs
  · rw [h1] at hs; simp at hs

/-! When it can be opened. -/

private theorem anyResolved_ok (n : Str) (fs : List Field) (h : ∀ f ∈ fs, ∃ t, f.resolvedType = .ok t) :
    ∃ b, anyResolved n fs = .ok b := by
  induction fs with
  | nil => exact ⟨false, rfl⟩
  | cons f fs ih =>
    obtain ⟨t, ht⟩ := h f (by simp)
    obtain ⟨b, hb⟩ := ih fun g hg => h g (by simp [hg])
    unfold anyResolved
    simp only [ht, Res.bind_eq, Res.bind, Res.pure_eq, hb]
    by_cases e : t = n <;> simp [e]

private theorem anyDeep_ok (n : Str) (fs : List Field) (h : ∀ f ∈ fs, ∃ t, f.resolvedType = .ok t) :
    ∃ b, anyDeep n fs = .ok b := by
  induction fs with
  | nil => exact ⟨false, rfl⟩
  | cons f fs ih =>
    obtain ⟨t, ht⟩ := h f (by simp)
    obtain ⟨b, hb⟩ := ih fun g hg => h g (by simp [hg])
    unfold anyDeep
    by_cases e1 : f.AMQPType = .restricted_t
    · rw [if_pos e1]
      by_cases e2 : f.subTypes.contains n = true
      · exact ⟨true, by rw [if_pos e2]⟩
      · exact ⟨b, by rw [if_neg e2, hb]⟩
    · rw [if_neg e1]
      simp only [ht, Res.bind_eq, Res.bind, Res.pure_eq, hb]
      by_cases e : t = n <;> simp [e]

/-- If all fields of all composites have a type to ask for, then all dependency questions are answered. -/
theorem dependsOn_ok (a b : TypeNotation) (ha : ∀ x, a = .comp x → Resolvable x) (hb : ∀ x, b = .comp x → Resolvable x) :
    ∃ n, a.dependsOn b = .ok n := by
  cases a with
  | comp x =>
    have hx := ha x rfl
    cases b with
    | comp y =>
      have hy := hb y rfl
      obtain ⟨p, hp⟩ := anyDeep_ok x.name y.fields hy
      obtain ⟨q, hq⟩ := anyResolved_ok y.name x.fields hx
      simp only [TypeNotation.dependsOn, Composite.rhsComposite, hp, hq, Res.bind_eq, Res.bind, Res.pure_eq]
      cases p <;> simp
    | restr y =>
      obtain ⟨q, hq⟩ := anyResolved_ok y.name x.fields hx
      have key : ∀ p : Bool, ∃ n, (if p = true then (Res.ok 1 : Res Int) else Res.ok (if q = true then 2 else 0)) = .ok n := by
        intro p; cases p <;> simp
      simp only [TypeNotation.dependsOn, Restricted.rhsComposite, hq, Res.bind_eq, Res.bind, Res.pure_eq]
      exact key _
  | restr x =>
    cases b with
    | comp y =>
      have hy := hb y rfl
      obtain ⟨p, hp⟩ := anyResolved_ok x.name y.fields hy
      simp only [TypeNotation.dependsOn, Composite.rhsRestricted, hp, Res.bind_eq, Res.bind, Res.pure_eq]
      cases p <;> simp
    | restr y => exact ⟨_, rfl⟩

/-- A schema of such types can always be collected. -/
theorem collect_ok (ts : List TypeNotation) (h : ∀ x, .comp x ∈ ts → Resolvable x) :
    ∃ ls, insertAllR TypeNotation.dependsOn ts = .ok ls := by
  have hd : ∀ a b, a ∈ ts → b ∈ ts → a.dependsOn b
      = .ok (match a.dependsOn b with | .ok n => n | _ => 0) := by
    intro a b ha hb
    obtain ⟨n, hn⟩ := dependsOn_ok a b (fun x e => h x (e ▸ ha)) (fun x e => h x (e ▸ hb))
    rw [hn]
  obtain ⟨r, hr, -⟩ := insertAllR_of (S := (· ∈ ts)) hd ts (fun _ hx => hx)
  exact ⟨r, hr⟩

/-- A property has a type name other than `*`, or is `*` with a requirement. -/
def Asks (p : PropDesc) : Prop := p.type = "*".toList → p.requires ≠ []

private theorem field_resolves (p : PropDesc) (hp : Asks p) (f : Field) (h : (propField p).make = .ok f) :
    ∃ t, f.resolvedType = .ok t := by
  unfold FieldDesc.make propField Field.make at h
  simp only at h
  split at h
  · simp only [Res.pure_eq, Res.ok.injEq] at h; subst h; exact ⟨_, rfl⟩
  · rw [Res.bind_eq, Res.bind_eq_ok] at h
    obtain ⟨arr, -, h⟩ := h
    split at h
    · rw [Res.bind_eq, Res.bind_eq_ok] at h
      obtain ⟨sub, -, h⟩ := h
      simp only [Res.pure_eq, Res.ok.injEq] at h; subst h; exact ⟨_, rfl⟩
    · split at h
      · rename_i hstar
        cases hr : p.requires with
        | nil => exact absurd hr (hp hstar)
        | cons r rs =>
          rw [hr] at h
          simp only [Res.bind_eq, Res.bind_eq_ok] at h
          obtain ⟨c, -, h⟩ := h
          split at h
          · rw [Res.bind_eq_ok] at h
            obtain ⟨sub, -, h⟩ := h
            simp only [Res.pure_eq, Res.ok.injEq] at h; subst h; exact ⟨_, rfl⟩
          · simp at h
      · rw [Res.bind_eq, Res.bind_eq_ok] at h
        obtain ⟨sub, -, h⟩ := h
        simp only [Res.pure_eq, Res.ok.injEq] at h; subst h; exact ⟨_, rfl⟩

/-- **C56, when.** If no property has the type name `*` without a requirement and each class description can be
constructed, then the blob can be opened. -/
theorem C56_open_described (o : Obj) (n : Node) (hs : serialise o = .ok [n]) (hp : ∀ e ∈ props o, Asks e.2)
    (hm : ∀ ds, Describes o ds → ∀ d ∈ ds, ∃ t, (classType d).make = .ok t) (c : Cursor) (hc : c.cur = some n) :
    ∃ s, readEnvelope c = (.ok (s, fingerprint o), c) := by
  rcases serialise_eq o with ⟨ds, hd, -, h1⟩ | ⟨-, h1⟩ | ⟨-, h1⟩
  · rw [h1] at hs
    simp only [Res.ok.injEq, List.cons.injEq, and_true] at hs
    subst hs
    have hts : ∃ ts : List TypeNotation, (ds.map classType).map TypeDesc.make = ts.map Res.ok := by
      have := hm ds hd
      clear hm hd hc h1
      induction ds with
      | nil => exact ⟨[], rfl⟩
      | cons d ds ih =>
        obtain ⟨t, ht⟩ := this d (by simp)
        obtain ⟨ts, h⟩ := ih fun x hx => this x (by simp [hx])
        exact ⟨t :: ts, by simp only [List.map_cons, ht, h]⟩
    obtain ⟨ts, hts⟩ := hts
    have hres : ∀ x, TypeNotation.comp x ∈ ts → Resolvable x := by
      intro x hx
      have : Res.ok (TypeNotation.comp x) ∈ (ds.map classType).map TypeDesc.make := by
        rw [hts]; exact List.mem_map_of_mem hx
      rw [List.map_map, List.mem_map] at this
      obtain ⟨d, hdm, hde⟩ := this
      simp only [Function.comp] at hde
      cases hb : d.body with
      | inr src =>
        simp only [classType, hb, TypeDesc.make, Res.bind_eq_ok] at hde
        obtain ⟨r, -, hr⟩ := hde
        simp at hr
      | inl ps =>
        simp only [classType, hb, TypeDesc.make, Res.bind_eq_ok] at hde
        obtain ⟨fs, hfs, hde⟩ := hde
        simp only [Res.ok.injEq, TypeNotation.comp.injEq] at hde
        subst hde
        have hfs := inOrder_eq_ok _ _ hfs
        intro f hf
        have : Res.ok f ∈ ((ps.map propField).map FieldDesc.make) := by rw [hfs]; exact List.mem_map_of_mem hf
        rw [List.map_map, List.mem_map] at this
        obtain ⟨p, hpm, hpe⟩ := this
        have hfp := (hd.propsExact d hdm ps hb p).1 hpm
        have hmem : ∃ e ∈ props o, e.2 = p := by
          unfold firstProp at hfp
          obtain ⟨e, he, heq⟩ := List.exists_of_findSome?_eq_some hfp
          by_cases hc : e.1 = d.key ∧ e.2.name = p.name
          · rw [if_pos hc] at heq; exact ⟨e, he, by simpa using heq⟩
          · rw [if_neg hc] at heq; simp at heq
        obtain ⟨e, he, rfl⟩ := hmem
        exact field_resolves e.2 (hp e he) f hpe
    obtain ⟨ls, hl⟩ := collect_ok ts hres
    exact ⟨Schema.make ls, by rw [open_written o ds ts hts c hc, hl]; rfl⟩
  · rw [h1] at hs; simp at hs
  · rw [h1] at hs; simp at hs

/-! Objects without containers and with ordinary names. -/

mutual

/-- No lists and maps in the object. -/
def NoContainers : Obj → Prop
  | .comp _ _ ms => NoContainersIn ms
  | _ => False

def NoContainersIn : List Member → Prop
  | [] => True
  | .obj _ _ _ o :: ms => NoContainers o ∧ NoContainersIn ms
  | _ :: ms => NoContainersIn ms

end

mutual

private theorem noContainers_classes : (o : Obj) → NoContainers o → ∀ u ∈ classes o, u.2 = none
  | .comp n f ms => by
    intro h u hu
    rw [classes, List.mem_cons] at hu
    rcases hu with rfl | hu
    · rfl
    · exact noContainers_members ms h u hu
  | .list _ _ _ => by intro h; exact absurd h (by simp [NoContainers])
  | .map _ _ _ => by intro h; exact absurd h (by simp [NoContainers])

private theorem noContainers_members : (ms : List Member) → NoContainersIn ms → ∀ u ∈ classesMembers ms, u.2 = none
  | [] => by intro _ u hu; simp [classesMembers] at hu
  | .prim _ _ _ :: ms => by
    intro h u hu
    rw [classesMembers, classesMember, List.nil_append] at hu
    · rw [NoContainersIn] at h
      · exact noContainers_members ms h u hu
      · simp
    · simp
  | .nullPrim _ _ :: ms => by
    intro h u hu
    rw [classesMembers, classesMember, List.nil_append] at hu
    · rw [NoContainersIn] at h
      · exact noContainers_members ms h u hu
      · simp
    · simp
  | .nullObj _ _ :: ms => by
    intro h u hu
    rw [classesMembers, classesMember, List.nil_append] at hu
    · rw [NoContainersIn] at h
      · exact noContainers_members ms h u hu
      · simp
    · simp
  | .obj _ _ _ o :: ms => by
    intro h u hu
    rw [NoContainersIn] at h
    rw [classesMembers, classesMember, List.mem_append] at hu
    rcases hu with hu | hu
    · exact noContainers_classes o h.1 u hu
    · exact noContainers_members ms h.2 u hu

end

private theorem nc_isContainer (o : Obj) (h : NoContainers o) : o.isContainer = false := by
  cases o <;> first | rfl | exact absurd h (by simp [NoContainers])

mutual

private theorem noContainers_requires : (o : Obj) → NoContainers o → ∀ e ∈ props o, e.2.requires = []
  | .comp n f ms => by
    intro h e he
    rw [props] at he
    exact noContainers_requiresIn (n, f) ms h e he
  | .list _ _ _ => by intro h; exact absurd h (by simp [NoContainers])
  | .map _ _ _ => by intro h; exact absurd h (by simp [NoContainers])

private theorem noContainers_requiresIn (k : Str × Str) : (ms : List Member) → NoContainersIn ms →
    ∀ e ∈ propsMembers k ms, e.2.requires = []
  | [] => by intro _ u hu; simp [propsMembers] at hu
  | .prim a b c :: ms => by
    intro h u hu
    rw [NoContainersIn] at h
    · simp only [propsMembers, propsMember, List.cons_append, List.nil_append, List.mem_cons] at hu
      rcases hu with rfl | hu
      · rfl
      · exact noContainers_requiresIn k ms h u hu
    · simp
  | .nullPrim a b :: ms => by
    intro h u hu
    rw [NoContainersIn] at h
    · simp only [propsMembers, propsMember, List.cons_append, List.nil_append, List.mem_cons] at hu
      rcases hu with rfl | hu
      · rfl
      · exact noContainers_requiresIn k ms h u hu
    · simp
  | .nullObj a b :: ms => by
    intro h u hu
    rw [NoContainersIn] at h
    · simp only [propsMembers, propsMember, List.cons_append, List.nil_append, List.mem_cons] at hu
      rcases hu with rfl | hu
      · rfl
      · exact noContainers_requiresIn k ms h u hu
    · simp
  | .obj a b c o :: ms => by
    intro h u hu
    rw [NoContainersIn] at h
    rw [propsMembers, propsMember, List.mem_append, List.mem_cons] at hu
    rcases hu with (rfl | hu) | hu
    · simp [memberDesc, nc_isContainer o h.1]
    · exact noContainers_requires o h.1 u hu
    · exact noContainers_requiresIn k ms h.2 u hu

end

/-- **C56 for ordinary objects.** An object without containers and pointers to characters whose property types are not named `""`, `]`, `p]`, `*`
(nor longer than a string can be): it is serialised, its blob can be opened, its outer type is its fingerprint and the
schema holds exactly its classes. -/
theorem C56_open_objects (o : Obj) (ho : NoContainers o) (hcp : NoCharPointers o)
    (hn : ∀ e ∈ props o, SafeName e.2.type ∧ e.2.type ≠ "*".toList) :
    ∃ n s, serialise o = .ok [n] ∧ readEnvelope (Cursor.root n) = (.ok (s, fingerprint o), Cursor.root n)
      ∧ ∃ ds, Describes o ds ∧ ∃ ts, (ds.map classType).map TypeDesc.make = ts.map Res.ok
        ∧ s.types.flatten.Perm ts := by
  have hcl := noContainers_classes o ho
  obtain ⟨ns, hs⟩ := C30_succeeds o (by intro a ha b hb _; rw [hcl a ha, hcl b hb]) hcp
  obtain ⟨ts, rfl⟩ := C30_blob o ns hs
  obtain ⟨s, h⟩ := C56_open_described o _ hs (fun e he h => absurd h (hn e he).2) (by
    intro ds hd d hdm
    cases hb : d.body with
    | inr src =>
      have h2 := (hd.container d hdm src).1 hb
      have hmem := mem_of_lookup _ _ _ h2
      have := hcl _ hmem
      simp at this
    | inl ps =>
      have : ∀ p ∈ ps, ∃ f, (propField p).make = .ok f := by
        intro p hpm
        have hfp := (hd.propsExact d hdm ps hb p).1 hpm
        have hmem : ∃ e ∈ props o, e.2 = p := by
          unfold firstProp at hfp
          obtain ⟨e, he, heq⟩ := List.exists_of_findSome?_eq_some hfp
          by_cases hc : e.1 = d.key ∧ e.2.name = p.name
          · rw [if_pos hc] at heq; exact ⟨e, he, by simpa using heq⟩
          · rw [if_neg hc] at heq; simp at heq
        obtain ⟨e, he, rfl⟩ := hmem
        have hreq := noContainers_requires o ho e he
        obtain ⟨⟨h1, h2, h3, h4⟩, h5⟩ := hn e he
        have := C17_field_classification_partial e.2.name e.2.type e.2.requires [] [] e.2.mandatory false
          (by unfold ArrayUB; simp only [not_or]; exact ⟨h1, h2, h3⟩) h4 (by rw [hreq]; simp) [] (by rw [hreq]; rfl)
        rcases this with ⟨h6, -⟩ | ⟨k, -, h6⟩
        · rw [hreq] at h6
          unfold fieldKind at h6
          repeat' split at h6
          all_goals simp at h6
        · exact ⟨_, h6⟩
      have hfs : ∃ fs : List Field, (ps.map propField).map FieldDesc.make = fs.map Res.ok := by
        clear hb
        induction ps with
        | nil => exact ⟨[], rfl⟩
        | cons p ps ih =>
          obtain ⟨f, hf⟩ := this p (by simp)
          obtain ⟨fs, h⟩ := ih fun x hx => this x (by simp [hx])
          exact ⟨f :: fs, by simp only [List.map_cons, hf, h]⟩
      obtain ⟨fs, hfs⟩ := hfs
      exact ⟨.comp ⟨d.key.1, [], [], d.key.2, fs⟩, by
        simp only [classType, hb, TypeDesc.make, hfs, inOrder_ok]; rfl⟩) (Cursor.root _) rfl
  exact ⟨_, s, hs, h, (C56_open_content o _ hs _ rfl s _ (by rw [h])).2⟩

private def exampleObj : Obj := .comp "net.Out".toList "fpOut".toList
  [.obj "b".toList "net.In".toList false (.comp "net.In".toList "fpIn".toList [.prim "x".toList false (.int 1)]),
   .prim "a".toList true (.string "hi".toList), .nullObj "c".toList "net.In".toList]

example : NoContainers exampleObj ∧ NoCharPointers exampleObj ∧ ∀ e ∈ props exampleObj, e.2.type ≠ "*".toList := by
  refine ⟨by simp [NoContainers, NoContainersIn, exampleObj], ?_, by decide +kernel⟩
  simp [NoCharPointers, NoCharPointersMembers, NoCharPointersMember, exampleObj, Prim.type]

/-- The dependency order is `In` before `Out`. -/
example : ((serialise exampleObj).bind fun ns => (readEnvelope ⟨[], ns.head?, [], []⟩).1.bind fun r =>
      .ok (r.1.types.map (·.map TypeNotation.name), r.2))
    = .ok ([["net.In".toList], ["net.Out".toList]], "fpOut".toList) := by decide +kernel

#print axioms C56_open_content
#print axioms C56_open_described
#print axioms C56_open_objects

end Corda.Props
