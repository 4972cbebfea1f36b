import Verif.Model.Fingerprint
import Verif.Spec.Writer

/-
C121: a class that was not given a fingerprint.
-/

namespace Corda.Props
open Corda Corda.Spec Wr

/-- Every object in the graph is of a class with a fingerprint. -/
def AllSet (us : List ClassUse) : Prop := ∀ u ∈ us, u.1.2 ≠ "FINGERPRINT_NOT_SET".toList

/-! ### With fingerprints nothing changes -/

/-- What the check demands. -/
private def Fine (b : Compiler) (us : List ClassUse) : Prop := ∀ u ∈ us, b = .appleClang → u.1.2 ≠ "FINGERPRINT_NOT_SET".toList

private theorem check_passes (b : Compiler) (f : Str) (h : b = .appleClang → f ≠ "FINGERPRINT_NOT_SET".toList) (p : Wr) : seq (fingerprint b f) p = p := by
  funext s
  unfold seq fingerprint notSet
  rw [if_neg (fun x => h x.1 x.2)]

mutual

private theorem object_same (b : Compiler) : (o : Obj) → Fine b (classes o) → objectOn b o = object o
  | .comp n f ms, h => by
    unfold classes at h
    unfold objectOn object
    rw [check_passes b f (h _ (.head _)), members_same b (n, f) ms fun u hu => h u (.tail _ hu)]
  | .list n f es, h => by
    unfold classes at h
    unfold objectOn object
    rw [check_passes b f (h _ (.head _)), elems_same b es fun u hu => h u (.tail _ hu)]
  | .map n f es, h => by
    unfold classes at h
    unfold objectOn object
    rw [check_passes b f (h _ (.head _)), entries_same b es fun u hu => h u (.tail _ hu)]

private theorem members_same (b : Compiler) (key : Str × Str) : (ms : List Member) → Fine b (classesMembers ms) → membersOn b key ms = members key ms
  | [], _ => by unfold membersOn members; rfl
  | m :: ms, h => by
    unfold classesMembers at h
    unfold membersOn members
    rw [member_same b key m fun u hu => h u (List.mem_append_left _ hu), members_same b key ms fun u hu => h u (List.mem_append_right _ hu)]

private theorem member_same (b : Compiler) (key : Str × Str) : (m : Member) → Fine b (classesMember m) → memberOn b key m = member key m
  | .prim .., _ => by unfold memberOn; rfl
  | .nullPrim .., _ => by unfold memberOn; rfl
  | .nullObj .., _ => by unfold memberOn; rfl
  | .obj n t ptr o, h => by
    unfold classesMember at h
    unfold memberOn member
    rw [object_same b o h]

private theorem elems_same (b : Compiler) : (es : List Elem) → Fine b (classesElems es) → elemsOn b es = elems es
  | [], _ => by unfold elemsOn elems; rfl
  | e :: es, h => by
    unfold classesElems at h
    unfold elemsOn elems
    rw [elem_same b e fun u hu => h u (List.mem_append_left _ hu), elems_same b es fun u hu => h u (List.mem_append_right _ hu)]

private theorem elem_same (b : Compiler) : (e : Elem) → Fine b (classesElem e) → elemOn b e = elem e
  | .prim .., _ => by unfold elemOn; rfl
  | .nullPrim .., _ => by unfold elemOn; rfl
  | .obj o, h => by
    unfold classesElem at h
    unfold elemOn elem
    exact object_same b o h

private theorem entries_same (b : Compiler) : (es : List Entry) → Fine b (classesEntries es) → entriesOn b es = entries es
  | [], _ => by unfold entriesOn entries; rfl
  | .mk k v :: es, h => by
    unfold classesEntries at h
    unfold entriesOn entries entryOn entry
    rw [elem_same b k fun u hu => h u (List.mem_append_left _ (List.mem_append_left _ hu)),
      elem_same b v fun u hu => h u (List.mem_append_left _ (List.mem_append_right _ hu)),
      entries_same b es fun u hu => h u (List.mem_append_right _ hu)]

end

/-! ### Without one it fails -/

/-- The second does what the first does, or throws for want of a fingerprint. -/
private def Stops (p q : Wr) : Prop := ∀ s, q s = p s ∨ (q s).1 = .throw "Fingerprint not set"

private theorem stops_self (p : Wr) : Stops p p := fun _ => .inl rfl

private theorem stops_seq {p q p' q' : Wr} (h : Stops p p') (k : Stops q q') : Stops (seq p q) (seq p' q') := by
  intro s
  unfold seq
  rcases h s with e | e
  · rw [e]
    match p s with
    | (.ok _, s') => exact k s'
    | (.throw m, s') => exact .inl rfl
    | (.ub w, s') => exact .inl rfl
  · generalize p' s = x at e
    obtain ⟨r, s'⟩ := x
    cases e
    exact .inr rfl

private theorem stops_guarded {p q p' q' : Wr} (h : Stops p p') (k : Stops q q') (stop : Cursor → Cursor) :
    Stops (guarded p q stop) (guarded p' q' stop) := by
  intro s
  unfold guarded
  rcases h s with e | e
  · rw [e]
    match p s with
    | (.ok _, s') =>
      rcases k s' with e' | e'
      · exact .inl (by simp only [e'])
      · exact .inr e'
    | (.throw m, s') => exact .inl rfl
    | (.ub w, s') => exact .inl rfl
  · generalize p' s = x at e
    obtain ⟨r, s'⟩ := x
    cases e
    exact .inr rfl

private theorem stops_check (b : Compiler) (f : Str) (p : Wr) : Stops p (seq (fingerprint b f) p) := by
  intro s
  unfold seq fingerprint
  by_cases h : b = .appleClang ∧ f = notSet
  · rw [if_pos h]; exact .inr rfl
  · rw [if_neg h]; exact .inl rfl

mutual

private theorem object_stops (b : Compiler) : (o : Obj) → Stops (object o) (objectOn b o)
  | .comp n f ms => by unfold objectOn object; exact stops_guarded (stops_check b f _) (members_stops b (n, f) ms) _
  | .list n f es => by unfold objectOn object; exact stops_guarded (stops_check b f _) (elems_stops b es) _
  | .map n f es => by unfold objectOn object; exact stops_guarded (stops_check b f _) (entries_stops b es) _

private theorem members_stops (b : Compiler) (key : Str × Str) : (ms : List Member) → Stops (members key ms) (membersOn b key ms)
  | [] => by unfold membersOn members; exact stops_self _
  | m :: ms => by unfold membersOn members; exact stops_seq (member_stops b key m) (members_stops b key ms)

private theorem member_stops (b : Compiler) (key : Str × Str) : (m : Member) → Stops (member key m) (memberOn b key m)
  | .prim .. => by unfold memberOn; exact stops_self _
  | .nullPrim .. => by unfold memberOn; exact stops_self _
  | .nullObj .. => by unfold memberOn; exact stops_self _
  | .obj n t ptr o => by unfold memberOn member; exact stops_seq (stops_self _) (object_stops b o)

private theorem elems_stops (b : Compiler) : (es : List Elem) → Stops (elems es) (elemsOn b es)
  | [] => by unfold elemsOn elems; exact stops_self _
  | e :: es => by unfold elemsOn elems; exact stops_seq (elem_stops b e) (elems_stops b es)

private theorem elem_stops (b : Compiler) : (e : Elem) → Stops (elem e) (elemOn b e)
  | .prim .. => by unfold elemOn; exact stops_self _
  | .nullPrim .. => by unfold elemOn; exact stops_self _
  | .obj o => by unfold elemOn elem; exact object_stops b o

private theorem entries_stops (b : Compiler) : (es : List Entry) → Stops (entries es) (entriesOn b es)
  | [] => by unfold entriesOn entries; exact stops_self _
  | .mk k v :: es => by
    unfold entriesOn entries entryOn entry
    exact stops_seq (stops_seq (elem_stops b k) (elem_stops b v)) (entries_stops b es)

end

/-- It does not succeed. -/
private def Refuses (p : Wr) : Prop := ∀ s, (p s).1 ≠ .ok ()

private theorem refuses_first {p : Wr} (h : Refuses p) (q : Wr) : Refuses (seq p q) := by
  intro s
  have := h s
  unfold seq
  match e : p s with
  | (.ok _, s') => rw [e] at this; exact absurd rfl this
  | (.throw m, s') => exact fun x => (by cases x)
  | (.ub w, s') => exact fun x => (by cases x)

private theorem refuses_second (p : Wr) {q : Wr} (h : Refuses q) : Refuses (seq p q) := by
  intro s
  unfold seq
  match p s with
  | (.ok _, s') => exact h s'
  | (.throw m, s') => exact fun x => (by cases x)
  | (.ub w, s') => exact fun x => (by cases x)

private theorem refuses_start {p : Wr} (h : Refuses p) (q : Wr) (stop : Cursor → Cursor) : Refuses (guarded p q stop) := by
  intro s
  have := h s
  unfold guarded
  match e : p s with
  | (.ok _, s') => rw [e] at this; exact absurd rfl this
  | (.throw m, s') => exact fun x => (by cases x)
  | (.ub w, s') => exact fun x => (by cases x)

private theorem refuses_body (p : Wr) {q : Wr} (h : Refuses q) (stop : Cursor → Cursor) : Refuses (guarded p q stop) := by
  intro s
  unfold guarded
  match p s with
  | (.ok _, s') => exact h s'
  | (.throw m, s') => exact fun x => (by cases x)
  | (.ub w, s') => exact fun x => (by cases x)

private theorem refuses_check (p : Wr) : Refuses (seq (fingerprint .appleClang notSet) p) := by
  intro s
  unfold seq fingerprint
  rw [if_pos ⟨rfl, rfl⟩]
  exact fun x => (by cases x)

/-- Some object in the graph is of a class without a fingerprint. -/
def SomeUnset (us : List ClassUse) : Prop := ∃ u ∈ us, u.1.2 = "FINGERPRINT_NOT_SET".toList

mutual

private theorem object_refuses : (o : Obj) → SomeUnset (classes o) → Refuses (objectOn .appleClang o)
  | .comp n f ms, ⟨u, hu, e⟩ => by
    unfold classes at hu
    unfold objectOn
    rcases List.mem_cons.1 hu with rfl | hu
    · cases e; exact refuses_start (refuses_check _) _ _
    · exact refuses_body _ (members_refuses (n, f) ms ⟨u, hu, e⟩) _
  | .list n f es, ⟨u, hu, e⟩ => by
    unfold classes at hu
    unfold objectOn
    rcases List.mem_cons.1 hu with rfl | hu
    · cases e; exact refuses_start (refuses_check _) _ _
    · exact refuses_body _ (elems_refuses es ⟨u, hu, e⟩) _
  | .map n f es, ⟨u, hu, e⟩ => by
    unfold classes at hu
    unfold objectOn
    rcases List.mem_cons.1 hu with rfl | hu
    · cases e; exact refuses_start (refuses_check _) _ _
    · exact refuses_body _ (entries_refuses es ⟨u, hu, e⟩) _

private theorem members_refuses (key : Str × Str) : (ms : List Member) → SomeUnset (classesMembers ms) → Refuses (membersOn .appleClang key ms)
  | [], ⟨_, hu, _⟩ => by unfold classesMembers at hu; cases hu
  | m :: ms, ⟨u, hu, e⟩ => by
    unfold classesMembers at hu
    unfold membersOn
    rcases List.mem_append.1 hu with hu | hu
    · exact refuses_first (member_refuses key m ⟨u, hu, e⟩) _
    · exact refuses_second _ (members_refuses key ms ⟨u, hu, e⟩)

private theorem member_refuses (key : Str × Str) : (m : Member) → SomeUnset (classesMember m) → Refuses (memberOn .appleClang key m)
  | .prim .., ⟨_, hu, _⟩ => by simp [classesMember] at hu
  | .nullPrim .., ⟨_, hu, _⟩ => by simp [classesMember] at hu
  | .nullObj .., ⟨_, hu, _⟩ => by simp [classesMember] at hu
  | .obj n t ptr o, h => by
    unfold classesMember at h
    unfold memberOn
    exact refuses_second _ (object_refuses o h)

private theorem elems_refuses : (es : List Elem) → SomeUnset (classesElems es) → Refuses (elemsOn .appleClang es)
  | [], ⟨_, hu, _⟩ => by unfold classesElems at hu; cases hu
  | e :: es, ⟨u, hu, x⟩ => by
    unfold classesElems at hu
    unfold elemsOn
    rcases List.mem_append.1 hu with hu | hu
    · exact refuses_first (elem_refuses e ⟨u, hu, x⟩) _
    · exact refuses_second _ (elems_refuses es ⟨u, hu, x⟩)

private theorem elem_refuses : (e : Elem) → SomeUnset (classesElem e) → Refuses (elemOn .appleClang e)
  | .prim .., ⟨_, hu, _⟩ => by simp [classesElem] at hu
  | .nullPrim .., ⟨_, hu, _⟩ => by simp [classesElem] at hu
  | .obj o, h => by
    unfold classesElem at h
    unfold elemOn
    exact object_refuses o h

private theorem entries_refuses : (es : List Entry) → SomeUnset (classesEntries es) → Refuses (entriesOn .appleClang es)
  | [], ⟨_, hu, _⟩ => by unfold classesEntries at hu; cases hu
  | .mk k v :: es, ⟨u, hu, x⟩ => by
    unfold classesEntries at hu
    unfold entriesOn entryOn
    rcases List.mem_append.1 hu with hu | hu
    · rcases List.mem_append.1 hu with hu | hu
      · exact refuses_first (refuses_first (elem_refuses k ⟨u, hu, x⟩) _) _
      · exact refuses_first (refuses_second _ (elem_refuses v ⟨u, hu, x⟩)) _
    · exact refuses_second _ (entries_refuses es ⟨u, hu, x⟩)

end

/-! ### C121 -/

/-- **C121, given fingerprints**: with whatever compiler, an object of which every class has a fingerprint is written as all other claims say, or fails as
they say; also as one of many written to a blob. -/
theorem C121_set (b : Compiler) (o : Obj) (h : AllSet (classes o)) : serialiseOn b o = serialise o := by
  unfold serialiseOn serialise
  rw [object_same b o fun u hu _ => h u hu]
  rfl

/-- The same for programs that write any number of objects to one blob. -/
theorem C121_set_many (b : Compiler) : (as : List Act) → (s : WState) → (∀ o, .write o ∈ as → AllSet (classes o)) → useBlobOn b s as = useBlob s as
  | [], _, _ => by unfold useBlobOn useBlob; rfl
  | .make :: as, s, h => by
    unfold useBlobOn useBlob
    rw [C121_set_many b as s fun o ho => h o (.tail _ ho)]
  | .write o :: as, s, h => by
    unfold useBlobOn useBlob
    rw [object_same b o fun u hu _ => h o (.head _) u hu]
    have ih := fun s' => C121_set_many b as s' fun o ho => h o (.tail _ ho)
    simp only [ih]
    rfl

/-- **C121, no fingerprint**: an object with an object of a class without a fingerprint anywhere in it is not written; if it could be written otherwise, the
exception is that the fingerprint is not set. -/
theorem C121_unset_partial (o : Obj) (h : SomeUnset (classes o)) :
    (∀ ns, serialiseOn .appleClang o ≠ .ok ns)
      ∧ (∀ ns, serialise o = .ok ns → serialiseOn .appleClang o = .throw "Fingerprint not set") := by
  have h1 := object_refuses o h WState.init
  have h2 := object_stops .appleClang o WState.init
  unfold serialiseOn serialise
  generalize objectOn .appleClang o WState.init = x at h1 h2
  generalize object o WState.init = y at h2
  obtain ⟨r, s⟩ := x
  obtain ⟨r', s'⟩ := y
  refine ⟨fun ns => ?_, fun ns => ?_⟩
  · cases r with
    | ok u => exact absurd rfl h1
    | throw m => exact fun e => (by cases e)
    | ub w => exact fun e => (by cases e)
  · intro e
    rcases h2 with h2 | h2
    · cases h2
      cases r with
      | ok u => exact absurd rfl h1
      | throw m => cases e
      | ub w => cases e
    · cases h2
      rfl

/-- **C121, nothing is left behind** of an object whose own class has no fingerprint: what was written to the blob before is as it was. -/
theorem C121_unchanged_partial (o : Obj) (h : o.fp = "FINGERPRINT_NOT_SET".toList) (s : WState) :
    objectOn .appleClang o s = (.throw "Fingerprint not set", s) := by
  have key : ∀ (p q : Wr) (f : Str), f = "FINGERPRINT_NOT_SET".toList →
      guarded (seq (fingerprint .appleClang f) p) q stop s = (.throw "Fingerprint not set", s) := by
    intro p q f hf
    have e : fingerprint .appleClang f s = (.throw "Fingerprint not set", s) := by
      unfold fingerprint notSet
      rw [if_pos ⟨rfl, hf⟩]
    unfold guarded seq
    rw [e]
  cases o <;> unfold objectOn <;> exact key _ _ _ h

/-- **C121 is violated, a given fingerprint**: a class that was given that very text as its fingerprint is written by a program built with one
compiler and refused by the same program built with the other; so is every object that contains one and can be written. -/
theorem C121_given_violated (o : Obj) (h : SomeUnset (classes o)) (ns : List Node) (hs : serialise o = .ok ns) :
    serialiseOn .other o = .ok ns ∧ serialiseOn .appleClang o = .throw "Fingerprint not set" := by
  refine ⟨?_, (C121_unset_partial o h).2 ns hs⟩
  rw [← hs]
  unfold serialiseOn serialise
  rw [object_same .other o fun _ _ x => by cases x]
  rfl

/-- An object with a number. -/
private def plainObj (name fp : Str) (n : Int) : Obj := .comp name fp [.prim "a".toList false (.int n)]

/-- An object that contains it. -/
private def around (fp : Str) (o : Obj) : Obj := .comp "Outer".toList fp [.obj "b".toList "Inner".toList false o]

/-- What is made of them. -/
private def spoilt : Node :=
  element 1 [.mk .described [.mk (.symbol "fpO".toList) [], .mk .list []],
    .mk .described [.mk (.symbol "fpA".toList) [], .mk .list [.mk (.int 1) []]],
    schemaTree [compositeTree "A".toList [] [] "fpA".toList [fieldTree "a".toList "int".toList [] [] [] false false],
      compositeTree "Outer".toList [] [] "fpO".toList [fieldTree "b".toList "Inner".toList [] [] [] false false]], .mk .null []]

/-- **C121 is violated, what is left behind**: if the class of an object inside has no fingerprint, the part of the outer object that was written stays in
the blob, and a blob made of it and of the next object cannot be opened. -/
theorem C121_leftover_violated :
    let given := plainObj "A".toList "fpA".toList 1
    let unset := around "fpO".toList (plainObj "Inner".toList "FINGERPRINT_NOT_SET".toList 2)
    useBlobOn .appleClang WState.init [.write unset, .write given, .make] = [.throw "Fingerprint not set", .ok [], .ok [spoilt]]
      ∧ (Prog.readEnvelope (Cursor.root spoilt)).1 = .throw "Expected an unsigned long" := by
  decide +kernel

/-! ### Examples -/

/-- A class without a fingerprint. -/
example : serialiseOn .appleClang (plainObj "A".toList "FINGERPRINT_NOT_SET".toList 1) = .throw "Fingerprint not set" := by decide +kernel

/-- An empty vector of such a class can be written. -/
example : ∃ n, serialiseOn .appleClang (.list "java.util.List<A>".toList "fp".toList []) = .ok [n] := ⟨_, rfl⟩

#print axioms C121_set
#print axioms C121_set_many
#print axioms C121_unset_partial
#print axioms C121_unchanged_partial
#print axioms C121_given_violated
#print axioms C121_leftover_violated

end Corda.Props
