import Verif.Lemmas.Writer

/-
C29–C32: what serialising an object produces.
-/

namespace Corda.Props
open Corda Spec Wr

/-! A class with an `int`, a nested object of another class twice, a list and a null pointer. -/

private def inner (n : Int) : Obj := .comp "net.In".toList "fpIn".toList [.prim "x".toList false (.int n)]

private def outer : Obj := .comp "net.Out".toList "fpOut".toList
  [.obj "b".toList "net.In".toList false (inner 1),
   .prim "a".toList true (.string "hi".toList),
   .obj "l".toList "java.util.List<net.In>".toList false
     (.list "java.util.List<net.In>".toList "fpL".toList [.obj (inner 2), .obj (inner 3)]),
   .nullObj "c".toList "net.In".toList]

/-- A list that has the name and fingerprint of a class, holding an object of it. -/
private def clash : Obj := .list "net.In".toList "fpIn".toList [.obj (inner 1)]

/-! ### C29: balance -/

/-- A class with a pointer to a character, as in src/reader-test's classes with `char *` members. -/
private def charPointer (n : Int) : Obj :=
  .comp "net.In".toList "fpIn".toList [.prim "x".toList true (.char n), .prim "y".toList false (.char n)]

/-- **C29.** Serialising any object graph onto any payload, whatever was registered before, and even if it fails with
an exception: the payload has exactly one more element where it was being written, the position is on that element,
and every level above is as before.  The only possible exception is the failed cast to the wrong kind of schema
entry.  The behaviour is defined unless the trace prints a pointer to a character: see `C29_defined` and
`C29_char_pointer_violated`. -/
theorem C29_balanced_partial (o : Obj) (s : WState) (h : s.payload.rest = []) (hdef : (object o s).1.Defined) :
    ∃ n, (object o s).2.payload.cur = some n
      ∧ (object o s).2.payload.prev.reverse = s.payload.prev.reverse ++ s.payload.cur.toList
      ∧ (object o s).2.payload.rest = []
      ∧ (object o s).2.payload.up = s.payload.up
      ∧ ((object o s).1 = .ok () ∨ (object o s).1 = .throw "bad_cast") := by
  have hd := does_object o s h
  have key : ∀ n : Node, (s.payload.append [n]).cur = some n
      ∧ (s.payload.append [n]).prev.reverse = s.payload.prev.reverse ++ s.payload.cur.toList
      ∧ (s.payload.append [n]).rest = [] ∧ (s.payload.append [n]).up = s.payload.up := by
    intro n
    obtain ⟨⟨p, cu, r, u⟩, m⟩ := s
    simp only at h
    subst h
    cases cu <;> simp [Cursor.append]
  rcases tame_object o s.schemas trivial with ⟨m, hm⟩ | hm | hm
  · rw [hm] at hd
    simp only at hd
    obtain ⟨k1, k2, k3, k4⟩ := key (objTree o)
    exact ⟨objTree o, by rw [hd]; exact ⟨k1, k2, k3, k4, .inl rfl⟩⟩
  · rw [hm] at hd
    obtain ⟨n, m, hd⟩ := hd
    obtain ⟨k1, k2, k3, k4⟩ := key n
    exact ⟨n, by rw [hd]; exact ⟨k1, k2, k3, k4, .inr rfl⟩⟩
  · rw [hm] at hd
    simp only at hd
    rw [hd] at hdef
    exact hdef.elim

/-- **C29, no undefined behaviour.** No assertion fails, whatever the object; and the behaviour is defined unless
some property is a pointer to a character other than NUL, or something is a null pointer to a character. -/
theorem C29_defined (o : Obj) (s : WState) (h : s.payload.rest = []) :
    (object o s).1 ≠ .ub "assert" ∧ (NoCharPointers o → (object o s).1.Defined) := by
  have hd := does_object o s h
  rcases tame_object o s.schemas trivial with ⟨m, hm⟩ | hm | hm
  · rw [hm] at hd
    simp only at hd
    rw [hd]
    exact ⟨by simp, fun _ => trivial⟩
  · rw [hm] at hd
    obtain ⟨n, m, hd⟩ := hd
    rw [hd]
    exact ⟨by simp, fun _ => trivial⟩
  · refine ⟨?_, fun hn => absurd hm (printed_defined _ ((printed_object o).2 hn) _)⟩
    rw [hm] at hd
    simp only at hd
    rw [hd]
    simp

/-- **C29, violated.** A property that is a pointer to a character, and a null pointer to a character, are given to
`std::cout`, which takes them for C strings; the character alone is fine, and so is a pointer to a NUL. -/
theorem C29_char_pointer_violated :
    (serialise (charPointer 120)).IsUB
    ∧ (serialise (.comp "net.In".toList "fpIn".toList [.nullPrim "x".toList .char])).IsUB
    ∧ (serialise (.list "l".toList "fpL".toList [.nullPrim .char])).IsUB
    ∧ (serialise (charPointer 0)).Defined
    ∧ (serialise (.comp "net.In".toList "fpIn".toList [.prim "x".toList false (.char 120)])).Defined := by
  decide +kernel

example : (object outer WState.init).2.payload.cur = some (objTree outer) := by decide +kernel

/-- In the middle of another payload, and failing. -/
example : (object clash ⟨⟨[.mk .null []], some (.mk (.int 1) []), [], []⟩, []⟩).1 = .throw "bad_cast"
    ∧ (object clash ⟨⟨[.mk .null []], some (.mk (.int 1) []), [], []⟩, []⟩).2.payload.prev
      = [.mk (.int 1) [], .mk .null []] := by decide +kernel

/-! ### C30: the payload -/

/-- **C30.** If serialising succeeds, the element written is the described value with the fingerprint of the object
and exactly its properties, elements or alternating keys and values, in the order of writing, recursively. -/
theorem C30_payload (o : Obj) (s : WState) (h : s.payload.rest = []) (hok : (object o s).1 = .ok ()) :
    (object o s).2.payload.cur = some (objTree o) := by
  have hd := does_object o s h
  rcases tame_object o s.schemas trivial with ⟨m, hm⟩ | hm | hm
  · rw [hm] at hd
    simp only at hd
    rw [hd]
    obtain ⟨⟨p, cu, r, u⟩, m⟩ := s
    simp only at h
    subst h
    cases cu <;> simp [Cursor.append]
  · rw [hm] at hd
    obtain ⟨n, m, hd⟩ := hd
    rw [hd] at hok
    simp at hok
  · rw [hm] at hd
    simp only at hd
    rw [hd] at hok
    simp at hok

/-- **C30, the blob.** A serialised object is one envelope: that payload, a schema, and a null for the transforms. -/
theorem C30_blob (o : Obj) (ns : List Node) (h : serialise o = .ok ns) :
    ∃ ts, ns = [envelopeTree (objTree o) (schemaTree ts) (.mk .null [])] := by
  rcases serialise_eq o with ⟨ds, _, _, h1⟩ | ⟨_, h1⟩ | ⟨_, h1⟩
  · rw [h1] at h
    simp only [Res.ok.injEq] at h
    exact ⟨_, h.symm⟩
  · rw [h1] at h; simp at h
  · rw [h1] at h; simp at h

/-- **C30, exactly when it succeeds.** Serialisation succeeds exactly if the trace prints no pointer to a character
and every property is written for a class whose name and fingerprint were first used by a composite.  Otherwise it
fails with that exception or has that undefined behaviour, and nothing else. -/
theorem C30_outcome (o : Obj) :
    ((∃ ns, serialise o = .ok ns) ↔ NoCharPointers o ∧ ∀ e ∈ props o, (classes o).lookup e.1 = some none)
    ∧ (NoCharPointers o → (serialise o).Defined
        ∧ (serialise o = .throw "bad_cast" ↔ ∃ e ∈ props o, (classes o).lookup e.1 ≠ some none))
    ∧ ((∀ e ∈ props o, (classes o).lookup e.1 = some none) → ¬ NoCharPointers o → serialise o = .ub "char pointer")
    ∧ ((∃ ns, serialise o = .ok ns) ∨ serialise o = .throw "bad_cast" ∨ serialise o = .ub "char pointer") := by
  have hi := serialise_ok_iff o
  have hthrow : serialise o = .throw "bad_cast" → ∃ e ∈ props o, (classes o).lookup e.1 ≠ some none := by
    intro h
    apply Classical.byContradiction
    intro hn
    have hall : ∀ e ∈ props o, (classes o).lookup e.1 = some none := fun e he => by
      apply Classical.byContradiction
      intro h2
      exact hn ⟨e, he, h2⟩
    exact no_cast o hall h
  refine ⟨hi, fun hn => ⟨?_, hthrow, ?_⟩, fun hall hn => ?_, ?_⟩
  · rcases serialise_eq o with ⟨ds, _, _, h1⟩ | ⟨_, h1⟩ | ⟨h2, h1⟩
    · rw [h1]; trivial
    · rw [h1]; trivial
    · exact absurd hn h2
  · rintro ⟨e, he, hne⟩
    rcases serialise_eq o with ⟨ds, _, _, h1⟩ | ⟨_, h1⟩ | ⟨h2, h1⟩
    · exact absurd ((hi.1 ⟨_, h1⟩).2 e he) hne
    · exact h1
    · exact absurd hn h2
  · rcases serialise_eq o with ⟨ds, _, _, h1⟩ | ⟨_, h1⟩ | ⟨h2, h1⟩
    · exact absurd (hi.1 ⟨_, h1⟩).1 hn
    · exact absurd h1 (no_cast o hall)
    · exact h1
  · rcases serialise_eq o with ⟨ds, _, _, h1⟩ | ⟨_, h1⟩ | ⟨h2, h1⟩
    · exact .inl ⟨_, h1⟩
    · exact .inr (.inl h1)
    · exact .inr (.inr h1)

/-- In particular it succeeds if no name and fingerprint are shared by a class and a container. -/
theorem C30_succeeds (o : Obj) (h : NoClash o) (hn : NoCharPointers o) : ∃ ns, serialise o = .ok ns := by
  refine (C30_outcome o).1.2 ⟨hn, fun e he => ?_⟩
  obtain ⟨u, hu, h1, h2⟩ := props_used o e he
  cases hl : (classes o).lookup e.1 with
  | none =>
    have hmem : u.1 ∈ (classes o).map Prod.fst := List.mem_map_of_mem hu
    rw [h1, mem_classes_lookup] at hmem
    exact absurd hl hmem
  | some k =>
    have := h _ (mem_of_lookup _ _ _ hl) u hu h1.symm
    simp only at this
    rw [this, h2]

example : objTree outer = describedNode "fpOut".toList .list
    [describedNode "fpIn".toList .list [.mk (.int 1) []], .mk (.string "hi".toList) [],
     describedNode "fpL".toList .list
       [describedNode "fpIn".toList .list [.mk (.int 2) []], describedNode "fpIn".toList .list [.mk (.int 3) []]],
     .mk .null []] := by decide +kernel
example : NoClash outer := by unfold NoClash; decide +kernel
example : serialise clash = .throw "bad_cast" := by decide +kernel

/-! ### C31 and C32: the schema -/

/-- **C31.** The schema of a serialised object lists exactly the classes of the composites, lists and maps that were
written, each (name, fingerprint) pair once; and it says list or map for those first used so. -/
theorem C31_classes_once (o : Obj) (ns : List Node) (h : serialise o = .ok ns) :
    ∃ ds : List ClassDesc,
      ns = [envelopeTree (objTree o) (schemaTree (ds.map ClassDesc.tree)) (.mk .null [])]
      ∧ (ds.map ClassDesc.key).Nodup
      ∧ (∀ k, k ∈ ds.map ClassDesc.key ↔ k ∈ (classes o).map Prod.fst)
      ∧ ∀ d ∈ ds, ∀ src, d.body = .inr src ↔ (classes o).lookup d.key = some (some src) := by
  rcases serialise_eq o with ⟨ds, hd, _, h1⟩ | ⟨_, h1⟩ | ⟨_, h1⟩
  · rw [h1] at h
    simp only [Res.ok.injEq] at h
    exact ⟨ds, h.symm, hd.once, hd.exact, hd.container⟩
  · rw [h1] at h; simp at h
  · rw [h1] at h; simp at h

/-- **C32.** For every composite class in the schema of a serialised object: the properties listed are exactly the
property names written for objects of that class, each once, described as at the first write. -/
theorem C32_properties (o : Obj) (ns : List Node) (h : serialise o = .ok ns) :
    ∃ ds : List ClassDesc,
      ns = [envelopeTree (objTree o) (schemaTree (ds.map ClassDesc.tree)) (.mk .null [])]
      ∧ (∀ k, k ∈ ds.map ClassDesc.key ↔ k ∈ (classes o).map Prod.fst)
      ∧ (∀ e ∈ props o, ∃ d ∈ ds, d.key = e.1 ∧ ∃ ps, d.body = .inl ps ∧ ∃ p ∈ ps, p.name = e.2.name)
      ∧ ∀ d ∈ ds, ∀ ps, d.body = .inl ps → (ps.map PropDesc.name).Nodup
          ∧ ∀ p, p ∈ ps ↔ firstProp (props o) d.key p.name = some p := by
  have hok := ((C30_outcome o).1.1 ⟨ns, h⟩).2
  rcases serialise_eq o with ⟨ds, hd, _, h1⟩ | ⟨_, h1⟩ | ⟨_, h1⟩
  · rw [h1] at h
    simp only [Res.ok.injEq] at h
    refine ⟨ds, h.symm, hd.exact, ?_, fun d hx ps hb => ⟨hd.propsOnce d hx ps hb, hd.propsExact d hx ps hb⟩⟩
    intro e he
    have hl := hok e he
    have hk : e.1 ∈ ds.map ClassDesc.key := by
      rw [hd.exact, mem_classes_lookup]; simp [hl]
    obtain ⟨d, hdm, hk⟩ := List.mem_map.1 hk
    refine ⟨d, hdm, hk, ?_⟩
    cases hb : d.body with
    | inr src =>
      have := (hd.container d hdm src).1 hb
      rw [hk, hl] at this
      simp at this
    | inl ps =>
      refine ⟨ps, rfl, ?_⟩
      cases hf : firstProp (props o) e.1 e.2.name with
      | none =>
        have := List.findSome?_eq_none_iff.1 hf e he
        simp at this
      | some p =>
        have hn := firstProp_name hf
        exact ⟨p, (hd.propsExact d hdm ps hb p).2 (by rw [hk, hn]; exact hf), hn⟩
  · rw [h1] at h; simp at h
  · rw [h1] at h; simp at h

/-- **C32, the order**: classes are listed by name and fingerprint, properties by name, whatever the order of
writing (`std::map`); the payload is in the order of writing (C30). -/
theorem C32_order (o : Obj) (ns : List Node) (h : serialise o = .ok ns) :
    ∃ ds : List ClassDesc,
      ns = [envelopeTree (objTree o) (schemaTree (ds.map ClassDesc.tree)) (.mk .null [])]
      ∧ Describes o ds := by
  rcases serialise_eq o with ⟨ds, hd, _, h1⟩ | ⟨_, h1⟩ | ⟨_, h1⟩
  · rw [h1] at h
    simp only [Res.ok.injEq] at h
    exact ⟨ds, h.symm, hd⟩
  · rw [h1] at h; simp at h
  · rw [h1] at h; simp at h

/-- **C32, the types of primitives**: a primitive property is described with the name of its type. -/
theorem C32_words (n : Str) (ptr : Bool) (v : Prim) : (memberDesc (.prim n ptr v)).type = (primWord v).toList
    ∧ (memberDesc (.nullPrim n v.type)).type = (primWord v).toList := by
  cases v <;> exact ⟨rfl, rfl⟩

private theorem lex_iff : ∀ a b : Str, strLt a b = true ↔ Before a b
  | [], [] => by simp [strLt, Before]
  | [], y :: b => by simp [strLt, Before]
  | x :: a, [] => by simp [strLt, Before]
  | x :: a, y :: b => by
    have ih := lex_iff a b
    have hv : ∀ c d : Char, c.val < d.val ↔ c.toNat < d.toNat := fun c d => UInt32.lt_iff_toNat_lt
    simp only [strLt, hv]
    by_cases h1 : x.toNat < y.toNat
    · rw [if_pos h1]
      simp only [true_iff]
      exact .inr ⟨[], x, y, a, b, rfl, rfl, h1⟩
    rw [if_neg h1]
    by_cases h2 : y.toNat < x.toNat
    · rw [if_pos h2]
      simp only [Bool.false_eq_true, false_iff]
      rintro (⟨z, r, h⟩ | ⟨p, u, w, r, s, ha, hb, hl⟩)
      · simp only [List.cons_append, List.cons.injEq] at h
        rw [h.1] at h2
        omega
      · cases p with
        | nil =>
          simp only [List.nil_append, List.cons.injEq] at ha hb
          rw [ha.1, hb.1] at h2
          omega
        | cons q p =>
          simp only [List.cons_append, List.cons.injEq] at ha hb
          rw [ha.1, hb.1] at h2
          omega
    rw [if_neg h2, ih]
    have he : x = y := Char.ext (UInt32.toNat_inj.mp (show x.toNat = y.toNat by omega))
    subst he
    constructor
    · rintro (⟨z, r, h⟩ | ⟨p, u, w, r, s, ha, hb, hl⟩)
      · exact .inl ⟨z, r, by rw [h]; rfl⟩
      · exact .inr ⟨x :: p, u, w, r, s, by rw [ha]; rfl, by rw [hb]; rfl, hl⟩
    · rintro (⟨z, r, h⟩ | ⟨p, u, w, r, s, ha, hb, hl⟩)
      · simp only [List.cons_append, List.cons.injEq] at h
        exact .inl ⟨z, r, h.2⟩
      · cases p with
        | nil =>
          simp only [List.nil_append, List.cons.injEq] at ha hb
          rw [← ha.1, ← hb.1] at hl
          omega
        | cons q p =>
          simp only [List.cons_append, List.cons.injEq] at ha hb
          exact .inr ⟨p, u, w, r, s, ha.2, hb.2, hl⟩

/-- **C32, alphabetical**: in the schema of a serialised object the properties of a class are in alphabetical order,
and so are the classes, those of the same name by fingerprint. -/
theorem C32_alphabetical (o : Obj) (ns : List Node) (h : serialise o = .ok ns) :
    ∃ ds : List ClassDesc,
      ns = [envelopeTree (objTree o) (schemaTree (ds.map ClassDesc.tree)) (.mk .null [])]
      ∧ ds.Pairwise (fun a b => Before a.key.1 b.key.1 ∨ a.key.1 = b.key.1 ∧ Before a.key.2 b.key.2)
      ∧ ∀ d ∈ ds, ∀ ps, d.body = .inl ps → ps.Pairwise fun a b => Before a.name b.name := by
  obtain ⟨ds, h1, h2⟩ := C32_order o ns h
  refine ⟨ds, h1, h2.sorted.imp ?_, fun d hd ps hp => (h2.propsSorted d hd ps hp).imp ?_⟩
  · intro a b hab
    rw [keyLt] at hab
    split at hab
    · exact .inl ((lex_iff _ _).mp ‹_›)
    · split at hab
      · cases hab
      · exact .inr ⟨strLt_total _ _ (by simpa using ‹¬ strLt a.key.1 b.key.1 = true›)
          (by simpa using ‹¬ strLt b.key.1 a.key.1 = true›), (lex_iff _ _).mp hab⟩
  · exact fun hab => (lex_iff _ _).mp hab

/-- The schema of the example: the class used three times is there once; properties are in alphabetical order. -/
private def outerSchema : List ClassDesc :=
  [⟨("java.util.List<net.In>".toList, "fpL".toList), .inr "list".toList⟩,
   ⟨("net.In".toList, "fpIn".toList), .inl [⟨"x".toList, "int".toList, [], false⟩]⟩,
   ⟨("net.Out".toList, "fpOut".toList), .inl
     [⟨"a".toList, "string".toList, [], true⟩, ⟨"b".toList, "net.In".toList, [], false⟩,
      ⟨"c".toList, "net.In".toList, [], false⟩, ⟨"l".toList, "*".toList, ["java.util.List<net.In>".toList], false⟩]⟩]

example : serialise outer
    = .ok [envelopeTree (objTree outer) (schemaTree (outerSchema.map ClassDesc.tree)) (.mk .null [])] := by decide +kernel

#print axioms C29_balanced_partial
#print axioms C29_defined
#print axioms C29_char_pointer_violated
#print axioms C30_payload
#print axioms C30_blob
#print axioms C30_outcome
#print axioms C30_succeeds
#print axioms C31_classes_once
#print axioms C32_properties
#print axioms C32_order
#print axioms C32_words
#print axioms C32_alphabetical

end Corda.Props
