import Verif.Lemmas.AnyWrite
import Verif.Props.AnySchema
import Verif.Props.Writer

/-
C94: what writing makes, for any objects, any number of them, and also when some of them fail.
-/

namespace Corda.Props
open Corda Corda.Spec Prog Wr

private theorem envelope_parts (ns : List Node) (schema : Node) :
    envelopeProton ns [schema] = [element 1 (ns ++ [schema, .mk .null []])] := by
  unfold envelopeProton
  have := made_of_writes (writes_node .described (writes_put_bind (.ulong (descId ENVELOPE)) (writes_node .list
    (writes_bind (writes_append ns) (writes_bind (writes_append [schema]) (writes_put .null))))))
  exact this

private theorem toBlob_eq {m : Schemas} {L : Ledger} (h : Kept L m) (ns : List Node) :
    WState.toBlob ⟨Cursor.empty.append ns, m⟩ = blobOf ns L := by
  unfold WState.toBlob blobOf
  have hp : (Cursor.empty.append ns).forest = ns := by
    have h1 := Cursor.append_level ns Cursor.empty rfl
    have h2 := Cursor.append_up ns Cursor.empty
    unfold Cursor.forest
    rw [h2, h1]
    simp [Cursor.empty, Cursor.level, Cursor.close]
  have hs : m.map (fun e => e.2.make e.1) = (L.descriptions.map ClassDesc.tree).map fun n => [n] := by
    rw [kept_eq h, List.map_map, List.map_map]
    exact List.map_congr_left fun d _ => entry_make d
  simp only [hp, hs]
  rw [schemaProton_eq, envelope_parts]

/-- **C94.** Serialising any object has the outcome described in the specification: the same blob, the same exception or the same
undefined behaviour. -/
theorem C94_any (o : Obj) : serialise o = writtenOf o := by
  have h := writesAs_obj o WState.init newLedger kept_new rfl
  unfold serialise writtenOf
  generalize penObj o newLedger = x at h
  obtain ⟨r, ns, L⟩ := x
  cases r with
  | ub w =>
    simp only at h ⊢
    generalize object o WState.init = y at h
    obtain ⟨r', s⟩ := y
    simp only at h
    subst h
    rfl
  | throw m =>
    obtain ⟨m', h, -⟩ := h
    rw [h]
  | ok u =>
    obtain ⟨m', h, hk⟩ := h
    rw [h]
    simp only
    rw [← toBlob_eq hk]
    rfl

/-- **C94, several objects.** A program that writes objects to one blob and makes blobs of what there is, in any order, and catches
the exceptions, gets each time what is described in the specification. -/
theorem C94_session (as : List Act) : useBlob WState.init as = blobUses ([], newLedger) as := by
  have key : ∀ (as : List Act) (ns : List Node) (L : Ledger) (m : Schemas), Kept L m →
      useBlob ⟨Cursor.empty.append ns, m⟩ as = blobUses (ns, L) as := by
    intro as
    induction as with
    | nil => intro ns L m _; rfl
    | cons a as ih =>
      intro ns L m hk
      cases a with
      | make =>
        rw [useBlob, blobUses, toBlob_eq hk, ih ns L m hk]
      | write o =>
        have h := writesAs_obj o ⟨Cursor.empty.append ns, m⟩ L hk (Cursor.append_rest ns _ rfl)
        have e : ∀ ms, (Cursor.empty.append ns).append ms = Cursor.empty.append (ns ++ ms) := fun ms => by
          simp [Cursor.append, List.foldl_append]
        rw [useBlob, blobUses]
        simp only
        generalize penObj o L = x at h
        obtain ⟨r, ms, L'⟩ := x
        cases r with
        | ub w =>
          simp only at h ⊢
          generalize object o ⟨Cursor.empty.append ns, m⟩ = y at h
          obtain ⟨r', s⟩ := y
          simp only at h
          subst h
          rfl
        | throw msg =>
          obtain ⟨m', h, hk'⟩ := h
          simp only [h, e]
          rw [ih _ _ _ hk']
        | ok u =>
          obtain ⟨m', h, hk'⟩ := h
          simp only [h, e]
          rw [ih _ _ _ hk']
  exact key as [] newLedger [] kept_new

/-! ### Every object is one value -/

/-- **C94, one object, one value**: writing an object adds one described value with its fingerprint, even if it fails. -/
theorem C94_value (o : Obj) (L : Ledger) : ∃ v ks, (penObj o L).2.1 = [describedNode o.fp v ks] := by
  cases o <;> exact ⟨_, _, rfl⟩

private theorem ok_then {a b : Pen} {L : Ledger} (h : (a.then b L).1 = .ok ()) :
    (a L).1 = .ok () ∧ (b (a L).2.2).1 = .ok () := by
  unfold Pen.then at h
  rcases hx : a L with ⟨r, ns, L'⟩
  rw [hx] at h
  cases r with
  | ok u => exact ⟨rfl, h⟩
  | throw m => cases h
  | ub m => cases h

private theorem then_eq {a b : Pen} {L L' : Ledger} {ns : List Node} (h : a L = (.ok (), ns, L')) :
    a.then b L = ((b L').1, ns ++ (b L').2.1, (b L').2.2) := by
  unfold Pen.then
  rw [h]

private theorem ok_print {b : Bool} {L : Ledger} (h : (Pen.print b L).1 = .ok ()) : Pen.print b L = (.ok (), [], L) := by
  cases b with
  | true => rfl
  | false => cases h

private theorem ok_property {key : Str × Str} {d : PropDesc} {L : Ledger} (h : (Pen.property key d L).1 = .ok ()) :
    Pen.property key d L = (.ok (), [], { L with props := L.props ++ [(key, d)] }) := by
  unfold Pen.property at h ⊢
  cases hl : L.classes.lookup key with
  | none => simp only [hl] at h; cases h
  | some x =>
    cases x with
    | none => simp only
    | some s => simp only [hl] at h; cases h

mutual

private theorem ok_obj : (o : Obj) → ∀ L, (penObj o L).1 = .ok () →
    penObj o L = (.ok (), [objTree o], ⟨L.classes ++ classes o, L.props ++ props o⟩)
  | .comp n f ms, L, h => by
    simp only [penObj, Pen.object] at h ⊢
    rw [ok_members _ ms _ h]
    simp [objTree, classes, props]
  | .list n f es, L, h => by
    simp only [penObj, Pen.object] at h ⊢
    rw [ok_elems es _ h]
    simp [objTree, classes, props]
  | .map n f es, L, h => by
    simp only [penObj, Pen.object] at h ⊢
    rw [ok_entries es _ h]
    simp [objTree, classes, props]

private theorem ok_members (key : Str × Str) : (ms : List Member) → ∀ L, (penMembers key ms L).1 = .ok () →
    penMembers key ms L = (.ok (), memberTrees ms, ⟨L.classes ++ classesMembers ms, L.props ++ propsMembers key ms⟩)
  | [], L, _ => by simp [penMembers, Pen.nothing, memberTrees, classesMembers, propsMembers]
  | m :: ms, L, h => by
    simp only [penMembers] at h ⊢
    obtain ⟨h1, h2⟩ := ok_then h
    have e1 := ok_member key m L h1
    rw [e1] at h2
    have e2 := ok_members key ms _ h2
    rw [then_eq e1, e2]
    simp [memberTrees, classesMembers, propsMembers]

private theorem ok_member (key : Str × Str) : (m : Member) → ∀ L, (penMember key m L).1 = .ok () →
    penMember key m L = (.ok (), [memberTree m], ⟨L.classes ++ classesMember m, L.props ++ propsMember key m⟩)
  | .prim n ptr v, L, h => by
    simp only [penMember] at h ⊢
    obtain ⟨h1, h2⟩ := ok_then h
    have e1 := ok_print h1
    rw [e1] at h2
    obtain ⟨h3, h4⟩ := ok_then h2
    rw [then_eq e1, then_eq (ok_property h3)]
    simp [Pen.put, memberTree, classesMember, propsMember]
  | .nullPrim n t, L, h => by
    simp only [penMember] at h ⊢
    obtain ⟨h1, h2⟩ := ok_then h
    have e1 := ok_print h1
    rw [e1] at h2
    obtain ⟨h3, h4⟩ := ok_then h2
    rw [then_eq e1, then_eq (ok_property h3)]
    simp [Pen.put, memberTree, classesMember, propsMember]
  | .obj n t ptr o, L, h => by
    simp only [penMember] at h ⊢
    obtain ⟨h1, h2⟩ := ok_then h
    have e1 := ok_property h1
    rw [e1] at h2
    rw [then_eq e1, ok_obj o _ h2]
    simp [memberTree, classesMember, propsMember]
  | .nullObj n t, L, h => by
    simp only [penMember] at h ⊢
    obtain ⟨h1, h2⟩ := ok_then h
    rw [then_eq (ok_property h1)]
    simp [Pen.put, memberTree, classesMember, propsMember]

private theorem ok_elems : (es : List Elem) → ∀ L, (penElems es L).1 = .ok () →
    penElems es L = (.ok (), elemTrees es, ⟨L.classes ++ classesElems es, L.props ++ propsElems es⟩)
  | [], L, _ => by simp [penElems, Pen.nothing, elemTrees, classesElems, propsElems]
  | e :: es, L, h => by
    simp only [penElems] at h ⊢
    obtain ⟨h1, h2⟩ := ok_then h
    have e1 := ok_elem e L h1
    rw [e1] at h2
    have e2 := ok_elems es _ h2
    rw [then_eq e1, e2]
    simp [elemTrees, classesElems, propsElems]

private theorem ok_elem : (e : Elem) → ∀ L, (penElem e L).1 = .ok () →
    penElem e L = (.ok (), [elemTree e], ⟨L.classes ++ classesElem e, L.props ++ propsElem e⟩)
  | .prim v, L, _ => by simp [penElem, Pen.put, elemTree, classesElem, propsElem]
  | .nullPrim t, L, h => by
    simp only [penElem] at h ⊢
    obtain ⟨h1, h2⟩ := ok_then h
    rw [then_eq (ok_print h1)]
    simp [Pen.put, elemTree, classesElem, propsElem]
  | .obj o, L, h => by
    simp only [penElem] at h ⊢
    rw [ok_obj o _ h]
    simp [elemTree, classesElem, propsElem]

private theorem ok_entries : (es : List Entry) → ∀ L, (penEntries es L).1 = .ok () →
    penEntries es L = (.ok (), entryTrees es, ⟨L.classes ++ classesEntries es, L.props ++ propsEntries es⟩)
  | [], L, _ => by simp [penEntries, Pen.nothing, entryTrees, classesEntries, propsEntries]
  | .mk k v :: es, L, h => by
    simp only [penEntries] at h ⊢
    obtain ⟨h0, h3⟩ := ok_then h
    obtain ⟨h1, h2⟩ := ok_then h0
    have e1 := ok_elem k L h1
    rw [e1] at h2
    have e2 := ok_elem v _ h2
    have e0 : ((penElem k).then (penElem v)) L = _ := (then_eq e1).trans (by rw [e2])
    rw [e0] at h3
    have e3 := ok_entries es _ h3
    rw [then_eq e0, e3]
    simp [entryTrees, classesEntries, propsEntries]

end

/-- **C94, all is there**: if writing all objects succeeds, the blob that is made has the values of all of them, in order, and the
schema has the classes of all of them. -/
theorem C94_complete (os : List Obj) (h : ∀ r ∈ useBlob WState.init (os.map Act.write), r = .ok []) :
    useBlob WState.init (os.map Act.write ++ [.make])
      = os.map (fun _ => .ok []) ++ [.ok (blobOf (os.map objTree) ⟨os.flatMap classes, os.flatMap props⟩)] := by
  rw [C94_session] at h ⊢
  have key : ∀ (os : List Obj) (ns : List Node) (L : Ledger), (∀ r ∈ blobUses (ns, L) (os.map Act.write), r = .ok []) →
      blobUses (ns, L) (os.map Act.write ++ [.make]) = os.map (fun _ => .ok [])
        ++ [.ok (blobOf (ns ++ os.map objTree) ⟨L.classes ++ os.flatMap classes, L.props ++ os.flatMap props⟩)] := by
    intro os
    induction os with
    | nil => intro ns L _; simp [blobUses]
    | cons o os ih =>
      intro ns L h
      rw [List.map_cons, blobUses] at h
      rw [List.map_cons, List.cons_append, blobUses]
      simp only at h ⊢
      rcases hx : penObj o L with ⟨r, ms, L'⟩
      simp only [hx] at h ⊢
      cases r with
      | throw m => exact absurd (h _ (List.mem_cons_self ..)) (by simp)
      | ub w => exact absurd (h _ (List.mem_cons_self ..)) (by simp)
      | ok u =>
        have h1 := ok_obj o L (by rw [hx])
        rw [h1] at hx
        simp only [Prod.mk.injEq, true_and] at hx
        obtain ⟨rfl, rfl⟩ := hx
        simp only
        rw [ih _ _ fun r hr => h r (List.mem_cons_of_mem _ hr)]
        simp
  have := key os [] newLedger h
  simpa [newLedger] using this

/-! ### Blobs that cannot be opened -/

private theorem made_parts : ∀ (os : List Obj) (ns : List Node) (L : Ledger) (n : Node),
    (blobUses (ns, L) (os.map Act.write ++ [.make])).getLast? = some (.ok [n]) →
    ∃ (ms : List Node) (L' : Ledger), n = element 1 (ns ++ ms ++ [schemaTree (L'.descriptions.map ClassDesc.tree), .mk .null []])
      ∧ ms.length = os.length ∧ ∀ m ∈ ms, ∃ fp v ks, m = describedNode fp v ks := by
  intro os
  induction os with
  | nil =>
    intro ns L n h
    simp only [List.map_nil, List.nil_append, blobUses, blobOf, List.getLast?_singleton, Option.some.injEq, Res.ok.injEq,
      List.cons.injEq, and_true] at h
    exact ⟨[], L, by simp [h], rfl, by simp⟩
  | cons o os ih =>
    intro ns L n h
    rw [List.map_cons, List.cons_append, blobUses] at h
    simp only at h
    obtain ⟨v, ks, hv⟩ := C94_value o L
    rcases hx : penObj o L with ⟨r, ms, L'⟩
    rw [hx] at hv
    simp only at hv
    subst hv
    simp only [hx] at h
    have key : (blobUses (ns ++ [describedNode o.fp v ks], L') (os.map Act.write ++ [.make])).getLast? = some (.ok [n]) →
        ∃ (ms : List Node) (L' : Ledger), n = element 1 (ns ++ ms ++ [schemaTree (L'.descriptions.map ClassDesc.tree), .mk .null []])
      ∧ ms.length = (o :: os).length ∧ ∀ m ∈ ms, ∃ fp v ks, m = describedNode fp v ks := by
      intro h
      obtain ⟨ms, L'', h1, h2, h3⟩ := ih _ _ n h
      refine ⟨describedNode o.fp v ks :: ms, L'', by simpa using h1, by simp [h2], ?_⟩
      intro m hm
      rcases List.mem_cons.1 hm with rfl | hm
      · exact ⟨_, _, _, rfl⟩
      · exact h3 m hm
    have tail : ∀ r : Res (List Node), r ≠ .ok [n] →
        (r :: blobUses (ns ++ [describedNode o.fp v ks], L') (os.map Act.write ++ [.make])).getLast? = some (.ok [n]) →
        (blobUses (ns ++ [describedNode o.fp v ks], L') (os.map Act.write ++ [.make])).getLast? = some (.ok [n]) := by
      intro r hr h
      cases hb : blobUses (ns ++ [describedNode o.fp v ks], L') (os.map Act.write ++ [.make]) with
      | nil => rw [hb] at h; simp at h; exact absurd h hr
      | cons y l => rw [hb] at h; rw [List.getLast?_cons_cons] at h; exact h
    cases r with
    | ub w => simp at h
    | throw m => exact key (tail _ (by simp) h)
    | ok u => exact key (tail _ (by simp) h)

/-- **C94, one object to a blob**: a blob made after writing no object, or more than one, cannot be opened; it is rejected with an
exception. -/
theorem C94_one_only (os : List Obj) (n : Node) (hl : os.length ≠ 1)
    (h : (useBlob WState.init (os.map Act.write ++ [.make])).getLast? = some (.ok [n])) :
    readEnvelope (Cursor.root n) = (.throw "Expected an unsigned long", Cursor.root n) := by
  refine Prod.ext ?_ (C26_envelope_cursor _)
  rw [C89_any (Cursor.root n) n rfl]
  rw [C94_session] at h
  obtain ⟨ms, L, rfl, h2, h3⟩ := made_parts os [] newLedger n h
  match ms, h2, h3 with
  | [], _, _ => rfl
  | [m], h2, _ => exact absurd h2.symm (by simpa using hl)
  | m1 :: m2 :: ms, _, h3 =>
    obtain ⟨f1, v1, k1, rfl⟩ := h3 m1 (by simp)
    obtain ⟨f2, v2, k2, rfl⟩ := h3 m2 (by simp)
    rfl

/-! ### Examples -/

private def plain (n : Int) : Obj := .comp "net.In".toList "fp".toList [.prim "a".toList false (.int n)]
/-- A list under the name and fingerprint of a class, with such an object in it. -/
private def clash : Obj := .list "net.In".toList "fp".toList [.prim (.int 1), .obj (plain 5), .prim (.int 2)]

/-- **C94, what failing leaves behind**: an object that fails has written part of itself, and its class stays with the blob. An object
that can be written alone then fails as well, and the blob that is made of both cannot be opened. -/
theorem C94_leftover :
    useBlob WState.init [.write (plain 3), .make] = [.ok [], .ok [envelopeTree
        (.mk .described [.mk (.symbol "fp".toList) [], .mk .list [.mk (.int 3) []]])
        (schemaTree [compositeTree "net.In".toList [] [] "fp".toList [fieldTree "a".toList "int".toList [] [] [] false false]])
        (.mk .null [])]]
      ∧ useBlob WState.init [.write clash, .write (plain 3), .make] = [.throw "bad_cast", .throw "bad_cast",
        .ok [element 1 [
          .mk .described [.mk (.symbol "fp".toList) [], .mk .list [.mk (.int 1) [],
            .mk .described [.mk (.symbol "fp".toList) [], .mk .list []]]],
          .mk .described [.mk (.symbol "fp".toList) [], .mk .list []],
          schemaTree [restrictedTree "net.In".toList [] [] "list".toList "fp".toList []], .mk .null []]]] := by
  decide +kernel

/-- Two objects of one class. -/
example : useBlob WState.init ([plain 1, plain 2].map Act.write ++ [.make]) = [.ok [], .ok [], .ok (blobOf
    [objTree (plain 1), objTree (plain 2)] ⟨[(("net.In".toList, "fp".toList), none), (("net.In".toList, "fp".toList), none)],
      [(("net.In".toList, "fp".toList), ⟨"a".toList, "int".toList, [], false⟩),
        (("net.In".toList, "fp".toList), ⟨"a".toList, "int".toList, [], false⟩)]⟩)] :=
  C94_complete [plain 1, plain 2] (by decide +kernel)

/-- The blob that is made of them, and of none. -/
example : blobOf [objTree (plain 1), objTree (plain 2)] ⟨[(("net.In".toList, "fp".toList), none), (("net.In".toList, "fp".toList), none)],
      [(("net.In".toList, "fp".toList), ⟨"a".toList, "int".toList, [], false⟩),
        (("net.In".toList, "fp".toList), ⟨"a".toList, "int".toList, [], false⟩)]⟩
    = [element 1 [objTree (plain 1), objTree (plain 2),
      schemaTree [compositeTree "net.In".toList [] [] "fp".toList [fieldTree "a".toList "int".toList [] [] [] false false]], .mk .null []]]
    ∧ useBlob WState.init [.make] = [.ok [element 1 [schemaTree [], .mk .null []]]] := by decide +kernel

#print axioms C94_any
#print axioms C94_session
#print axioms C94_value
#print axioms C94_complete
#print axioms C94_one_only
#print axioms C94_leftover

end Corda.Props
