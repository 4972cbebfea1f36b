import Verif.Lemmas.DumpEval
import Verif.Lemmas.Lines
import Verif.Spec.SchemaDump
import Verif.Props.Descriptors

/-
C59-C62: dumping the schema of a blob as raw text.
-/

namespace Corda.Props
open Corda Corda.Prog Corda.Spec

/-! ### C59: dumping leaves the blob alone -/

private theorem dumpSchema_cursor (t : DumpTarget) (c : Cursor) : (dumpSchema t c).2 = c := by
  unfold dumpSchema
  rw [bind_of_ok (show look Cursor.type c = (.ok c.type, c) from rfl)]
  by_cases hd : c.type = .described
  · simp only [ne_eq, hd, not_true, if_false]
    have hs : c.cur.isSome = true := on_of_type (by rw [hd]; decide)
    obtain ⟨n, hn⟩ := Option.isSome_iff_exists.mp hs
    cases t
    · simp only [rawBase_at _ _ hn]
    · rfl
    · simp only [avroBase_at _ _ hn]
  · simp only [ne_eq, hd, not_false_iff, if_true]
    rfl

/-- **C59.** Dumping the schema in any of the three forms, whatever the blob, the position and the outcome, leaves the data and
the position as they were. -/
theorem C59_dump_cursor (t : DumpTarget) (c : Cursor) :
    (dumpSchema t c).2 = c ∧ (dumpSchema t c).2.forest = c.forest := by
  rw [dumpSchema_cursor]; exact ⟨rfl, rfl⟩

/-- **C59, so dumps can be repeated and mixed**: a second dump, of any form, gives what it would have given first. -/
theorem C59_dump_again (t t' : DumpTarget) (c : Cursor) :
    (dumpSchema t' (dumpSchema t c).2).1 = (dumpSchema t' c).1 := by rw [dumpSchema_cursor]

/-! ### C60: the raw text -/

private theorem raw_element (fuel : Nat) (ai : Str) {k : Nat} (hk : k < 2 ^ 32) (parts : List Node) :
    rawNode (fuel + 1) ai (element k parts)
      = (rawFor (rawBase fuel) (cordaId k) (deeper ai)
          ⟨[.mk (.ulong (cordaId k)) []], some (.mk .list parts), [], []⟩).1.bind fun x =>
        .ok (ai ++ dDescribed ++ nl ++ deeper ai ++ dKey ++ natStr (cordaId k) ++ dColons ++ natStr k ++ dArrow
          ++ describedToString (cordaId k) ++ nl ++ deeper ai ++ dList ++ natStr parts.length ++ nl ++ x) := by
  have hs := scoped_rawBody (scopedOn_rawBase fuel) ai
  unfold rawNode
  rw [rawBase, autoEnter_eq hs rfl]
  have h2 : (if false = true then (Cursor.root (element k parts)).enter.next.2.next.2
      else (Cursor.root (element k parts)).enter.next.2)
      = Cursor.under ⟨[], some (.mk (.ulong (cordaId k)) []), [.mk .list parts], []⟩ [([], .described, [])] := rfl
  simp only [h2, (hs _).2]
  unfold rawBody
  rw [bind_of_ok (show look Cursor.type ⟨[], some (.mk (.ulong (cordaId k)) []), [.mk .list parts], []⟩
    = (.ok .ulong, ⟨[], some (.mk (.ulong (cordaId k)) []), [.mk .list parts], []⟩) from rfl)]
  simp only [if_true]
  rw [bind_of_ok (show readUint64 ⟨[], some (.mk (.ulong (cordaId k)) []), [.mk .list parts], []⟩
    = (.ok (cordaId k), ⟨[.mk (.ulong (cordaId k)) []], some (.mk .list parts), [], []⟩) from rfl)]
  rw [bind_of_ok (show attestList ⟨[.mk (.ulong (cordaId k)) []], some (.mk .list parts), [], []⟩
    = (.ok (), ⟨[.mk (.ulong (cordaId k)) []], some (.mk .list parts), [], []⟩) from rfl)]
  rw [bind_of_ok (show look Cursor.getList ⟨[.mk (.ulong (cordaId k)) []], some (.mk .list parts), [], []⟩
    = (.ok parts.length, ⟨[.mk (.ulong (cordaId k)) []], some (.mk .list parts), [], []⟩) from rfl)]
  rw [C24_strip k hk, bind_def]
  rcases rawFor (rawBase fuel) (cordaId k) (deeper ai)
          ⟨[.mk (.ulong (cordaId k)) []], some (.mk .list parts), [], []⟩ with ⟨r, c'⟩
  cases r <;> rfl

private theorem requires_eval (ai : Str) (ss : List Str) (p r : List Node) (u : List (List Node × Atom × List Node)) :
    rawRequires ai ⟨p, some (strList ss), r, u⟩
      = (.ok (ai ++ dField3 ++ natStr ss.length ++ nl ++ ss.flatMap fun s => deeper ai ++ s ++ nl),
        ⟨p, some (strList ss), r, u⟩) := by
  unfold rawRequires
  rw [autoListEnter_eq (scoped_rawRequiresBody ai) rfl]
  have h := strings_join (fun s => deeper ai ++ s ++ nl) ss p r u
  rw [autoListEnter_eq (fun _ => scoped_forNext fun _ =>
    (scoped_bind (scoped_getString _) fun _ => scoped_pure _).on) rfl] at h
  simp only [Bool.false_eq_true, if_false, Prod.mk.injEq, and_true] at h ⊢
  rw [bind_def]
  have hg : Cursor.getList ⟨p, some (strList ss), r, u⟩ = ss.length := by simp [Cursor.getList, strList]
  rw [hg]
  generalize forNext (fun _ => do
      let s ← getString
      pure (deeper ai ++ s ++ nl)) (Cursor.enter ⟨p, some (strList ss), r, u⟩) = x at h ⊢
  obtain ⟨x1, x2⟩ := x
  simp only at h
  subst h
  rfl

private theorem boolStr_bit (b : Bool) : boolStr b = bit b := by cases b <;> decide

private theorem raw_field (fuel k : Nat) (f : FieldInfo) :
    rawNode (fuel + 1) (ind k) f.node = .ok (page (fieldLines k f)) := by
  unfold FieldInfo.node
  rw [raw_element fuel (ind k) (by decide)]
  have : rawFor (rawBase fuel) (cordaId 4) (deeper (ind k)) = rawField (deeper (ind k)) := by
    rw [← descId_eq 4 (by decide)]; rfl
  rw [this]
  have hb : describedToString (cordaId 4) = "FIELD".toList := by decide +kernel
  rw [hb]
  unfold rawField
  rw [bind_of_ok (attestList_list _ _ _ _)]
  rw [autoListEnter_eq (fun _ => 
    scoped_guard_bind (scoped_autoNext (scoped_getString _)) (guard_autoNext (guard_getString _)) fun _ =>
    scopedOn_bind (scoped_autoNext (scoped_getString _)).on fun _ =>
    scopedOn_bind (scopedOn_rawRequires _) fun _ => scopedOn_bind scoped_next.on fun _ =>
    scopedOn_bind (scoped_attestString _).on fun _ =>
    scopedOn_bind (scoped_autoNext (scoped_getString _)).on fun _ =>
    scopedOn_bind (scoped_autoNext (scoped_getString _)).on fun _ =>
    scopedOn_bind (scoped_autoNext scoped_getBoolean).on fun _ =>
    scopedOn_bind (scoped_autoNext scoped_getBoolean).on fun _ => (scoped_pure _).on) rfl]
  simp only [if_true, Cursor.enter, Cursor.next, Option.toList, List.nil_append]
  simp only [bind_def, nextString_str, requires_eval, next_cons, attestString_opt, nextString_opt, nextBool_bool, nextBool_last,
    Prog.pure_def, Res.bind, deeper_ind, boolStr_bit]
  unfold fieldLines headLines
  simp only [page_append, page_cons, page_nil, List.cons_append, List.nil_append, List.append_assoc, List.append_nil, Nat.add_assoc]
  have : page (f.requires.map fun r => (⟨k + 3, r⟩ : Line)) = f.requires.flatMap fun s => ind (k + 3) ++ (s ++ nl) := by
    unfold page
    rw [List.flatMap_map]
    simp [Line.show, ind, nl]
  rw [this]
  rfl

private theorem shown_null : Cursor.shown ⟨[], some (.mk .null []), [], []⟩ = " 1 PN_NULL".toList := by decide +kernel

private theorem raw_object (fuel k : Nat) (fp : Str) :
    rawNode (fuel + 1) (ind k) (objectTree fp) = .ok (page (objectLines k fp)) := by
  unfold objectTree
  rw [raw_element fuel (ind k) (by decide)]
  have : rawFor (rawBase fuel) (cordaId 3) (deeper (ind k)) = rawObject (deeper (ind k)) := by
    rw [← descId_eq 3 (by decide)]; rfl
  rw [this]
  have hb : describedToString (cordaId 3) = "OBJECT_DESCRIPTOR".toList := by decide +kernel
  rw [hb]
  unfold rawObject
  rw [bind_of_ok (attestList_list _ _ _ _), autoListEnter_eq (fun _ => scoped_rawObjectBody _) rfl]
  simp only [Bool.false_eq_true, if_false, Cursor.enter]
  rw [bind_of_ok (next_cons _ _ _ _ _)]
  rw [bind_of_ok (show autoNext getSymbol ⟨Option.toList none ++ [], some (sym fp), [.mk .null []],
      [([.mk (.ulong (cordaId 3)) []], .list, [])]⟩ = (.ok fp, ⟨[sym fp], some (.mk .null []), [],
      [([.mk (.ulong (cordaId 3)) []], .list, [])]⟩) from rfl)]
  rw [bind_of_ok (show look Cursor.shown ⟨[sym fp], some (.mk .null []), [], [([.mk (.ulong (cordaId 3)) []], .list, [])]⟩
      = (.ok " 1 PN_NULL".toList, ⟨[sym fp], some (.mk .null []), [], [([.mk (.ulong (cordaId 3)) []], .list, [])]⟩) from by
    rw [← shown_null]; rfl)]
  simp only [Prog.pure_def, Res.bind, deeper_ind]
  unfold objectLines headLines
  simp only [page_cons, page_nil, List.cons_append, List.nil_append, List.append_assoc, List.append_nil, Nat.add_assoc]
  rfl

private theorem nextObject_eval (fuel k : Nat) (fp : Str) (p r : List Node) (n : Node)
    (u : List (List Node × Atom × List Node)) :
    autoNext (byType (rawBase (fuel + 1) (ind k))) ⟨p, some (objectTree fp), n :: r, u⟩
      = (.ok (page (objectLines k fp)), ⟨objectTree fp :: p, some n, r, u⟩) := by
  have : byType (rawBase (fuel + 1) (ind k)) ⟨p, some (objectTree fp), n :: r, u⟩
      = (.ok (page (objectLines k fp)), ⟨p, some (objectTree fp), n :: r, u⟩) := by
    rw [show byType (rawBase (fuel + 1) (ind k)) ⟨p, some (objectTree fp), n :: r, u⟩
      = rawBase (fuel + 1) (ind k) ⟨p, some (objectTree fp), n :: r, u⟩ from rfl, rawBase_at _ _ rfl, raw_object]
  simp only [autoNext, this]
  rfl

private theorem byType_at (fuel : Nat) (ai : Str) {c : Cursor} {n : Node} (h : c.cur = some n) :
    byType (rawBase fuel ai) c = (byTypeNode (rawNode fuel ai) n, c) := by
  unfold byType byTypeNode
  rw [bind_of_ok (show look Cursor.type c = (.ok c.type, c) from rfl)]
  have : c.type = n.val.type := by simp [Cursor.type, h]
  rw [this]
  by_cases ht : n.val.type = .described
  · simp only [ht, if_true]; exact rawBase_at _ _ h
  · simp only [ht, if_false]; rfl

private theorem fields_eval (fuel k : Nat) (fs : List FieldInfo) (p r : List Node)
    (u : List (List Node × Atom × List Node)) :
    autoListEnter (fun n => forNext (fun i => do
      let f ← byType (rawBase (fuel + 1) (ind (k + 1)))
      pure (ind k ++ natStr i ++ dSlash ++ natStr n ++ dClose ++ nl ++ f))) false
      ⟨p, some (.mk .list (fs.map FieldInfo.node)), r, u⟩
      = (.ok (page (fieldsLines k fs.length fs)), ⟨p, some (.mk .list (fs.map FieldInfo.node)), r, u⟩) := by
  rw [listEnter_join (g := fun n i x => (byTypeNode (rawNode (fuel + 1) (ind (k + 1))) x).bind fun f =>
      .ok (ind k ++ natStr i ++ dSlash ++ natStr n ++ dClose ++ nl ++ f))
    (fun _ _ => (scoped_bind (scoped_byType (scopedOn_rawBase _ _)) fun _ => scoped_pure _).on)
    (fun n i c x hx => by
      rw [bind_def, byType_at _ _ hx]
      cases byTypeNode (rawNode (fuel + 1) (ind (k + 1))) x <;> rfl)]
  rw [joinRes_ok (f := fun i f => ind k ++ natStr i ++ dSlash ++ natStr (fs.map FieldInfo.node).length ++ dClose ++ nl
    ++ page (fieldLines (k + 1) f)) (fun i f _ => by
      rw [show byTypeNode (rawNode (fuel + 1) (ind (k + 1))) f.node = rawNode (fuel + 1) (ind (k + 1)) f.node from rfl,
        raw_field]
      rfl)]
  unfold fieldsLines
  rw [page_flatMap, List.length_map]
  congr 3
  funext x
  rw [page_cons]
  simp only [outOf, List.append_assoc]
  rfl

private theorem raw_composite (fuel k : Nat) (name : Str) (label : Option Str) (provides : List Str) (fp : Str)
    (fields : List FieldInfo) :
    rawNode (fuel + 2) (ind k) (TypeInfo.composite name label provides fp fields).node
      = .ok (page (typeLines k (.composite name label provides fp fields))) := by
  unfold TypeInfo.node
  rw [raw_element (fuel + 1) (ind k) (by decide)]
  have : rawFor (rawBase (fuel + 1)) (cordaId 5) (deeper (ind k))
      = rawComposite (rawBase (fuel + 1)) (deeper (ind k)) := by
    rw [← descId_eq 5 (by decide)]; rfl
  rw [this]
  have hb : describedToString (cordaId 5) = "COMPOSITE_TYPE".toList := by decide +kernel
  rw [hb]
  have hs := scopedOn_rawBase (fuel + 1)
  unfold rawComposite
  rw [bind_of_ok (attestList_list _ _ _ _)]
  rw [autoEnter_eq (
    scoped_bind (scoped_attestString _) fun _ =>
    scoped_guard_bind (scoped_readString _) (guard_readString _) fun _ =>
    scopedOn_bind (scoped_attestString _).on fun _ => scopedOn_bind (scoped_readString _).on fun _ =>
    scopedOn_bind scoped_list.on fun _ =>
    scopedOn_bind (scopedOn_autoListEnter fun _ => scoped_forNext fun _ =>
      (scoped_bind (scoped_getString _) fun _ => scoped_pure _).on) fun _ =>
    scopedOn_bind scoped_next.on fun _ => scopedOn_bind scoped_described.on fun _ =>
    scopedOn_bind (scoped_autoNext (scoped_byType (hs _))).on fun _ =>
    scopedOn_bind (scopedOn_autoListEnter fun _ => scoped_forNext fun _ =>
      (scoped_bind (scoped_byType (hs _)) fun _ => scoped_pure _).on) fun _ => (scoped_pure _).on) rfl]
  simp only [Bool.false_eq_true, if_false, Cursor.enter, Cursor.next, Option.toList, List.nil_append, deeper_ind]
  rw [bind_of_ok (attestString_str _ _ _ _ _), bind_of_ok (readString_str _ _ _ _ _ _), bind_of_ok (attestString_opt _ _ _ _ _),
    bind_of_ok (readString_opt _ _ _ _ _), bind_of_ok (attestList_strList _ _ _ _), bind_of_ok (strings_join _ _ _ _ _),
    bind_of_ok (next_cons _ _ _ _ _), bind_of_ok (attestDescribed_object _ _ _ _),
    bind_of_ok (nextObject_eval _ _ _ _ _ _ _), bind_of_ok (fields_eval _ _ _ _ _ _)]
  simp only [Prog.pure_def, Res.bind]
  unfold typeLines headLines
  simp only [page_append, page_cons, page_nil, List.cons_append, List.nil_append, List.append_assoc, List.append_nil, Nat.add_assoc]
  rfl

private theorem raw_restricted (fuel k : Nat) (name : Str) (label : Option Str) (provides : List Str)
    (source fp : Str) (choices : List Node) :
    rawNode (fuel + 2) (ind k) (TypeInfo.restricted name label provides source fp choices).node
      = .ok (page (typeLines k (.restricted name label provides source fp choices))) := by
  unfold TypeInfo.node
  rw [raw_element (fuel + 1) (ind k) (by decide)]
  have : rawFor (rawBase (fuel + 1)) (cordaId 6) (deeper (ind k))
      = rawRestricted (rawBase (fuel + 1)) (deeper (ind k)) := by
    rw [← descId_eq 6 (by decide)]; rfl
  rw [this]
  have hb : describedToString (cordaId 6) = "RESTRICTED_TYPE".toList := by decide +kernel
  rw [hb]
  have hs := scopedOn_rawBase (fuel + 1)
  unfold rawRestricted
  rw [bind_of_ok (attestList_list _ _ _ _)]
  rw [autoEnter_eq (
    scoped_guard_bind (scoped_readString _) (guard_readString _) fun _ => scopedOn_bind (scoped_readString _).on fun _ =>
    scopedOn_bind (scopedOn_autoListEnter fun _ => scoped_forNext fun _ =>
      (scoped_bind (scoped_getString _) fun _ => scoped_pure _).on) fun _ =>
    scopedOn_bind scoped_next.on fun _ => scopedOn_bind (scoped_readString _).on fun _ =>
    scopedOn_bind (scoped_autoNext (scoped_byType (hs _))).on fun _ => (scoped_pure _).on) rfl]
  simp only [Bool.false_eq_true, if_false, Cursor.enter, Cursor.next, Option.toList, List.nil_append, deeper_ind]
  rw [bind_of_ok (readString_str _ _ _ _ _ _), bind_of_ok (readString_opt _ _ _ _ _), bind_of_ok (strings_join _ _ _ _ _),
    bind_of_ok (next_cons _ _ _ _ _), bind_of_ok (readString_str _ _ _ _ _ _),
    bind_of_ok (nextObject_eval _ _ _ _ _ _ _)]
  simp only [Prog.pure_def, Res.bind]
  unfold typeLines headLines
  simp only [page_append, page_cons, page_nil, List.cons_append, List.nil_append, List.append_assoc, List.append_nil, Nat.add_assoc]
  rfl

private theorem raw_type (fuel k : Nat) (t : TypeInfo) :
    rawNode (fuel + 2) (ind k) t.node = .ok (page (typeLines k t)) := by
  cases t
  · exact raw_composite _ _ _ _ _ _ _
  · exact raw_restricted _ _ _ _ _ _ _ _

private theorem types_eval (fuel k i : Nat) (ts : List TypeInfo) (p r : List Node)
    (u : List (List Node × Atom × List Node)) :
    autoListEnter (fun m => forNext (fun j => do
        let t ← byType (rawBase (fuel + 2) (ind (k + 1)))
        pure (ind k ++ natStr i ++ dColon ++ natStr j ++ dSlash ++ natStr m ++ dCloseBlank ++ nl ++ t))) false
      ⟨p, some (.mk .list (ts.map TypeInfo.node)), r, u⟩
      = (.ok (page (typesLines k i ts.length ts)), ⟨p, some (.mk .list (ts.map TypeInfo.node)), r, u⟩) := by
  rw [listEnter_join (g := fun n j x => (byTypeNode (rawNode (fuel + 2) (ind (k + 1))) x).bind fun f =>
      .ok (ind k ++ natStr i ++ dColon ++ natStr j ++ dSlash ++ natStr n ++ dCloseBlank ++ nl ++ f))
    (fun _ _ => (scoped_bind (scoped_byType (scopedOn_rawBase _ _)) fun _ => scoped_pure _).on)
    (fun n i c x hx => by
      rw [bind_def, byType_at _ _ hx]
      cases byTypeNode (rawNode (fuel + 2) (ind (k + 1))) x <;> rfl)]
  rw [joinRes_ok (f := fun j t => ind k ++ natStr i ++ dColon ++ natStr j ++ dSlash ++ natStr (ts.map TypeInfo.node).length
    ++ dCloseBlank ++ nl ++ page (typeLines (k + 1) t)) (fun i t _ => by
      rw [show byTypeNode (rawNode (fuel + 2) (ind (k + 1))) t.node = rawNode (fuel + 2) (ind (k + 1)) t.node by
        cases t <;> rfl, raw_type]
      rfl)]
  unfold typesLines
  rw [page_flatMap, List.length_map]
  congr 3
  funext x
  rw [page_cons]
  simp only [outOf, List.append_assoc]
  rfl

private theorem scoped_listStep (fuel : Nat) (ai ai' ai'' : Str) (n i m : Nat) : Scoped (do
    let ts ← forNext (fun j => do
      let t ← byType (rawBase fuel ai'')
      pure (ai' ++ natStr i ++ dColon ++ natStr j ++ dSlash ++ natStr m ++ dCloseBlank ++ nl ++ t))
    pure (ai ++ natStr i ++ dSlash ++ natStr n ++ dClose ++ dEntries ++ natStr m ++ nl ++ ts) : Prog Str) :=
  scoped_bind (scoped_forNext fun _ => (scoped_bind (scoped_byType (scopedOn_rawBase _ _)) fun _ => scoped_pure _).on)
    fun _ => scoped_pure _

private theorem raw_schema (fuel k : Nat) (lists : List (List TypeInfo)) :
    rawNode (fuel + 3) (ind k) (schemaNode lists) = .ok (page (schemaLines k lists)) := by
  unfold schemaNode
  rw [raw_element (fuel + 2) (ind k) (by decide)]
  have : rawFor (rawBase (fuel + 2)) (cordaId 2) (deeper (ind k))
      = rawSchema (rawBase (fuel + 2)) (deeper (ind k)) := by
    rw [← descId_eq 2 (by decide)]; rfl
  rw [this]
  have hb : describedToString (cordaId 2) = "SCHEMA".toList := by decide +kernel
  rw [hb]
  unfold rawSchema
  rw [bind_of_ok (attestList_list _ _ _ _)]
  simp only [deeper_ind]
  have hs := fun n i m => scoped_listStep (fuel + 2) (ind (k + 1 + 1)) (ind (k + 1 + 1 + 1)) (ind (k + 1 + 1 + 1 + 1)) n i m
  rw [listEnter_join (fun n i => (scoped_guard_bind scoped_list guard_list fun _ => scopedOn_autoListEnter (hs n i)).on)
    (fun n i c x hx => listBody_at (hs n i) hx)]
  rw [joinRes_ok (f := fun i ts => ind (k + 2) ++ natStr i ++ dSlash
    ++ natStr (lists.map fun ts => Node.mk .list (ts.map TypeInfo.node)).length ++ dClose ++ dEntries ++ natStr ts.length ++ nl
    ++ page (typesLines (k + 3) i ts.length ts)) (fun i ts _ => by
      rw [bind_of_ok (show attestList (Cursor.root (.mk .list (ts.map TypeInfo.node)))
        = (.ok (), Cursor.root (.mk .list (ts.map TypeInfo.node))) from rfl), autoListEnter_eq (hs _ i) rfl]
      have h := types_eval fuel (k + 3) i ts [] [] []
      rw [autoListEnter_eq (fun _ => scoped_forNext fun _ =>
        (scoped_bind (scoped_byType (scopedOn_rawBase _ _)) fun _ => scoped_pure _).on) rfl] at h
      simp only [Bool.false_eq_true, if_false, Prod.mk.injEq, and_true] at h ⊢
      rw [bind_def]
      have hg : Cursor.getList (Cursor.root (.mk .list (ts.map TypeInfo.node))) = ts.length := by
        simp [Cursor.getList, Cursor.root]
      have hg' : Cursor.getList ⟨[], some (.mk .list (ts.map TypeInfo.node)), [], []⟩ = ts.length := hg
      rw [hg]
      rw [hg'] at h
      simp only [Nat.add_assoc] at h ⊢
      change (forNext _ (Cursor.root (.mk .list (ts.map TypeInfo.node))).enter).1 = _ at h
      generalize forNext _ (Cursor.root (.mk .list (ts.map TypeInfo.node))).enter = x at h ⊢
      obtain ⟨x1, x2⟩ := x
      simp only at h
      subst h
      rfl)]
  unfold schemaLines headLines
  simp only [page_append, page_cons, page_nil, List.cons_append, List.nil_append, List.append_assoc, List.append_nil, Nat.add_assoc,
    Res.bind, List.length_map]
  unfold listsLines
  rw [page_flatMap]
  simp only [page_cons, outOf, List.append_assoc, Nat.add_assoc]
  rfl

private theorem raw_payload (fuel k : Nat) (fp : Str) (more : List Node) :
    rawNode (fuel + 1) (ind k) (.mk .described (sym fp :: more))
      = .ok (page [⟨k, "DESCRIBED: ".toList⟩, ⟨k + 1, "blob: bytes: ".toList ++ dec fp.length⟩]) := by
  have hs := scoped_rawBody (scopedOn_rawBase fuel) (ind k)
  unfold rawNode
  rw [rawBase, autoEnter_eq hs rfl]
  have h2 : (if false = true then (Cursor.root (.mk .described (sym fp :: more))).enter.next.2.next.2
      else (Cursor.root (.mk .described (sym fp :: more))).enter.next.2)
      = ⟨[], some (sym fp), more, [([], .described, [])]⟩ := rfl
  simp only [h2]
  unfold rawBody
  rw [bind_of_ok (show look Cursor.type ⟨[], some (sym fp), more, [([], .described, [])]⟩
    = (.ok .symbol, ⟨[], some (sym fp), more, [([], .described, [])]⟩) from rfl)]
  rw [if_neg (by decide), if_pos rfl]
  rw [bind_of_ok (show look getSymbolRaw ⟨[], some (sym fp), more, [([], .described, [])]⟩
    = (.ok fp, ⟨[], some (sym fp), more, [([], .described, [])]⟩) from rfl)]
  simp only [Prog.pure_def, deeper_ind, page_cons, page_nil, List.append_assoc]
  simp only [List.append_nil]
  rfl

private theorem raw_envelope (fuel : Nat) (fp : Str) (payload : List Node) (lists : List (List TypeInfo))
    (more : List Node) :
    rawNode (fuel + 4) [] (envelopeNode fp payload lists more)
      = .ok (page (envelopeLines fp lists (2 + more.length))) := by
  unfold envelopeNode
  rw [← ind_zero, raw_element (fuel + 3) (ind 0) (by decide)]
  have : rawFor (rawBase (fuel + 3)) (cordaId 1) (deeper (ind 0))
      = rawEnvelope (rawBase (fuel + 3)) (deeper (ind 0)) := by
    rw [← descId_eq 1 (by decide)]; rfl
  rw [this]
  have hb : describedToString (cordaId 1) = "ENVELOPE".toList := by decide +kernel
  rw [hb]
  have hs := scopedOn_rawBase (fuel + 3)
  unfold rawEnvelope
  rw [bind_of_ok (attestList_list _ _ _ _)]
  rw [autoEnter_eq (scoped_bind (scoped_autoNext (scoped_byType (hs _))) fun _ =>
    scoped_bind (scoped_autoNext (scoped_byType (hs _))) fun _ => scoped_pure _) rfl]
  simp only [Bool.false_eq_true, if_false, Cursor.enter, Cursor.next, Option.toList, List.nil_append, deeper_ind]
  have e1 : ∀ p r n u, autoNext (byType (rawBase (fuel + 3) (ind (0 + 1 + 1 + 1))))
      ⟨p, some (.mk .described (sym fp :: payload)), n :: r, u⟩
      = (.ok (page [⟨3, "DESCRIBED: ".toList⟩, ⟨4, "blob: bytes: ".toList ++ dec fp.length⟩]),
        ⟨.mk .described (sym fp :: payload) :: p, some n, r, u⟩) := by
    intro p r n u
    simp only [autoNext, byType_described]
    rw [rawBase_at _ _ rfl, raw_payload]
    rfl
  have e2 : ∀ p r u, (autoNext (byType (rawBase (fuel + 3) (ind (0 + 1 + 1 + 1))))
      ⟨p, some (schemaNode lists), r, u⟩).1
      = .ok (page (schemaLines 3 lists)) := by
    intro p r u
    simp only [autoNext]
    rw [show byType (rawBase (fuel + 3) (ind (0 + 1 + 1 + 1))) ⟨p, some (schemaNode lists), r, u⟩
      = rawBase (fuel + 3) (ind (0 + 1 + 1 + 1)) ⟨p, some (schemaNode lists), r, u⟩ from rfl,
      rawBase_at _ _ rfl, raw_schema]
  rw [bind_of_ok (e1 _ _ _ _), bind_def]
  have e2 := e2 [.mk .described (sym fp :: payload)] more [([.mk (.ulong (cordaId 1)) []], .list, [])]
  generalize autoNext (byType (rawBase (fuel + 3) (ind (0 + 1 + 1 + 1))))
      ⟨[.mk .described (sym fp :: payload)], some (schemaNode lists), more, [([.mk (.ulong (cordaId 1)) []], .list, [])]⟩
      = x at e2 ⊢
  obtain ⟨x1, x2⟩ := x
  simp only at e2
  subst e2
  simp only [Prog.pure_def, Res.bind]
  unfold envelopeLines headLines
  simp only [page_append, page_cons, page_nil, List.cons_append, List.nil_append, List.append_assoc, List.append_nil, Nat.add_assoc,
    List.length_cons, Nat.add_comm 2]
  rfl

/-- **C60.** The raw dump of an envelope with any payload, any number of types with any fields, names, labels, provided
interfaces and choices, and anything behind the schema, is exactly the prescribed text: every type and every field, in order,
numbered, with all their parts. -/
theorem C60_raw_text (fp : Str) (payload : List Node) (lists : List (List TypeInfo)) (more : List Node) (c : Cursor)
    (hc : c.cur = some (envelopeNode fp payload lists more)) :
    (dumpSchema .raw c).1 = .ok (page (envelopeLines fp lists (2 + more.length))) := by
  unfold dumpSchema
  have ht : c.type = .described := by simp only [Cursor.type, hc]; rfl
  rw [bind_of_ok (show look Cursor.type c = (.ok c.type, c) from rfl)]
  simp only [ne_eq, ht, not_true, if_false]
  rw [rawBase_at _ _ hc]
  have hf : ∃ f, c.fuel = f + 4 := by
    refine ⟨c.fuel - 4, ?_⟩
    have : 4 ≤ c.fuel := by
      unfold Cursor.fuel
      rw [hc]
      simp only [envelopeNode, schemaNode, element, Node.height, Node.height.heights]
      omega
    omega
  obtain ⟨f, hf⟩ := hf
  rw [hf]
  exact raw_envelope f fp payload lists more

/-- A field with all its parts. -/
private def exField : FieldInfo := ⟨"a".toList, "*".toList, ["List<int>".toList], some "0".toList, none, true, false⟩

/-- A class with two fields and an enumeration. -/
private def exTypes (choice : String) : List TypeInfo :=
  [.composite "C".toList (some []) ["I".toList, "J".toList] "fp".toList [exField, exField],
   .restricted "E".toList none [] "list".toList "fe".toList [choiceTree choice.toList []]]

private def exEnvelope (choice : String) : Node := envelopeNode "fp".toList [] [exTypes choice] [.mk .null []]

example : (dumpSchema .raw (Cursor.root (exEnvelope "RED"))).1
    = .ok (page (envelopeLines "fp".toList [exTypes "RED"] (2 + 1))) :=
  C60_raw_text _ [] [exTypes "RED"] [.mk .null []] _ rfl

/-- The beginning of that text, spelled out. -/
example : (page (envelopeLines "fp".toList [exTypes "RED"] 3)).take 203
    = ("DESCRIBED: \n  key  : 14222930573189447681 :: 1 -> ENVELOPE\n  list : entries: 3\n    1]\n      DESCRIBED: \n"
      ++ "        blob: bytes: 2\n    2]\n      DESCRIBED: \n        key  : 14222930573189447682 :: 2 -> SCHEMA\n").toList := by
  decide +kernel

/-- **C60 for blobs this library writes**: the envelope, schema and type trees the writers produce are of that form. -/
theorem C60_written (fp : Str) (body : List Node) (ts : List TypeInfo) (name label : Str) (provides : List Str)
    (source tfp : Str) (fields : List FieldInfo) (choices : List Node) (d : FieldDesc) :
    envelopeProton [.mk .described (sym fp :: body)] (schemaProton (ts.map fun t => [t.node]))
      = [envelopeNode fp body [ts] [.mk .null []]]
    ∧ compositeProton name provides tfp (fields.map fun f => [f.node]) label
      = [(TypeInfo.composite name (some label) provides tfp fields).node]
    ∧ restrictedProton name source tfp = [(TypeInfo.restricted name (some []) [] source tfp []).node]
    ∧ fieldProton d.name d.type d.requires d.default d.label d.mandatory d.multiple
      = [(FieldInfo.mk d.name d.type d.requires (some d.default) (some d.label) d.mandatory d.multiple).node]
    ∧ restrictedTree name label provides source tfp choices
      = (TypeInfo.restricted name (some label) provides source tfp choices).node := by
  refine ⟨?_, ?_, restrictedProton_eq _ _ _, fieldProton_eq _, rfl⟩
  · have : (ts.map fun t => [t.node]) = (ts.map TypeInfo.node).map fun n => [n] := by rw [List.map_map]; rfl
    rw [this, schemaProton_eq, envelopeProton_eq]
    rfl
  · have : (fields.map fun f => [f.node]) = (fields.map FieldInfo.node).map fun n => [n] := by rw [List.map_map]; rfl
    rw [this, compositeProton_eq]
    rfl

private theorem briefType_eq (t : PnType) : setw2 (intStr t.num) ++ dBlank ++ t.name = briefType t := by
  cases t <;> decide +kernel

private theorem intStr_signed (n : Int) : intStr n = (if n < 0 then ['-'] else []) ++ dec n.natAbs := by
  cases n with
  | ofNat k => rw [if_neg (by simp)]; rfl
  | negSucc k => rw [if_pos (Int.negSucc_lt_zero k)]; rfl

private theorem briefValue_eq (k : Nat) (v : Atom) : valueShown k v = briefValue k v := by
  have hb : dBlank = [' '] := by decide
  cases v with
  | bool b =>
    have : ∀ b : Bool, dBlank ++ (if b then wTrue else wFalse) = if b then " true".toList else " false".toList := by decide +kernel
    exact this b
  | int n => simp only [valueShown, briefValue, hb, intStr_signed, List.cons_append, List.nil_append]
  | symbol s =>
    have h2 : briefArrow = nl ++ wArrow := by decide +kernel
    simp only [valueShown, briefValue, hb, h2, natStr, dec, List.append_assoc, List.cons_append, List.nil_append]
  | ulong n => simp only [valueShown, briefValue, hb, natStr, dec, List.cons_append, List.nil_append]
  | string s => simp only [valueShown, briefValue, hb, List.cons_append, List.nil_append]
  | _ => rfl

theorem shown_brief (n : Node) (p r : List Node) (u : List (List Node × Atom × List Node)) :
    Cursor.shown ⟨p, some n, r, u⟩ = brief n := by
  unfold brief
  rw [← briefType_eq, ← briefValue_eq]
  rfl

/-- **C60, any descriptor of an object**: the second line shows the second part in brief, whatever it is; if there is none,
the fingerprint is shown again, in that form. -/
theorem C60_second_part (fp : Str) (rest : List Node) (c : Cursor) (hc : c.cur = some (element 3 (sym fp :: rest))) :
    (dumpSchema .raw c).1 = .ok (page (headLines 0 3 "OBJECT_DESCRIPTOR".toList (rest.length + 1)
      ++ [⟨2, "1/2] ".toList ++ fp⟩, ⟨2, "2/2] ".toList ++ brief (rest.headD (sym fp))⟩])) := by
  unfold dumpSchema
  have ht : c.type = .described := by simp only [Cursor.type, hc]; rfl
  rw [bind_of_ok (show look Cursor.type c = (.ok c.type, c) from rfl)]
  simp only [ne_eq, ht, not_true, if_false]
  rw [rawBase_at _ _ hc]
  obtain ⟨f, hf⟩ : ∃ f, c.fuel = f + 1 := ⟨c.fuel - 1, by
    have : 1 ≤ c.fuel := by
      unfold Cursor.fuel
      rw [hc]
      simp only [element, Node.height]
      omega
    omega⟩
  rw [hf, ← ind_zero, raw_element f (ind 0) (by decide)]
  have : rawFor (rawBase f) (cordaId 3) (deeper (ind 0)) = rawObject (deeper (ind 0)) := by
    rw [← descId_eq 3 (by decide)]; rfl
  rw [this]
  have hb : describedToString (cordaId 3) = "OBJECT_DESCRIPTOR".toList := by decide +kernel
  rw [hb]
  unfold rawObject
  rw [bind_of_ok (attestList_list _ _ _ _), autoListEnter_eq (fun _ => scoped_rawObjectBody _) rfl]
  simp only [Bool.false_eq_true, if_false, Cursor.enter]
  rw [bind_of_ok (next_cons _ _ _ _ _)]
  obtain ⟨p, r, hg⟩ : ∃ p r, autoNext getSymbol ⟨Option.toList none ++ [], some (sym fp), rest,
      [([.mk (.ulong (cordaId 3)) []], .list, [])]⟩ = (.ok fp, ⟨p, some (rest.headD (sym fp)), r,
      [([.mk (.ulong (cordaId 3)) []], .list, [])]⟩) := by
    cases rest with
    | nil => exact ⟨_, _, rfl⟩
    | cons x xs => exact ⟨_, _, rfl⟩
  rw [bind_of_ok hg, bind_of_ok (show look Cursor.shown _ = (.ok _, _) from rfl), shown_brief]
  simp only [Prog.pure_def, Res.bind, deeper_ind]
  unfold headLines
  simp only [page_cons, page_nil, List.cons_append, List.nil_append, List.append_assoc, List.append_nil, Nat.add_assoc,
    List.length_cons]
  rfl

/-- With a number, and with nothing. -/
example : brief (.mk (.ulong 12) []) = "10 PN_ULONG 12".toList ∧ brief (sym "net".toList) = "21 PN_SYMBOL 3\n   -> n e t ".toList
    ∧ (dumpSchema .raw (Cursor.root (element 3 [sym "net".toList]))).1 = .ok
      ("DESCRIBED: \n  key  : 14222930573189447683 :: 3 -> OBJECT_DESCRIPTOR\n  list : entries: 1\n    1/2] net\n"
        ++ "    2/2] 21 PN_SYMBOL 3\n   -> n e t \n").toList := by decide +kernel

/-! ### C61: the same blob, the same text -/

/-- **C61.** What is dumped, in any of the three forms, depends on the datum at the cursor only: the same blob gives the same
text, or the same failure, wherever it is and whatever surrounds it. -/
theorem C61_same_text (t : DumpTarget) (c d : Cursor) (h : c.cur = d.cur) : (dumpSchema t c).1 = (dumpSchema t d).1 := by
  unfold dumpSchema
  have ht : c.type = d.type := by simp only [Cursor.type, h]
  have hf : c.fuel = d.fuel := by simp only [Cursor.fuel, h]
  rw [bind_of_ok (show look Cursor.type c = (.ok c.type, c) from rfl), bind_of_ok (show look Cursor.type d = (.ok d.type, d) from rfl),
    ht, hf]
  by_cases hd : d.type = .described
  · simp only [ne_eq, hd, not_true, if_false]
    have hs : d.cur.isSome = true := on_of_type (by rw [hd]; decide)
    obtain ⟨n, hn⟩ := Option.isSome_iff_exists.mp hs
    cases t
    · simp only [rawBase_at _ _ hn, rawBase_at _ _ (h.trans hn)]
    · rfl
    · simp only [avroBase_at _ _ hn, avroBase_at _ _ (h.trans hn)]
  · simp only [ne_eq, hd, not_false_iff, if_true]
    rfl

/-- **C61, more**: of the payload and of what follows the schema only the length of the fingerprint and the number of parts
matter. -/
theorem C61_payload_unseen (fp fp' : Str) (payload payload' : List Node) (lists : List (List TypeInfo)) (more more' : List Node)
    (hf : fp.length = fp'.length) (hm : more.length = more'.length) (c d : Cursor)
    (hc : c.cur = some (envelopeNode fp payload lists more)) (hd : d.cur = some (envelopeNode fp' payload' lists more')) :
    (dumpSchema .raw c).1 = (dumpSchema .raw d).1 := by
  rw [C60_raw_text fp payload lists more c hc, C60_raw_text fp' payload' lists more' d hd, hm]
  unfold envelopeLines
  rw [hf]

/-! ### C62: different schemas, different text -/

/-- **C62 is false.** The constants of an enumeration are not shown: enumerations with different constants have the same
text. -/
theorem C62_choices_violated : exEnvelope "RED" ≠ exEnvelope "BLUE"
    ∧ (dumpSchema .raw (Cursor.root (exEnvelope "RED"))).1
      = (dumpSchema .raw (Cursor.root (exEnvelope "BLUE"))).1 := by
  refine ⟨by decide +kernel, ?_⟩
  rw [C60_raw_text _ _ _ _ _ rfl, C60_raw_text _ _ _ _ _ rfl]
  rfl

/-- **C62, whatever the choices are**, they do not show. -/
theorem C62_choices_unseen_violated (fp : Str) (payload more : List Node) (name : Str) (label : Option Str)
    (provides : List Str) (source tfp : Str) (choices choices' : List Node) (before after : List TypeInfo) :
    (dumpSchema .raw (Cursor.root (envelopeNode fp payload
      [before ++ .restricted name label provides source tfp choices :: after] more))).1
    = (dumpSchema .raw (Cursor.root (envelopeNode fp payload
      [before ++ .restricted name label provides source tfp choices' :: after] more))).1 := by
  rw [C60_raw_text _ _ _ _ _ rfl, C60_raw_text _ _ _ _ _ rfl]
  have : ∀ (before : List TypeInfo) (i j n : Nat) (k : Nat),
      (((before ++ TypeInfo.restricted name label provides source tfp choices :: after).zipIdx j).flatMap fun t =>
        (⟨k, dec i ++ ":".toList ++ outOf t.2 n ++ " ".toList⟩ : Line) :: typeLines (k + 1) t.1)
      = ((before ++ TypeInfo.restricted name label provides source tfp choices' :: after).zipIdx j).flatMap fun t =>
        (⟨k, dec i ++ ":".toList ++ outOf t.2 n ++ " ".toList⟩ : Line) :: typeLines (k + 1) t.1 := by
    intro before i j n k
    induction before generalizing j with
    | nil => rfl
    | cons b bs ih => simp only [List.cons_append, List.zipIdx_cons, List.flatMap_cons, ih (j + 1)]
  unfold envelopeLines schemaLines listsLines typesLines
  simp only [List.zipIdx_cons, List.zipIdx_nil, List.flatMap_cons, List.flatMap_nil, this, List.length_append, List.length_cons]

/-- **C62, what does hold**: if all names and texts fit on a line and names of provided interfaces contain no blanks, then the
text determines the schema except for the choices (and except that a missing text and an empty one look the same), how many
parts the envelope has and how long the fingerprint of the payload is. -/
theorem C62_text_determines_partial (fp fp' : Str) (payload payload' : List Node)
    (lists lists' : List (List TypeInfo)) (more more' : List Node) (h : ∀ l ∈ lists, ∀ t ∈ l, t.OneLine)
    (h' : ∀ l ∈ lists', ∀ t ∈ l, t.OneLine) (c d : Cursor) (hc : c.cur = some (envelopeNode fp payload lists more))
    (hd : d.cur = some (envelopeNode fp' payload' lists' more'))
    (he : (dumpSchema .raw c).1 = (dumpSchema .raw d).1) :
    lists.map (·.map TypeInfo.bare) = lists'.map (·.map TypeInfo.bare) ∧ more.length = more'.length
      ∧ fp.length = fp'.length := by
  rw [C60_raw_text fp payload lists more c hc, C60_raw_text fp' payload' lists' more' d hd, Res.ok.injEq] at he
  obtain ⟨h1, h2, h3⟩ := envelope_inj h h' he
  exact ⟨h3, by omega, h2⟩

/-- The conditions are needed: a line feed in a name can imitate other lines. -/
example : page [⟨0, "a\nb".toList⟩] = page [⟨0, "a".toList⟩, ⟨0, "b".toList⟩] := by decide +kernel

#print axioms C59_dump_cursor
#print axioms C59_dump_again
#print axioms C60_raw_text
#print axioms C60_written
#print axioms C60_second_part
#print axioms C61_same_text
#print axioms C61_payload_unseen
#print axioms C62_choices_violated
#print axioms C62_choices_unseen_violated
#print axioms C62_text_determines_partial

end Corda.Props
