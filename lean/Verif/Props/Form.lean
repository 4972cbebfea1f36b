import Verif.Props.AnyAvro
import Verif.Props.AnySchema
import Verif.Props.AnySchemaDump
import Verif.Props.Writer
import Verif.Spec.Form

/-
C108: the schema of a blob depends on the form of the object, not on its values.
-/

namespace Corda.Props
open Corda Corda.Prog Corda.Spec Corda.Wr

/-! The events of a form. -/

private def formContainer : Form → Bool
  | .comp _ _ _ => false
  | _ => true

mutual

private def formEvents : Form → List Event
  | .comp n f ms => .reg (n, f) (.comp []) :: formPropsEvents (n, f) ms
  | .list n f es => .reg (n, f) (.list "list".toList) :: formsEvents es
  | .map n f es => .reg (n, f) (.list "map".toList) :: formsEvents es

private def formPropEvents (key : Str × Str) : FormProp → List Event
  | .prim n t ptr => [.prop key n (primDesc n t ptr)]
  | .obj n t ptr o => .prop key n (if !ptr && formContainer o then restrictedDesc n t else compositeDesc n t) :: formEvents o
  | .null n t => [.prop key n (compositeDesc n t), .prop key n (nullDesc n t)]

private def formPropsEvents (key : Str × Str) : List FormProp → List Event
  | [] => []
  | m :: ms => formPropEvents key m ++ formPropsEvents key ms

private def formsEvents : List Form → List Event
  | [] => []
  | o :: os => formEvents o ++ formsEvents os

end

private theorem formsEvents_append (a b : List Form) : formsEvents (a ++ b) = formsEvents a ++ formsEvents b := by
  induction a with
  | nil => rfl
  | cons x a ih => simp [formsEvents, ih]

private def untold : Event → Bool
  | .trace _ => false
  | _ => true

private theorem container_eq (o : Obj) : formContainer (form o) = o.isContainer := by cases o <;> simp [form, formContainer, Obj.isContainer]

mutual

private theorem untold_object : (o : Obj) → (objEvents o).filter untold = formEvents (form o)
  | .comp n f ms => by
    rw [objEvents, form, formEvents, List.filter_cons_of_pos rfl, untold_members (n, f) ms]
  | .list n f es => by
    rw [objEvents, form, formEvents, List.filter_cons_of_pos rfl, untold_elems es]
  | .map n f es => by
    rw [objEvents, form, formEvents, List.filter_cons_of_pos rfl, untold_entries es]

private theorem untold_member (key : Str × Str) : (m : Member) → (memberEvents key m).filter untold = formPropEvents key (formMember m)
  | .prim n ptr v => by
    rw [memberEvents, formMember, formPropEvents, List.filter_cons_of_neg (by simp [untold]), List.filter_cons_of_pos rfl]; rfl
  | .nullPrim n t => by
    rw [memberEvents, formMember, formPropEvents, List.filter_cons_of_neg (by simp [untold]), List.filter_cons_of_pos rfl]; rfl
  | .obj n t ptr o => by
    rw [memberEvents, formMember, formPropEvents, List.filter_cons_of_pos rfl, untold_object o, container_eq]
  | .nullObj n t => rfl

private theorem untold_members (key : Str × Str) : (ms : List Member) → (membersEvents key ms).filter untold = formPropsEvents key (formMembers ms)
  | [] => rfl
  | m :: ms => by
    rw [membersEvents, formMembers, formPropsEvents, List.filter_append, untold_member key m, untold_members key ms]

private theorem untold_elem : (e : Elem) → (elemEvents e).filter untold = formsEvents (formElem e)
  | .obj o => by rw [elemEvents, formElem, untold_object o]; simp [formsEvents]
  | .prim _ => rfl
  | .nullPrim _ => rfl

private theorem untold_elems : (es : List Elem) → (elemsEvents es).filter untold = formsEvents (formElems es)
  | [] => rfl
  | e :: es => by rw [elemsEvents, formElems, formsEvents_append, List.filter_append, untold_elem e, untold_elems es]

private theorem untold_entries : (es : List Entry) → (entriesEvents es).filter untold = formsEvents (formEntries es)
  | [] => rfl
  | .mk k v :: es => by
    rw [entriesEvents, formEntries, formsEvents_append, formsEvents_append, List.filter_append, List.filter_append, untold_elem k, untold_elem v,
      untold_entries es]

end

/-- Leaving out what is printed changes nothing unless printing it is undefined. -/
private theorem run_untold (es : List Event) (m : Schemas) (h : runEvents m es ≠ .ub "char pointer") :
    runEvents m (es.filter untold) = runEvents m es := by
  induction es generalizing m with
  | nil => rfl
  | cons e es ih =>
    cases e with
    | reg key b =>
      rw [List.filter_cons_of_pos rfl]
      simp only [runEvents] at h ⊢
      cases hr : runEvent m (.reg key b) with
      | ok m' => rw [hr] at h; exact ih m' h
      | throw x => rfl
      | ub x => rfl
    | prop key n d =>
      rw [List.filter_cons_of_pos rfl]
      simp only [runEvents] at h ⊢
      cases hr : runEvent m (.prop key n d) with
      | ok m' => rw [hr] at h; exact ih m' h
      | throw x => rfl
      | ub x => rfl
    | trace p =>
      rw [List.filter_cons_of_neg (by simp [untold])]
      simp only [runEvents, runEvent] at h ⊢
      cases p with
      | true => exact ih m h
      | false => exact absurd rfl h

/-- What an object gives, with the schema it was given. -/
private theorem serialise_from {o : Obj} {m : Schemas} (h : runEvents [] (objEvents o) = .ok m) {ds : List ClassDesc}
    (hm : m = ds.map ClassDesc.entry) :
    serialise o = .ok [envelopeTree (objTree o) (schemaTree (ds.map ClassDesc.tree)) (.mk .null [])] := by
  have hd := does_object o WState.init rfl
  have h' : runEvents WState.init.schemas (objEvents o) = .ok m := h
  rw [h'] at hd
  simp only at hd
  unfold serialise
  rw [hd]
  simp only [WState.toBlob]
  have hp : (Cursor.append [objTree o] WState.init.payload).forest = [objTree o] := rfl
  have hs : m.map (fun e => e.2.make e.1) = (ds.map ClassDesc.tree).map fun n => [n] := by
    rw [hm, List.map_map, List.map_map]
    exact List.map_congr_left fun d _ => entry_make d
  rw [hp, hs, Props.schemaProton_eq, Props.envelopeProton_eq]

private theorem run_of_ok {o : Obj} {ns : List Node} (h : serialise o = .ok ns) : ∃ m, runEvents [] (objEvents o) = .ok m := by
  rcases serialise_eq o with ⟨_, _, hm, _⟩ | ⟨_, h1⟩ | ⟨_, h1⟩
  · exact hm
  · rw [h1] at h; cases h
  · rw [h1] at h; cases h

/-- **C108.** Two objects of the same form that can be serialised get the same schema; it tells nothing about their values. -/
theorem C108_schema (o o' : Obj) (h : form o = form o') (ns ns' : List Node) (hs : serialise o = .ok ns) (hs' : serialise o' = .ok ns') :
    ∃ schema, ns = [envelopeTree (objTree o) schema (.mk .null [])] ∧ ns' = [envelopeTree (objTree o') schema (.mk .null [])] := by
  obtain ⟨m, hm⟩ := run_of_ok hs
  obtain ⟨m', hm'⟩ := run_of_ok hs'
  have e : m = m' := by
    have h1 := run_untold (objEvents o) [] (by rw [hm]; exact fun h => by cases h)
    have h2 := run_untold (objEvents o') [] (by rw [hm']; exact fun h => by cases h)
    rw [untold_object, hm] at h1
    rw [untold_object, hm', ← h, h1] at h2
    cases h2
    rfl
  subst e
  obtain ⟨ds, hd, -⟩ := schemas_describe o m hm
  rw [serialise_from hm hd] at hs
  rw [serialise_from hm' hd] at hs'
  cases hs
  cases hs'
  exact ⟨_, rfl, rfl⟩

private theorem sorted_unique {α : Type} {r : α → α → Prop} (ha : ∀ a b, r a b → ¬ r b a) {l l' : List α} (h : l.Pairwise r) (h' : l'.Pairwise r)
    (hm : ∀ x, x ∈ l ↔ x ∈ l') : l = l' := by
  induction l generalizing l' with
  | nil =>
    cases l' with
    | nil => rfl
    | cons y l' => exact absurd ((hm y).2 (by simp)) (by simp)
  | cons x l ih =>
    cases l' with
    | nil => exact absurd ((hm x).1 (by simp)) (by simp)
    | cons y l' =>
      rw [List.pairwise_cons] at h h'
      have e : x = y := by
        rcases List.mem_cons.1 ((hm x).1 (by simp)) with e | h1
        · exact e
        · rcases List.mem_cons.1 ((hm y).2 (by simp)) with e | h2
          · exact e.symm
          · exact absurd (h'.1 x h1) (ha _ _ (h.1 y h2))
      subst e
      congr 1
      refine ih h.2 h'.2 fun z => ⟨fun hz => ?_, fun hz => ?_⟩
      · rcases List.mem_cons.1 ((hm z).1 (by simp [hz])) with e | h1
        · subst e; exact absurd (h.1 z hz) (ha _ _ (h.1 z hz))
        · exact h1
      · rcases List.mem_cons.1 ((hm z).2 (by simp [hz])) with e | h1
        · subst e; exact absurd (h'.1 z hz) (ha _ _ (h'.1 z hz))
        · exact h1

private theorem strLt_not (a b : Str) (h : strLt a b = true) : ¬ strLt b a = true := fun h' => by
  have := strLt_trans a b a h h'
  rw [strLt_irrefl] at this
  cases this

private theorem keyLt_not (a b : Str × Str) (h : keyLt a b = true) : ¬ keyLt b a = true := by
  unfold keyLt at h ⊢
  by_cases h1 : strLt a.1 b.1 = true
  · rw [if_neg (strLt_not _ _ h1), if_pos h1]; exact fun h => by cases h
  · rw [if_neg h1] at h
    by_cases h2 : strLt b.1 a.1 = true
    · rw [if_pos h2] at h; cases h
    · rw [if_neg h2] at h
      rw [if_neg h2, if_neg h1]
      exact strLt_not _ _ h

private theorem mem_keys (cs : List ClassUse) (k : Str × Str) : k ∈ cs.map Prod.fst ↔ cs.lookup k ≠ none := by
  induction cs with
  | nil => simp
  | cons c cs ih =>
    obtain ⟨c1, c2⟩ := c
    by_cases h : k = c1
    · subst h; simp [List.lookup]
    · have hb : (k == c1) = false := by simp [h]
      simp only [List.map_cons, List.mem_cons, h, false_or, ih, List.lookup, hb]

private theorem describes_le {o o' : Obj} (hc : ∀ k, (classes o).lookup k = (classes o').lookup k)
    (hp : ∀ k n, firstProp (props o) k n = firstProp (props o') k n) {ds ds' : List ClassDesc} (h : Describes o ds) (h' : Describes o' ds')
    (d : ClassDesc) (hd : d ∈ ds) : d ∈ ds' := by
  have hk : d.key ∈ ds'.map ClassDesc.key := by
    have := (h.exact d.key).1 (List.mem_map.2 ⟨d, hd, rfl⟩)
    rw [mem_keys, hc, ← mem_keys] at this
    exact (h'.exact d.key).2 this
  obtain ⟨d', hd', e⟩ := List.mem_map.1 hk
  have : d = d' := by
    obtain ⟨k, b⟩ := d
    obtain ⟨k', b'⟩ := d'
    simp only at e
    subst e
    congr 1
    cases b with
    | inr src =>
      have h1 := (h.container _ hd src).1 rfl
      rw [hc] at h1
      exact ((h'.container _ hd' src).2 h1).symm
    | inl ps =>
      cases b' with
      | inr src =>
        have h1 := (h'.container _ hd' src).1 rfl
        rw [← hc] at h1
        exact absurd ((h.container _ hd src).2 h1) (by simp)
      | inl ps' =>
        congr 1
        refine sorted_unique (r := fun a b => strLt a.name b.name = true) (fun a b => strLt_not _ _) (h.propsSorted _ hd ps rfl)
          (h'.propsSorted _ hd' ps' rfl) fun p => ?_
        rw [h.propsExact _ hd ps rfl p, h'.propsExact _ hd' ps' rfl p, hp]
  rw [this]
  exact hd'

/-- **C108, by classes**: it is enough that the two are made of objects of the same classes, and that the properties of these were first
written alike; e.g. lists of different lengths. -/
theorem C108_classes (o o' : Obj) (hc : ∀ k, (classes o).lookup k = (classes o').lookup k)
    (hp : ∀ k n, firstProp (props o) k n = firstProp (props o') k n) (ns ns' : List Node) (hs : serialise o = .ok ns)
    (hs' : serialise o' = .ok ns') :
    ∃ schema, ns = [envelopeTree (objTree o) schema (.mk .null [])] ∧ ns' = [envelopeTree (objTree o') schema (.mk .null [])] := by
  obtain ⟨ds, h1, hd⟩ := C32_order o ns hs
  obtain ⟨ds', h1', hd'⟩ := C32_order o' ns' hs'
  have e : ds = ds' := sorted_unique (r := fun a b => keyLt a.key b.key = true) (fun a b => keyLt_not _ _) hd.sorted hd'.sorted fun d =>
    ⟨describes_le hc hp hd hd' d, describes_le (fun k => (hc k).symm) (fun k n => (hp k n).symm) hd' hd d⟩
  subst e
  exact ⟨_, h1, h1'⟩

/-- **C108, partial.** Whether an object can be serialised depends on its form only, and so does the exception.  Missing: pointers to
characters, which are printed up to a NUL that need not be there. -/
theorem C108_success_partial (o o' : Obj) (h : form o = form o') (hn : NoCharPointers o) (hn' : NoCharPointers o') :
    ((∃ ns, serialise o = .ok ns) ↔ ∃ ns, serialise o' = .ok ns) ∧ ∀ m, serialise o = .throw m ↔ serialise o' = .throw m := by
  have key : ∀ o, NoCharPointers o → runEvents [] (objEvents o) = runEvents [] (formEvents (form o)) := by
    intro o hn
    rw [← untold_object]
    exact (run_untold _ _ (fun h => printed_defined _ ((printed_object o).2 hn) [] h)).symm
  have e : runEvents [] (objEvents o) = runEvents [] (objEvents o') := by rw [key o hn, key o' hn', h]
  rcases serialise_eq o with ⟨ds, -, ⟨m, hm⟩, h1⟩ | ⟨hm, h1⟩ | ⟨hm, h1⟩
  · rcases serialise_eq o' with ⟨ds', -, ⟨m', hm'⟩, h2⟩ | ⟨hm', h2⟩ | ⟨hm', h2⟩
    · rw [h1, h2]
      exact ⟨⟨fun _ => ⟨_, rfl⟩, fun _ => ⟨_, rfl⟩⟩, fun m => ⟨fun h => (by cases h), fun h => (by cases h)⟩⟩
    · rw [hm, hm'] at e; cases e
    · exact absurd hn' hm'
  · rcases serialise_eq o' with ⟨ds', -, ⟨m', hm'⟩, h2⟩ | ⟨hm', h2⟩ | ⟨hm', h2⟩
    · rw [hm, hm'] at e; cases e
    · rw [h1, h2]
      exact ⟨Iff.rfl, fun m => Iff.rfl⟩
    · exact absurd hn' hm'
  · exact absurd hn hm

/-! What is read of the schema. -/

private theorem form_fingerprint {o o' : Obj} (h : form o = form o') : ∃ f a a' ks ks', objTree o = describedNode f a ks ∧ objTree o' = describedNode f a' ks' := by
  cases o <;> cases o' <;> simp [form] at h <;> obtain ⟨-, rfl, -⟩ := h <;> exact ⟨_, _, _, _, _, by rw [objTree], by rw [objTree]⟩

private theorem schema_height (p s t : Node) : s.height ≤ (envelopeTree p s t).height := by
  simp only [envelopeTree, element, Node.height, Node.height.heights]
  omega

private theorem envelope_from (f : Str) (a : Atom) (ks : List Node) (s t : Node) :
    envelopeFrom (envelopeTree (describedNode f a ks) s t) = (do
      let e ← elementIn s.height (some s)
      let s ← asKind theSchema e
      Res.ok (s, f)) := by
  have hd := C89_depth s _ (schema_height (describedNode f a ks) s t)
  unfold envelopeFrom
  show (do
    let e ← elementOf (elementIn (envelopeTree (describedNode f a ks) s t).height) (cordaId 1) [describedNode f a ks, s, t]
    match e with
    | .envelope s o => Res.ok (s, o)
    | _ => .ub "null envelope") = _
  rw [elementOf, if_neg (by decide), if_pos rfl]
  show (do
    let e ← (do
      let e ← elementIn (envelopeTree (describedNode f a ks) s t).height (some s)
      let s ← asKind theSchema e
      pure (Element.envelope s f))
    match e with
    | .envelope s o => Res.ok (s, o)
    | _ => .ub "null envelope") = _
  rw [hd]
  cases elementIn s.height (some s) with
  | ok e =>
    show (do
      let e ← (do
        let s ← asKind theSchema e
        pure (Element.envelope s f))
      match e with
      | .envelope s o => Res.ok (s, o)
      | _ => .ub "null envelope") = (do
        let s ← asKind theSchema e
        Res.ok (s, f))
    cases asKind theSchema e <;> rfl
  | throw m => rfl
  | ub m => rfl

/-- **C108, as read back**: opening the blobs of two such objects gives the same schema and the same outer type, or the same exception. -/
theorem C108_read (o o' : Obj) (h : form o = form o') (n n' : Node) (hs : serialise o = .ok [n]) (hs' : serialise o' = .ok [n']) :
    (readEnvelope (Cursor.root n)).1 = (readEnvelope (Cursor.root n')).1 := by
  obtain ⟨schema, h1, h2⟩ := C108_schema o o' h _ _ hs hs'
  obtain ⟨f, a, a', ks, ks', e1, e2⟩ := form_fingerprint h
  cases h1
  cases h2
  rw [C89_any _ _ rfl, C89_any _ _ rfl, e1, e2, envelope_from, envelope_from]

private theorem avro_envelope (p s t : Node) : avroDump (envelopeTree p s t) = elementAvro (avroIn s.height) 0 (some s) := by
  have hh : ∃ d, (envelopeTree p s t).height = d + 1 ∧ s.height ≤ d := by
    refine ⟨(envelopeTree p s t).height - 1, ?_, ?_⟩ <;> simp only [envelopeTree, element, Node.height, Node.height.heights] <;> omega
  obtain ⟨d, hd, hl⟩ := hh
  unfold avroDump
  show avroIn (envelopeTree p s t).height 0 (some (envelopeTree p s t)) = _
  rw [hd, avroIn]
  show insideAvro (avroIn d) 0 (cordaId 1) (some (.mk .list [p, s, t])) = _
  rw [insideAvro, if_pos rfl]
  show elementAvro (avroIn d) 0 (some s) = _
  unfold elementAvro
  rw [C91_depth 0 d s hl]

/-- **C108, as dumped**: the schema dumper makes the same Avro schema of both. -/
theorem C108_dumped (o o' : Obj) (h : form o = form o') (n n' : Node) (hs : serialise o = .ok [n]) (hs' : serialise o' = .ok [n'])
    (ht : SmallTexts n) (ht' : SmallTexts n') : (dumpSchema .avro (Cursor.root n)).1 = (dumpSchema .avro (Cursor.root n')).1 := by
  obtain ⟨schema, h1, h2⟩ := C108_schema o o' h _ _ hs hs'
  cases h1
  cases h2
  rw [C91_any _ _ rfl ht, C91_any _ _ rfl ht', avro_envelope, avro_envelope]

private theorem raw_envelope (f : Str) (a : Atom) (ks : List Node) (s t : Node) :
    rawDump (envelopeTree (describedNode f a ks) s t) = (do
      let ls ← elementLines (linesIn s.height) 3 (some s)
      pure (page (elementHead 0 (cordaId 1) 3 ++ ([⟨2, "1]".toList⟩]
        ++ [⟨3, "DESCRIBED: ".toList⟩, ⟨4, "blob: bytes: ".toList ++ dec f.length⟩] ++ [⟨2, "2]".toList⟩] ++ ls)))) := by
  have hh : ∃ d, (envelopeTree (describedNode f a ks) s t).height = d + 1 + 1 ∧ s.height ≤ d + 1 := by
    refine ⟨(envelopeTree (describedNode f a ks) s t).height - 2, ?_, ?_⟩ <;>
      simp only [envelopeTree, element, describedNode, Node.height, Node.height.heights] <;> omega
  obtain ⟨d, hd, hl⟩ := hh
  have hs : elementLines (linesIn s.height) 3 (some s) = elementLines (linesIn (d + 1)) 3 (some s) := by
    unfold elementLines
    rw [C90_depth 3 (d + 1) s hl]
  rw [hs]
  unfold rawDump
  show (do
    let ls ← linesIn (envelopeTree (describedNode f a ks) s t).height 0 (some (envelopeTree (describedNode f a ks) s t))
    pure (page ls) : Res Str) = _
  rw [hd, linesIn]
  show (do
    let ls ← (do
      let ls ← insideShown (linesIn (d + 1)) 0 (cordaId 1) (some (.mk .list [describedNode f a ks, s, t]))
      pure (elementHead 0 (cordaId 1) 3 ++ ls) : Res (List Line))
    pure (page ls) : Res Str) = _
  rw [insideShown, if_pos rfl]
  show (do
    let ls ← (do
      let ls ← (do
        let schema ← elementLines (linesIn (d + 1)) 3 (some s)
        pure ([⟨2, "1]".toList⟩] ++ [⟨3, "DESCRIBED: ".toList⟩, ⟨4, "blob: bytes: ".toList ++ dec f.length⟩] ++ [⟨2, "2]".toList⟩] ++ schema) : Res (List Line))
      pure (elementHead 0 (cordaId 1) 3 ++ ls) : Res (List Line))
    pure (page ls) : Res Str) = _
  cases elementLines (linesIn (d + 1)) 3 (some s) <;> rfl

/-- **C108, as dumped raw**: the schema dumper makes the same text of both, whatever the sizes of the texts. -/
theorem C108_dumped_raw (o o' : Obj) (h : form o = form o') (n n' : Node) (hs : serialise o = .ok [n]) (hs' : serialise o' = .ok [n']) :
    (dumpSchema .raw (Cursor.root n)).1 = (dumpSchema .raw (Cursor.root n')).1 := by
  obtain ⟨schema, h1, h2⟩ := C108_schema o o' h _ _ hs hs'
  obtain ⟨f, a, a', ks, ks', e1, e2⟩ := form_fingerprint h
  cases h1
  cases h2
  rw [C90_any _ _ rfl, C90_any _ _ rfl, e1, e2, raw_envelope, raw_envelope]

private def pointsTo (c : Int) : Obj := .comp "A".toList "fp".toList [.prim "c".toList true (.char c)]

/-- **C108 fails**: two objects of the same form; one is serialised, with the other the program has undefined behaviour. -/
theorem C108_violated : ∃ o o', form o = form o' ∧ (∃ ns, serialise o = .ok ns) ∧ ¬ (serialise o').Defined := by
  refine ⟨pointsTo 0, pointsTo 65, rfl, ?_, ?_⟩
  · exact ((C30_outcome (pointsTo 0)).1).2 ⟨by simp [pointsTo, NoCharPointers, NoCharPointersMembers, NoCharPointersMember], by decide⟩
  · rw [(C30_outcome (pointsTo 65)).2.2.1 (by decide) (by
      simp [pointsTo, NoCharPointers, NoCharPointersMembers, NoCharPointersMember, Prim.type])]
    exact fun h => h

/-! ### Examples -/

private def twoInts (a b : Int) : Obj :=
  .comp "A".toList "fp".toList [.prim "x".toList false (.int a), .obj "l".toList "L".toList false (.list "L".toList "fpL".toList [.prim (.int b)])]

/-- The form does not have the numbers. -/
example : form (twoInts 1 2) = form (twoInts 3 4)
    ∧ form (.list "L".toList "fpL".toList [.prim (.int 1), .prim (.int 2)]) = form (.list "L".toList "fpL".toList []) := ⟨rfl, rfl⟩

/-- A pointer to a number, and a null pointer. -/
example : form (.comp "A".toList "fp".toList [.prim "x".toList true (.int 1)]) = form (.comp "A".toList "fp".toList [.nullPrim "x".toList .int]) := rfl

/-- The number of objects in a list does count, also if it makes no difference to the schema. -/
example : form (.list "L".toList "fpL".toList [.obj (twoInts 1 2)]) ≠ form (.list "L".toList "fpL".toList []) := by
  simp [form, formElems, formElem]

/-- For which `C108_classes` is there. -/
example (k : Str × Str) : (classes (.list "L".toList "fpL".toList [.obj (twoInts 1 2)])).lookup k
    = (classes (.list "L".toList "fpL".toList [.obj (twoInts 1 2), .obj (twoInts 3 4)])).lookup k := by
  simp only [classes, classesElems, classesElem, twoInts, classesMembers, classesMember, List.lookup, List.cons_append, List.nil_append, List.append_nil]
  repeat' split
  all_goals simp_all

example : (serialise (twoInts 1 2)).Defined ∧ (serialise (twoInts 3 4)).Defined :=
  ⟨((C30_outcome _).2.1 (by simp [twoInts, NoCharPointers, NoCharPointersMembers, NoCharPointersMember, NoCharPointersElems, NoCharPointersElem])).1,
   ((C30_outcome _).2.1 (by simp [twoInts, NoCharPointers, NoCharPointersMembers, NoCharPointersMember, NoCharPointersElems, NoCharPointersElem])).1⟩

#print axioms C108_schema
#print axioms C108_classes
#print axioms C108_success_partial
#print axioms C108_read
#print axioms C108_dumped
#print axioms C108_dumped_raw
#print axioms C108_violated

end Corda.Props
