import Verif.Lemmas.Meaning
import Verif.Props.Readers

/-
C77: what an inspection makes of any payload.
-/

namespace Corda.Props
open Corda Prog Spec FProg

/-- What is asked of the types of a blob: plain fields, no name of a primitive or custom type, types of the same name or
the same descriptor are the same. -/
structure Sensible (ts : List TypeNotation) : Prop where
  plain : ∀ t ∈ ts, PlainType t
  notCustom : ∀ t ∈ ts, t.name ≠ publicKeyType
  names : SameNames ts
  descriptors : SameDescriptors ts

theorem Sound.sensible {lf : Bool} {ts : List TypeNotation} (h : Sound lf ts) : Sensible ts :=
  ⟨h.plain, h.notCustom, h.names, h.descriptors⟩

theorem find_same {ts us : List TypeNotation} (hs : ∀ t, t ∈ us ↔ t ∈ ts) (hd : SameDescriptors ts) (d : Str) :
    us.find? (fun u => d == u.descriptor) = ts.find? (fun u => u.descriptor == d) := by
  cases h1 : us.find? (fun u => d == u.descriptor) with
  | none =>
    symm
    rw [List.find?_eq_none]
    intro x hx
    have := List.find?_eq_none.mp h1 x ((hs x).mpr hx)
    simp only [beq_iff_eq] at this ⊢
    exact fun e => this e.symm
  | some u =>
    have hm := (hs u).mp (List.mem_of_find?_eq_some h1)
    have hp : d = u.descriptor := by have := List.find?_some h1; simpa using this
    cases h2 : ts.find? (fun u => u.descriptor == d) with
    | none =>
      have := List.find?_eq_none.mp h2 u hm
      simp [hp] at this
    | some v =>
      have hm' := List.mem_of_find?_eq_some h2
      have hp' : v.descriptor = d := by have := List.find?_some h2; simpa using this
      rw [hd u hm v hm' (by rw [← hp, hp'])]

/-- After the types of a blob have been processed by a new factory, it has the readers. -/
theorem stocked {lf : Bool} {ts : List TypeNotation} (hs : Sensible ts) {ls : List (List TypeNotation)}
    (hsub : ∀ t, t ∈ ls.flatten ↔ t ∈ ts) (ho : Ordered [publicKeyType] ls.flatten) :
    ∃ F', process lf (Schema.make ls) (Factory.empty.installCustom 0 publicKeyType) = (.ok (), F') ∧
      Stocked F' (Schema.make ls) ts ∧
      ∀ d, (∃ t ∈ ts, t.descriptor = d ∧ ∃ i, ReaderFor F' t.name i ∧ F'.byDesc.lookup d = some (some i)) ∨
        ((∀ t ∈ ts, t.descriptor ≠ d) ∧ F'.byDesc.lookup d = none) := by
  have hI := sane_inv (sane_install sane_empty 0 publicKeyType)
  rw [names_inspector] at hI
  have hr0 : ReaderFor (Factory.empty.installCustom 0 publicKeyType) publicKeyType 0 := by unfold ReaderFor; decide +kernel
  have ho0 : (Factory.empty.installCustom 0 publicKeyType).objs[0]? = some ⟨.custom 0, publicKeyType, []⟩ := by decide +kernel
  have hsub' : ∀ t ∈ ls.flatten, t ∈ ts := fun t ht => (hsub t).mp ht
  rcases run_all lf ls.flatten (fun t ht => hs.plain t (hsub' t ht)) hI with ⟨_, F', h1, h2, h3, h4, h5, h6⟩ | ⟨h1, -⟩
  · have hready : Ready F' ts := Inv.ready h3
      (by
        intro t ht
        rw [List.append_nil] at ht
        have ht := hsub' t (List.mem_reverse.mp ht)
        exact ⟨(hs.plain t ht).1, by simpa using hs.notCustom t ht⟩)
      (by
        intro k hk
        rw [List.mem_singleton]
        rintro rfl
        exact publicKey_not_readable hk)
      (by
        intro t ht u hu
        simp only [List.append_nil, List.mem_reverse] at ht hu
        exact hs.names t (hsub' t ht) u (hsub' u hu))
      ts (fun t ht => ⟨List.mem_append_left _ (List.mem_reverse.mpr ((hsub t).mpr ht)),
        List.mem_append_left _ (List.mem_reverse.mpr (List.mem_map_of_mem ((hsub t).mpr ht)))⟩)
    refine ⟨F', ?_, ⟨hready, ?_, ?_, hs.names, ?_, ?_⟩, fun d => ?_⟩
    · unfold process; rw [schema_make_types]; exact h1
    · intro k i hi
      rcases h3.only k i hi with hk | hk
      · rcases List.mem_append.mp hk with hk | hk
        · obtain ⟨u, hu, rfl⟩ := List.mem_map.mp (List.mem_reverse.mp hk)
          exact .inr (.inr ⟨u, hsub' u hu, rfl⟩)
        · exact .inl (List.mem_singleton.mp hk)
      · exact .inr (.inl hk)
    · intro i hi
      have : i = 0 := by
        have := hi.symm.trans (h5 _ _ hr0)
        simpa using this
      subst this
      exact ⟨_, 0, h4 _ _ ho0, rfl⟩
    · exact fun u hu => ⟨hs.notCustom u hu, (hs.plain u hu).1⟩
    · intro d
      rw [(C16_lookup ls d).2, find_same hsub hs.descriptors]
      rfl
    · rcases h6 d with ⟨t, hm, hd, hi⟩ | ⟨hno, hl⟩
      · exact .inl ⟨t, hsub' t hm, hd, hi⟩
      · refine .inr ⟨fun t ht => hno t ((hsub t).mpr ht), ?_⟩
        rw [hl]
        rfl
  · exact absurd ho h1

/-- Going to the payload, doing what the reader does, and coming back. -/
theorem dumpPayload_is {cu : Customs} (hcu : ∀ k s n, Scoped (cu k s n)) {lf : Bool}
    {F : Factory} {s : Schema} {i : Nat} {v st tr : Node} {c : Cursor}
    {r : Res Str} (hc : c.cur = some (envelopeTree v st tr)) {fuel : Nat} (hf : c.fuel + 1 = fuel)
    (h : Is (Pos [v, st, tr] 0) (dump cu lf F s fuel i (some parsedName)) Val.dump
      (labelled (some parsedName) <$> r) (Pos [v, st, tr] 1)) :
    dumpPayload cu lf F s i c =
      (r.bind (fun t => .ok ("{ Parsed : ".toList ++ t ++ " }".toList)), c) := by
  have hsc : Scoped (do
        let v ← dump cu lf F s fuel i (some parsedName)
        pure (v.dump ++ mapClose) : Prog Str) := scoped_bind (scoped_dump hcu _ _ _) fun _ => scoped_pure _
  obtain ⟨pr, cu', re, up⟩ := c
  simp only at hc
  subst hc
  subst hf
  unfold dumpPayload
  unfold autoEnter
  refine scope_back (c1 := ⟨[.mk (.ulong (cordaId 1)) []], some (.mk .list [v, st, tr]), [], (pr, .described, re) :: up⟩)
    (c' := ⟨[.mk (.ulong (cordaId 1)) []], some (.mk .list [v, st, tr]), [], (pr, .described, re) :: up⟩) rfl rfl ?_
    ⟨rfl, rfl, fun _ => rfl⟩
  rw [show attestList = attest .list "Expected a List" from rfl, bind_of_ok (attest_ok (by rfl)),
    bind_of_ok (show look Cursor.getList _ = (.ok 3, _) from rfl), if_pos rfl]
  have := autoEnter_eq (nx := false) hsc
    (c := ⟨[.mk (.ulong (cordaId 1)) []], some (.mk .list [v, st, tr]), [], (pr, .described, re) :: up⟩) rfl
  unfold autoEnter at this
  refine this.trans ?_
  have h1 := is_bind (g := id) (R := fun _ => True) (h := fun t => .ok (t ++ mapClose)) h
    (k := fun v => pure (v.dump ++ mapClose)) (fun v _ => (is_pure id (v.dump ++ mapClose)).post fun _ _ => trivial)
  have h2 := (h1 (⟨[], none, [v, st, tr], ([.mk (.ulong (cordaId 1)) []], .list, []) :: (pr, .described, re) :: up⟩ : Cursor).next.2
    ⟨rfl, rfl⟩).1
  refine Prod.ext ?_ rfl
  refine Eq.trans ?_ (h2.trans ?_)
  · cases hx : ((dump cu lf F s (_ + 1) i (some parsedName) >>= fun v => pure (v.dump ++ mapClose) : Prog Str)
      (⟨[], none, [v, st, tr], ([.mk (.ulong (cordaId 1)) []], .list, []) :: (pr, .described, re) :: up⟩ : Cursor).next.2).1 <;>
      exact hx
  · cases r with
    | throw m => rfl
    | ub m => rfl
    | ok t =>
      have e1 : parsedName ++ " : ".toList = "{ Parsed : ".toList := by decide +kernel
      have e2 : mapClose = " }".toList := by decide +kernel
      simp only [Res.map_eq, Res.bind, Res.bind_eq]
      rw [e2, ← e1]
      rfl

/-- **C77.** Take any list of type descriptions that make sense and that the library puts into an order in which every
type follows those it needs; and any payload with a descriptor, whatever it holds.  Put both into an envelope as the
library writes it.  Then inspecting that blob does exactly what `payloadText` says, and leaves the cursor where it was. -/
theorem C77_inspect_any (leftFirst : Bool) (ds : List TypeDesc) (ts : List TypeNotation)
    (hm : ds.map TypeDesc.make = ts.map Res.ok) (hs : Sensible ts) (ls : List (List TypeNotation))
    (hl : insertAllR TypeNotation.dependsOn ts = .ok ls) (ho : Ordered [publicKeyType] ls.flatten)
    (d : Str) (rest : List Node) (n : Node)
    (hw : envelopeProton [payloadTree d rest] (schemaProton (ds.map TypeDesc.proton)) = [n]) (c : Cursor)
    (hc : c.cur = some n) :
    inspect leftFirst c = (payloadText leftFirst ts d (payloadTree d rest), c) := by
  have hperm := (C11_schema_types ts ls hl).1
  have hsub : ∀ t, t ∈ ls.flatten ↔ t ∈ ts := fun t => hperm.mem_iff
  have hr : readEnvelope c = (.ok (Schema.make ls, d), c) := by
    have := C22_envelope_round_trip ds ts d rest hm c n hw hc
    rw [this, hl]
    rfl
  obtain ⟨st, tr, hcur⟩ : ∃ st tr, c.cur = some (envelopeTree (payloadTree d rest) st tr) := by
    have : ds.map TypeDesc.proton = (ds.map TypeDesc.tree).map fun n => [n] := by
      rw [List.map_map]
      exact List.map_congr_left fun d _ => TypeDesc.proton_eq d
    rw [this, schemaProton_eq, envelopeProton_eq] at hw
    simp only [List.cons.injEq, and_true] at hw
    exact ⟨_, _, by rw [hc, ← hw]⟩
  obtain ⟨F', h1, h2, h3⟩ := stocked (lf := leftFirst) hs hsub ho
  unfold inspect dumpContents
  rw [hr]
  simp only [h1]
  rcases h3 d with ⟨t, ht, hd, i, hi, hlook⟩ | ⟨hno, hlook⟩
  · simp only [Factory.findDesc, hlook, Option.join, Option.bind_some, id]
    have hin := dump_is (lf := leftFirst) h2 (c.fuel + 1) t.name i (some parsedName) [payloadTree d rest, st, tr] 0 hi
    rw [dumpPayload_is (fun _ _ => scoped_publicKeyDump) hcur rfl hin]
    have hfind : ts.find? (fun u => u.descriptor == d) = some t := by
      cases hf : ts.find? (fun u => u.descriptor == d) with
      | none => have := List.find?_eq_none.mp hf t ht; simp [hd] at this
      | some u =>
        have hm' := List.mem_of_find?_eq_some hf
        have hp' : u.descriptor = d := by have := List.find?_some hf; simpa using this
        rw [hs.descriptors u hm' t ht (by rw [hp', hd])]
    unfold payloadText
    rw [hfind]
    have hdep : textAs leftFirst ts (c.fuel + 1) true t.name (some (payloadTree d rest)) =
        textAs leftFirst ts (payloadTree d rest).height true t.name (some (payloadTree d rest)) := by
      refine textAs_depth _ _ _ _ _ ?_ (Nat.le_refl _)
      unfold Cursor.fuel
      rw [hcur]
      have := height_kids (v := .list) (ks := [payloadTree d rest, st, tr]) (k := payloadTree d rest) (by simp)
      have := height_kids (v := .described) (ks := [.mk (.ulong (cordaId 1)) [], .mk .list [payloadTree d rest, st, tr]])
        (k := .mk .list [payloadTree d rest, st, tr]) (by simp)
      simp only [envelopeTree, element, depthOf]
      omega
    refine Prod.ext ?_ rfl
    exact congrArg (fun r : Res Str => r.bind fun t => .ok ("{ Parsed : ".toList ++ t ++ " }".toList)) hdep
  · simp only [Factory.findDesc, hlook, Option.join]
    have hfind : ts.find? (fun u => u.descriptor == d) = none := by
      rw [List.find?_eq_none]
      intro u hu
      simpa using hno u hu
    unfold payloadText
    rw [hfind]
    rfl

/-- The descriptions make these types, which make sense and can be put in order. -/
structure Describe (ds : List TypeDesc) (ts : List TypeNotation) : Prop where
  made : ds.map TypeDesc.make = ts.map Res.ok
  sensible : Sensible ts
  sorted : ∃ ls, insertAllR TypeNotation.dependsOn ts = .ok ls ∧ Ordered [publicKeyType] ls.flatten

/-- The same for a blob by itself. -/
theorem C77_blob (leftFirst : Bool) (ds : List TypeDesc) (ts : List TypeNotation) (h : Describe ds ts) (d : Str)
    (rest : List Node) :
    inspect leftFirst (blobOf ds (payloadTree d rest)) =
      (payloadText leftFirst ts d (payloadTree d rest), blobOf ds (payloadTree d rest)) := by
  obtain ⟨ls, hl, ho⟩ := h.sorted
  refine C77_inspect_any leftFirst ds ts h.made h.sensible ls hl ho d rest _ ?_ _ rfl
  have : ds.map TypeDesc.proton = (ds.map TypeDesc.tree).map fun n => [n] := by
    rw [List.map_map]
    exact List.map_congr_left fun d _ => TypeDesc.proton_eq d
  rw [this, schemaProton_eq, envelopeProton_eq]

theorem find_descriptor {ts : List TypeNotation} (h : SameDescriptors ts) {u : TypeNotation} (hu : u ∈ ts) :
    ts.find? (fun v => v.descriptor == u.descriptor) = some u := by
  cases hf : ts.find? (fun v => v.descriptor == u.descriptor) with
  | none => have := List.find?_eq_none.mp hf u hu; simp at this
  | some v =>
    have hm' := List.mem_of_find?_eq_some hf
    have hp' : v.descriptor = u.descriptor := by have := List.find?_some hf; simpa using this
    rw [h v hm' u hu hp']

theorem find_comp {ts : List TypeNotation} (h : SameDescriptors ts) {c : Composite} (hc : .comp c ∈ ts) :
    ts.find? (fun v => v.descriptor == c.descriptor) = some (.comp c) := find_descriptor h hc

theorem find_restr {ts : List TypeNotation} (h : SameDescriptors ts) {r : Restricted} (hr : .restr r ∈ ts) :
    ts.find? (fun v => v.descriptor == r.descriptor) = some (.restr r) := find_descriptor h hr

theorem named_comp {ts : List TypeNotation} (h : SameNames ts) {c : Composite} (hc : .comp c ∈ ts) :
    typeNamed ts c.name = some (.comp c) := typeNamed_eq h hc

theorem named_restr {ts : List TypeNotation} (h : SameNames ts) {r : Restricted} (hr : .restr r ∈ ts) :
    typeNamed ts r.name = some (.restr r) := typeNamed_eq h hr

/-- An object of a class: the text of its properties. -/
theorem payload_object {lf : Bool} {ts : List TypeNotation} (hs : Sensible ts) {c : Composite} (hc : .comp c ∈ ts)
    (ns : List Node) (k : Nat) (hk : (described c.descriptor (.mk .list ns)).height ≤ k + 1) :
    payloadText lf ts c.descriptor (described c.descriptor (.mk .list ns)) =
      (all ((c.fields.zip c.fields).zipIdx.map fun x =>
        match fieldTypeName x.1.2 with
        | some t => (colon x.1.1.name) <$> textAs lf ts k true t (nth ns x.2)
        | none => .ub "no type")).bind fun l => .ok ("{ Parsed : ".toList ++ braces l ++ " }".toList) := by
  unfold payloadText
  have hne : c.name ≠ keyType := hs.notCustom _ hc
  have hnr : c.name ∉ readable := (hs.plain _ hc).1
  rw [find_comp hs.descriptors hc]
  simp only [TypeNotation.name]
  rw [textAs_depth (described c.descriptor (.mk .list ns)).height (k + 1) true c.name (some (described c.descriptor (.mk .list ns))) (Nat.le_refl _) hk, textAs, if_neg hne, (primNamed_eq c.name).2.mpr hnr,
    named_comp hs.names hc]
  have hv : valueOf (some (described c.descriptor (.mk .list ns))) ≠ some .null := by simp [valueOf, described, Node.val]
  simp only [if_neg hv]
  have h1 : describedParts (some (described c.descriptor (.mk .list ns))) = .ok [.mk (.symbol c.descriptor) [], .mk .list ns] := rfl
  have h2 : symbolOf (nth [.mk (.symbol c.descriptor) [], .mk .list ns] 0) = .ok c.descriptor := rfl
  have h3 : typeWith ts c.descriptor = .ok (.comp c) := by
    unfold typeWith; rw [find_comp hs.descriptors hc]
  have h4 : listParts (nth [.mk (.symbol c.descriptor) [], .mk .list ns] 1) = .ok ns := rfl
  have hobj : objectTexts ts (textAs lf ts k) c (some (described c.descriptor (.mk .list ns))) =
      all ((c.fields.zip c.fields).zipIdx.map fun x =>
        match fieldTypeName x.1.2 with
        | some t => (colon x.1.1.name) <$> textAs lf ts k true t (nth ns x.2)
        | none => .ub "no type") := by
    unfold objectTexts
    rw [h1]
    simp only [Res.bind_eq, Res.bind, h2, h3, h4, if_true]
    rfl
  rw [hobj]
  generalize all _ = r
  cases r <;> rfl

/-- Objects with the same parts, as far as there are properties, look the same. -/
theorem same_parts (leftFirst : Bool) (ds : List TypeDesc) (ts : List TypeNotation) (h : Describe ds ts) (c : Composite)
    (hc : .comp c ∈ ts) (ns ms : List Node) (he : ∀ i < c.fields.length, nth ns i = nth ms i) :
    (inspect leftFirst (blobOf ds (described c.descriptor (.mk .list ns)))).1 =
      (inspect leftFirst (blobOf ds (described c.descriptor (.mk .list ms)))).1 := by
  have e : ∀ ns, inspect leftFirst (blobOf ds (described c.descriptor (.mk .list ns))) = _ :=
    fun ns => C77_blob leftFirst ds ts h c.descriptor [.mk .list ns]
  rw [e, e]
  have p := fun ns => payload_object (lf := leftFirst) h.sensible hc ns
    ((described c.descriptor (.mk .list ns)).height + (described c.descriptor (.mk .list ms)).height)
  show payloadText _ _ _ (described c.descriptor (.mk .list ns)) = payloadText _ _ _ (described c.descriptor (.mk .list ms))
  have q1 := payload_object (lf := leftFirst) h.sensible hc ns
    ((described c.descriptor (.mk .list ns)).height + (described c.descriptor (.mk .list ms)).height) (by omega)
  have q2 := payload_object (lf := leftFirst) h.sensible hc ms
    ((described c.descriptor (.mk .list ns)).height + (described c.descriptor (.mk .list ms)).height) (by omega)
  rw [q1, q2]
  congr 1
  refine all_congr fun x hx => ?_
  have hlt : x.2 < c.fields.length := by
    have := (List.mem_zipIdx (x := x.1) (i := x.2) hx).2.1
    simpa using this
  rw [he _ hlt]

/-- **C77, more values than properties.** What follows is ignored: an object with more values than its class has
properties is shown like the one without the surplus. -/
theorem C77_surplus (leftFirst : Bool) (ds : List TypeDesc) (ts : List TypeNotation) (h : Describe ds ts) (c : Composite)
    (hc : .comp c ∈ ts) (ns more : List Node) (hn : ns.length = c.fields.length) :
    (inspect leftFirst (blobOf ds (described c.descriptor (.mk .list (ns ++ more))))).1 =
      (inspect leftFirst (blobOf ds (described c.descriptor (.mk .list ns)))).1 := by
  refine same_parts leftFirst ds ts h c hc _ _ fun i hi => ?_
  rw [nth_lt (by simp; omega), nth_lt (by omega), List.getElem?_append_left (by omega)]

/-- **C77, fewer values than properties.** The last value stands for all that are missing: an object with fewer values
than its class has properties is shown like the one in which the last value is repeated. -/
theorem C77_missing (leftFirst : Bool) (ds : List TypeDesc) (ts : List TypeNotation) (h : Describe ds ts) (c : Composite)
    (hc : .comp c ∈ ts) (ns : List Node) (last : Node) (k : Nat) :
    (inspect leftFirst (blobOf ds (described c.descriptor (.mk .list (ns ++ [last]))))).1 =
      (inspect leftFirst (blobOf ds (described c.descriptor (.mk .list (ns ++ [last] ++ List.replicate k last))))).1 := by
  refine same_parts leftFirst ds ts h c hc _ _ fun i hi => ?_
  have hl : (ns ++ [last]).length = ns.length + 1 := by simp
  by_cases hlt : i < ns.length + 1
  · rw [nth_lt (by omega), nth_lt (by rw [List.length_append]; omega),
      List.getElem?_append_left (l₁ := ns ++ [last]) (l₂ := List.replicate k last) (by omega)]
  · unfold nth
    have h1 : min i ((ns ++ [last]).length - 1) = ns.length := by omega
    have h2 : (ns ++ [last])[ns.length]? = some last := by simp
    rw [h1, h2]
    generalize hj : min i ((ns ++ [last] ++ List.replicate k last).length - 1) = j
    simp only [List.length_append, List.length_replicate, List.length_cons, List.length_nil] at hj
    by_cases hjl : j < ns.length + 1
    · have : j = ns.length := by omega
      rw [this, List.getElem?_append_left (by omega), h2]
    · rw [List.getElem?_append_right (by omega), List.getElem?_replicate, if_pos (by omega)]

/-- One that fails makes all fail. -/
theorem all_not_ok {α : Type} {l : List (Res α)} {r : Res α} (hr : r ∈ l) (hn : ∀ a, r ≠ .ok a) (as : List α) : all l ≠ .ok as := by
  induction l generalizing as with
  | nil => simp at hr
  | cons x l ih =>
    rw [all]
    rcases List.mem_cons.mp hr with rfl | hr'
    · cases r with
      | ok a => exact absurd rfl (hn a)
      | throw m => simp
      | ub m => simp
    · cases x with
      | throw m => simp
      | ub m => simp
      | ok a =>
        simp only [Res.bind_eq, Res.bind]
        cases hl : all l with
        | ok bs => exact absurd hl (ih hr' bs)
        | throw m => simp
        | ub m => simp

/-- **C77, floating point numbers.** A blob with an object of a class that has a property of type `float` is never shown,
whatever the object holds. -/
theorem C77_float (leftFirst : Bool) (ds : List TypeDesc) (ts : List TypeNotation) (h : Describe ds ts) (c : Composite)
    (hc : .comp c ∈ ts) (f : Field) (hf : f ∈ c.fields) (ht : fieldTypeName f = some "float".toList) (ns : List Node) (s : Str) :
    (inspect leftFirst (blobOf ds (described c.descriptor (.mk .list ns)))).1 ≠ .ok s := by
  have e : inspect leftFirst (blobOf ds (described c.descriptor (.mk .list ns))) = _ :=
    C77_blob leftFirst ds ts h c.descriptor [.mk .list ns]
  rw [e]
  show payloadText _ _ _ (described c.descriptor (.mk .list ns)) ≠ _
  rw [payload_object (lf := leftFirst) h.sensible hc ns ((described c.descriptor (.mk .list ns)).height) (by omega)]
  intro hok
  obtain ⟨i, hi, rfl⟩ := List.mem_iff_getElem.mp hf
  have hmem : ((c.fields[i], c.fields[i]), i) ∈ (c.fields.zip c.fields).zipIdx := by
    rw [List.mem_zipIdx_iff_getElem?]
    simp only [List.getElem?_zip_eq_some]
    exact ⟨List.getElem?_eq_getElem hi, List.getElem?_eq_getElem hi⟩
  have hfloat : ∀ k b n, textAs leftFirst ts (k + 1) b "float".toList n = .throw "This is very bad" := by
    intro k b n
    have e1 : ("float".toList : Str) ≠ keyType := by decide +kernel
    have e2 : primNamed "float".toList = some .float := by decide +kernel
    rw [textAs, if_neg e1, e2]
    rfl
  revert hok
  generalize hall : (all ((c.fields.zip c.fields).zipIdx.map fun x =>
        match fieldTypeName x.1.2 with
        | some t => (colon x.1.1.name) <$> textAs leftFirst ts (described c.descriptor (.mk .list ns)).height true t (nth ns x.2)
        | none => .ub "no type")) = r
  cases r with
  | throw m => simp
  | ub m => simp
  | ok as =>
    exfalso
    refine all_not_ok (List.mem_map_of_mem hmem) ?_ as hall
    intro a ha
    simp only [ht] at ha
    obtain ⟨k, hk⟩ : ∃ k, (described c.descriptor (.mk .list ns)).height = k + 1 :=
      ⟨_, (Nat.succ_pred_eq_of_pos (height_pos _)).symm⟩
    rw [hk, hfloat] at ha
    cases ha

/-- **C77, public keys in lists.** A list of public keys that is not empty is never shown; the inspection throws. -/
theorem C77_keys_in_lists (leftFirst : Bool) (ds : List TypeDesc) (ts : List TypeNotation) (h : Describe ds ts)
    (r : Restricted) (hr : .restr r ∈ ts) (hk : r.kind = .list publicKeyType ∨ r.kind = .array publicKeyType)
    (e : Node) (es : List Node) :
    (inspect leftFirst (blobOf ds (described r.descriptor (.mk .list (e :: es))))).1 = .throw "NOT IMPLEMENTED" := by
  have e0 : inspect leftFirst (blobOf ds (described r.descriptor (.mk .list (e :: es)))) = _ :=
    C77_blob leftFirst ds ts h r.descriptor [.mk .list (e :: es)]
  rw [e0]
  show payloadText _ _ _ (described r.descriptor (.mk .list (e :: es))) = _
  unfold payloadText
  have hs := h.sensible
  have hne : r.name ≠ keyType := hs.notCustom _ hr
  have hnr : r.name ∉ readable := (hs.plain _ hr).1
  rw [find_restr hs.descriptors hr]
  simp only [TypeNotation.name]
  have hd := height_described (d := r.descriptor) (a := .list) (ks := e :: es) (k := e) List.mem_cons_self
  obtain ⟨k, hk'⟩ : ∃ k, (described r.descriptor (.mk .list (e :: es))).height = k + 2 :=
    ⟨(described r.descriptor (.mk .list (e :: es))).height - 2, by omega⟩
  have h2 : textOf (nth [.mk (.symbol r.descriptor) [], .mk .list (e :: es)] 0) = .ok r.descriptor := rfl
  have h3 : typeWith ts r.descriptor = .ok (.restr r) := by
    unfold typeWith; rw [find_restr hs.descriptors hr]
  have hb : body ts (some (described r.descriptor (.mk .list (e :: es)))) = .ok (some (.mk .list (e :: es))) := by
    unfold body
    rw [show describedParts (some (described r.descriptor (.mk .list (e :: es)))) =
      .ok [.mk (.symbol r.descriptor) [], .mk .list (e :: es)] from rfl]
    simp only [Res.bind_eq, Res.bind, h2, h3]
    rfl
  have hkey : textAs leftFirst ts (k + 1) false publicKeyType (some e) = .throw "NOT IMPLEMENTED" := by
    rw [textAs, if_pos (show publicKeyType = keyType from rfl)]
    rfl
  have hl : listTexts ts (textAs leftFirst ts (k + 1)) publicKeyType (some (described r.descriptor (.mk .list (e :: es)))) =
      .throw "NOT IMPLEMENTED" := by
    unfold listTexts
    rw [hb]
    simp only [Res.bind_eq, Res.bind]
    rw [show listElements (some (.mk .list (e :: es))) = e :: es from rfl, List.map_cons, hkey, all]
    rfl
  rw [hk', textAs, if_neg hne, (primNamed_eq r.name).2.mpr hnr, named_restr hs.names hr]
  rcases hk with hk | hk <;> simp only [hk, hl] <;> rfl

/-! ### Undefined behaviour -/

/-- Everything the types mention is there. -/
structure Closed (ts : List TypeNotation) : Prop where
  fields : ∀ c, .comp c ∈ ts → ∀ f ∈ c.fields, ∃ t, fieldTypeName f = some t ∧ Known ts t
  elems : ∀ r l, .restr r ∈ ts → r.kind = .list l ∨ r.kind = .array l → Known ts l
  pairs : ∀ r k v, .restr r ∈ ts → r.kind = .map k v → Known ts k ∧ Known ts v

theorem zip_mem {α β : Type} {l : List α} {m : List β} (h : l.length = m.length) {a : α} (ha : a ∈ l) : ∃ b, (a, b) ∈ l.zip m := by
  obtain ⟨i, hi, rfl⟩ := List.mem_iff_getElem.mp ha
  have hi' : i < m.length := h ▸ hi
  exact ⟨m[i], List.mem_iff_getElem.mpr ⟨i, by rw [List.length_zip]; omega, by simp⟩⟩

theorem Stocked.closed {F : Factory} {s : Schema} {ts : List TypeNotation} (h : Stocked F s ts) : Closed ts := by
  refine ⟨fun c hc f hf => ?_, fun r l hr hk => ?_, fun r k v hr hk => ?_⟩
  · obtain ⟨i, o, -, -, hb⟩ := h.ready.types _ hc
    obtain ⟨-, hlen, hg⟩ := hb
    obtain ⟨j, hj⟩ := zip_mem hlen.symm hf
    obtain ⟨t, ht, hr⟩ := hg f j hj
    exact ⟨t, resolved_of_named.mpr ht, h.only t j hr⟩
  · obtain ⟨i, o, -, -, hb⟩ := h.ready.types _ hr
    simp only [Built] at hb
    rcases hk with hk | hk <;> simp only [hk] at hb <;> obtain ⟨-, j, -, hj⟩ := hb <;> exact h.only l j hj
  · obtain ⟨i, o, -, -, hb⟩ := h.ready.types _ hr
    simp only [Built, hk] at hb
    obtain ⟨-, j, j', -, hj, hj'⟩ := hb
    exact ⟨h.only k j hj, h.only v j' hj'⟩

theorem Describe.closed {ds : List TypeDesc} {ts : List TypeNotation} (h : Describe ds ts) : Closed ts := by
  obtain ⟨ls, hl, ho⟩ := h.sorted
  have hperm := (C11_schema_types ts ls hl).1
  obtain ⟨F', -, h2, -⟩ := stocked (lf := true) h.sensible (fun t => hperm.mem_iff) ho
  exact Stocked.closed h2

theorem all_ub {α : Type} {l : List (Res α)} (h : (all l).IsUB) : ∃ r ∈ l, r.IsUB := by
  induction l with
  | nil => cases h
  | cons x l ih =>
    rw [all] at h
    cases x with
    | throw m => cases h
    | ub m => exact ⟨_, List.mem_cons_self, trivial⟩
    | ok a =>
      simp only [Res.bind_eq, Res.bind] at h
      cases hl : all l with
      | ok bs => rw [hl] at h; cases h
      | throw m => rw [hl] at h; cases h
      | ub m =>
        obtain ⟨r, h1, h2⟩ := ih (by rw [hl]; trivial)
        exact ⟨r, List.mem_cons_of_mem _ h1, h2⟩

theorem map_ub {α β : Type} {r : Res α} {f : α → β} (h : (f <$> r).IsUB) : r.IsUB := by
  cases r with
  | ok a => cases h
  | throw m => cases h
  | ub m => trivial

theorem text_defined (n : Option Node) : ¬ (textOf n).IsUB := by
  unfold textOf
  split <;> exact id

theorem described_defined (n : Option Node) : ¬ (describedParts n).IsUB := by
  unfold describedParts
  split <;> exact id

theorem typeWith_defined (ts : List TypeNotation) (d : Str) : ¬ (typeWith ts d).IsUB := by
  unfold typeWith
  split <;> exact id

theorem body_defined (ts : List TypeNotation) (n : Option Node) : ¬ (body ts n).IsUB := by
  unfold body
  have h1 := described_defined n
  cases hx1 : describedParts n with
  | throw m => exact id
  | ub m => rw [hx1] at h1; exact absurd trivial h1
  | ok ks =>
    simp only [Res.bind_eq, Res.bind]
    have h2 := text_defined (nth ks 0)
    cases hx2 : textOf (nth ks 0) with
    | throw m => exact id
    | ub m => rw [hx2] at h2; exact absurd trivial h2
    | ok d =>
      simp only
      have h3 := typeWith_defined ts d
      cases hx3 : typeWith ts d with
      | throw m => exact id
      | ub m => rw [hx3] at h3; exact absurd trivial h3
      | ok u => exact id

theorem enumText_defined (n : Option Node) : ¬ (enumText n).IsUB := by
  unfold enumText
  have h1 := described_defined n
  cases hx1 : describedParts n with
  | throw m => exact id
  | ub m => rw [hx1] at h1; exact absurd trivial h1
  | ok ks =>
    simp only [Res.bind_eq, Res.bind]
    split
    · split <;> exact id
    · have h2 := text_defined (nth ks 0)
      cases hx2 : textOf (nth ks 0) with
      | throw m => exact id
      | ub m => rw [hx2] at h2; exact absurd trivial h2
      | ok d => exact text_defined _

theorem keyText_defined (named : Bool) (n : Option Node) : ¬ (keyText named n).IsUB := by
  unfold keyText
  split
  · have h1 := described_defined n
    cases hx1 : describedParts n with
    | throw m => exact id
    | ub m => rw [hx1] at h1; exact absurd trivial h1
    | ok ks =>
      simp only [Res.bind_eq, Res.bind]
      split <;> exact id
  · exact id

theorem primText_defined (p : PrimReader) (n : Option Node) : ¬ (primText p n).IsUB := by
  cases p <;> unfold primText <;> (try exact id)
  dsimp only
  split <;> exact id

theorem misfit_kid {ts : List TypeNotation} {k : Node} {a : Atom} {ks : List Node} (hk : k ∈ ks) (h : Misfit ts k) :
    Misfit ts (.mk a ks) := by
  obtain ⟨m, c, c', ls, h1, h2⟩ := h
  exact ⟨m, c, c', ls, .deeper _ _ _ hk h1, h2⟩

theorem textAs_ub {lf : Bool} {ts : List TypeNotation} (hc : Closed ts) (hn : SameNames ts)
    (hd : ∀ u ∈ ts, u.name ∉ readable ∧ u.name ≠ keyType) :
    ∀ (k : Nat) (named : Bool) (t : Str) (n : Option Node), depthOf n ≤ k → Known ts t → (textAs lf ts k named t n).IsUB →
      ∃ m, n = some m ∧ Misfit ts m := by
  intro k
  induction k with
  | zero => intro named t n h; have := depth_pos n; omega
  | succ k ih =>
    intro named t n hk ht hub
    rw [textAs] at hub
    by_cases hkey : t = keyType
    · rw [if_pos hkey] at hub
      exact absurd hub (keyText_defined _ _)
    · rw [if_neg hkey] at hub
      cases hp : primNamed t with
      | some p => rw [hp] at hub; exact absurd hub (primText_defined _ _)
      | none =>
        rw [hp] at hub
        obtain ⟨u, hu, rfl⟩ : ∃ u ∈ ts, u.name = t := by
          rcases ht with h | h | h
          · exact absurd h hkey
          · exact absurd h ((primNamed_eq t).2.mp hp)
          · exact h
        rw [typeNamed_eq hn hu] at hub
        cases u with
        | comp c =>
          simp only at hub
          split at hub
          · cases hub
          · replace hub := map_ub hub
            unfold objectTexts at hub
            cases hdp : describedParts n with
            | throw m => rw [hdp] at hub; cases hub
            | ub m => have := described_defined n; rw [hdp] at this; exact absurd trivial this
            | ok ks =>
              have hnode := described_some hdp
              rw [hdp] at hub
              simp only [Res.bind_eq, Res.bind] at hub
              cases hs : symbolOf (nth ks 0) with
              | throw m => rw [hs] at hub; cases hub
              | ub m => unfold symbolOf at hs; split at hs <;> cases hs
              | ok d =>
                rw [hs] at hub
                simp only at hub
                cases hw : typeWith ts d with
                | throw m => rw [hw] at hub; cases hub
                | ub m => have := typeWith_defined ts d; rw [hw] at this; exact absurd trivial this
                | ok u =>
                  rw [hw] at hub
                  have hu' : u ∈ ts ∧ u.descriptor = d := by
                    unfold typeWith at hw
                    split at hw
                    · rename_i v hf
                      cases hw
                      exact ⟨List.mem_of_find?_eq_some hf, by have := List.find?_some hf; simpa using this⟩
                    · cases hw
                  cases u with
                  | restr r => cases hub
                  | comp c' =>
                    simp only at hub
                    split at hub
                    · rename_i hlen
                      cases hl : listParts (nth ks 1) with
                      | throw m => rw [hl] at hub; cases hub
                      | ub m => unfold listParts at hl; split at hl <;> cases hl
                      | ok ns =>
                        rw [hl] at hub
                        simp only at hub
                        obtain ⟨r, hr, hrub⟩ := all_ub hub
                        obtain ⟨x, hx, rfl⟩ := List.mem_map.mp hr
                        have hxf : x.1.2 ∈ c.fields := by
                          have h1 := (List.mem_zipIdx (x := x.1) (i := x.2) hx).2.2
                          have : x.1 ∈ c'.fields.zip c.fields := by rw [h1]; exact List.getElem_mem _
                          exact (List.of_mem_zip this).2
                        obtain ⟨ft, hft, hkn⟩ := hc.fields c hu x.1.2 hxf
                        simp only [hft] at hrub
                        have hbody := list_some hl
                        obtain ⟨m, hm, hmis⟩ := ih true ft (nth ns x.2) (by
                          have h1 := depth_part (a := .described) (j := x.2) hbody
                          rw [hnode] at hk
                          simp only [depthOf] at hk
                          omega) hkn (map_ub hrub)
                        refine ⟨_, hnode, ?_⟩
                        exact misfit_kid (nth_mem hbody) (misfit_kid (a := .list) (nth_mem hm) hmis)
                    · rename_i hlen
                      refine ⟨_, hnode, _, c, c', ks, .here _, rfl, hu, hu'.1, hlen, ?_⟩
                      have : c'.descriptor = d := hu'.2
                      rw [this]
                      exact hs
        | restr r =>
          have lists : ∀ l, (r.kind = .list l ∨ r.kind = .array l) → (listTexts ts (textAs lf ts k) l n).IsUB →
              ∃ m, n = some m ∧ Misfit ts m := by
            intro l hkind hub
            unfold listTexts at hub
            cases hb : body ts n with
            | throw m => rw [hb] at hub; cases hub
            | ub m => have := body_defined ts n; rw [hb] at this; exact absurd trivial this
            | ok b =>
              rw [hb] at hub
              obtain ⟨ks, hnode, rfl⟩ := body_some hb
              simp only [Res.bind_eq, Res.bind] at hub
              obtain ⟨x, hx, hxub⟩ := all_ub hub
              obtain ⟨e, he, rfl⟩ := List.mem_map.mp hx
              cases hn1 : nth ks 1 with
              | none => rw [hn1] at he; simp [listElements, valueOf] at he
              | some m =>
                rw [hn1] at he
                rw [listElements_kids (n := m) (List.ne_nil_of_mem he)] at he
                cases m with
                | mk a ls =>
                  have h1 := height_kids (v := a) (ks := ls) he
                  have h2 := height_kids (v := .described) (nth_mem hn1)
                  rw [hnode] at hk
                  simp only [depthOf] at hk
                  obtain ⟨m, hm, hmis⟩ := ih false l (some e) (by simp only [depthOf]; omega) (hc.elems r l hu hkind) hxub
                  cases hm
                  exact ⟨_, hnode, misfit_kid (nth_mem hn1) (misfit_kid (a := a) he hmis)⟩
          simp only at hub
          cases hkind : r.kind with
          | enum cs => simp only [hkind] at hub; exact absurd hub (enumText_defined n)
          | list l => simp only [hkind] at hub; exact lists l (.inl hkind) (map_ub hub)
          | array l => simp only [hkind] at hub; exact lists l (.inr hkind) (map_ub hub)
          | map a b =>
            simp only [hkind] at hub
            replace hub := map_ub hub
            unfold mapTexts at hub
            cases hb : body ts n with
            | throw m => rw [hb] at hub; cases hub
            | ub m => have := body_defined ts n; rw [hb] at this; exact absurd trivial this
            | ok bd =>
              rw [hb] at hub
              obtain ⟨ks, hnode, rfl⟩ := body_some hb
              simp only [Res.bind_eq, Res.bind] at hub
              obtain ⟨x, hx, hxub⟩ := all_ub hub
              obtain ⟨i, hi, rfl⟩ := List.mem_map.mp hx
              rw [List.mem_range] at hi
              have hne : mapParts (nth ks 1) ≠ [] := by intro e; rw [e] at hi; simp at hi
              cases hn1 : nth ks 1 with
              | none => rw [hn1] at hne; simp [mapParts, valueOf] at hne
              | some m =>
                rw [hn1] at hne hxub
                rw [mapParts_kids hne] at hxub
                cases m with
                | mk at_ ls =>
                  simp only [Node.kids] at hxub
                  have sub : ∀ j t, Known ts t → (textAs lf ts k false t (nth ls j)).IsUB → ∃ m, n = some m ∧ Misfit ts m := by
                    intro j t hkn hxub
                    obtain ⟨m, hm, hmis⟩ := ih false t (nth ls j) (by
                      have h1 := depth_part (a := .described) (j := j) hn1
                      rw [hnode] at hk
                      simp only [depthOf] at hk
                      omega) hkn hxub
                    exact ⟨_, hnode, misfit_kid (nth_mem hn1) (misfit_kid (a := at_) (nth_mem hm) hmis)⟩
                  obtain ⟨hka, hkb⟩ := hc.pairs r a b hu hkind
                  have two : ∀ (s t : Str) (j j' : Nat) (f : Str → Str → Str), Known ts s → Known ts t →
                      ((textAs lf ts k false s (nth ls j)).bind fun x =>
                        (textAs lf ts k false t (nth ls j')).bind fun y => Res.ok (f x y)).IsUB →
                      ∃ m, n = some m ∧ Misfit ts m := by
                    intro s t j j' f hs ht hub
                    cases h1 : textAs lf ts k false s (nth ls j) with
                    | throw m => rw [h1] at hub; cases hub
                    | ub m => exact sub j s hs (by rw [h1]; trivial)
                    | ok x =>
                      rw [h1] at hub
                      simp only [Res.bind] at hub
                      cases h2 : textAs lf ts k false t (nth ls j') with
                      | throw m => rw [h2] at hub; cases hub
                      | ub m => exact sub j' t ht (by rw [h2]; trivial)
                      | ok y => rw [h2] at hub; cases hub
                  cases lf
                  · simp only [Bool.false_eq_true, if_false] at hxub
                    exact two b a _ _ (fun x y => colon y x) hkb hka hxub
                  · simp only [if_true] at hxub
                    exact two a b _ _ colon hka hkb hxub

/-- **C77, undefined behaviour.** If inspecting a blob whose payload has the descriptor of one of its types has undefined
behaviour, then somewhere in the payload an object has the descriptor of a class whose number of properties differs from
that of another class of the blob.  So if all classes have the same number of properties, nothing can go wrong. -/
theorem C77_undefined (leftFirst : Bool) (ds : List TypeDesc) (ts : List TypeNotation) (h : Describe ds ts)
    (u : TypeNotation) (hu : u ∈ ts) (rest : List Node)
    (hub : (inspect leftFirst (blobOf ds (payloadTree u.descriptor rest))).1.IsUB) :
    Misfit ts (payloadTree u.descriptor rest) := by
  rw [C77_blob leftFirst ds ts h] at hub
  unfold payloadText at hub
  rw [find_descriptor h.sensible.descriptors hu] at hub
  obtain ⟨m, hm, hmis⟩ := textAs_ub h.closed h.sensible.names (fun u hu => ⟨(h.sensible.plain u hu).1, h.sensible.notCustom u hu⟩)
    _ true u.name (some (payloadTree u.descriptor rest)) (Nat.le_refl _) (.inr (.inr ⟨u, hu, rfl⟩))
    (map_ub (f := fun s => "{ Parsed : ".toList ++ s ++ " }".toList) (by
      cases hx : textAs leftFirst ts (depthOf (some (payloadTree u.descriptor rest))) true u.name
        (some (payloadTree u.descriptor rest)) with
      | ok s =>
        have : textAs leftFirst ts (payloadTree u.descriptor rest).height true u.name
          (some (payloadTree u.descriptor rest)) = .ok s := hx
        simp only [this] at hub
        exact hub
      | throw m =>
        have : textAs leftFirst ts (payloadTree u.descriptor rest).height true u.name
          (some (payloadTree u.descriptor rest)) = .throw m := hx
        simp only [this] at hub
        exact hub
      | ub m => trivial))
  cases hm
  exact hmis

/-! ### Examples -/

theorem describe_example : Describe [listD, inD] [madeList, madeIn] :=
  ⟨made_example, (sound_example true).sensible, [[madeIn], [madeList]], by decide +kernel, by decide +kernel⟩

/-- The payload may hold anything: here an `In` whose parts are arbitrary. -/
example (lf : Bool) (ns : List Node) :
    inspect lf (blobOf [listD, inD] (described "fpIn".toList (.mk .list ns))) =
      (payloadText lf [madeList, madeIn] "fpIn".toList (described "fpIn".toList (.mk .list ns)),
        blobOf [listD, inD] (described "fpIn".toList (.mk .list ns))) :=
  C77_blob lf _ _ describe_example "fpIn".toList [.mk .list ns]

/-- What is said about trees agrees with the expected text for a well-formed value. -/
example : ∀ lf : Bool, payloadText lf [madeList, madeIn] "fpL".toList (described "fpL".toList (.mk .list [valTree (inV 1), valTree (inV (-2))])) =
    .ok "{ Parsed : [ { x : 1 }, { x : -2 } ] }".toList := by decide +kernel

/-- Surplus values are ignored. -/
example : ∀ lf : Bool, (inspect lf (blobOf [listD, inD] (described "fpIn".toList (.mk .list [.mk (.int 7) [], .mk (.string "more".toList) []])))).1 =
    .ok "{ Parsed : { x : 7 } }".toList := by decide +kernel

private def twoD : TypeDesc := .comp "Two".toList [] [] "fpTwo".toList
  [⟨"a".toList, "int".toList, [], [], [], true, false⟩, ⟨"b".toList, "int".toList, [], [], [], true, false⟩]

/-- For a missing value the last one is shown again. -/
example : ∀ lf : Bool, (inspect lf (blobOf [twoD] (described "fpTwo".toList (.mk .list [.mk (.int 7) []])))).1 =
    .ok "{ Parsed : { a : 7, b : 7 } }".toList := by decide +kernel

/-- The value of a property is not of the type the schema gives it. -/
def mistyped : Cursor := blobOf [listD, inD] (described "fpIn".toList (.mk .list [.mk (.string "seven".toList) []]))

/-- **C77, violated**: a blob that contradicts its own schema is not refused.  Where an `int` is promised and a text
found, the inspection shows 0. -/
theorem C77_mistyped_violated :
    ∀ lf : Bool, (inspect lf mistyped).1 = .ok "{ Parsed : { x : 0 } }".toList := by decide +kernel

private def holderD : TypeDesc := .comp "Holder".toList [] [] "fpH".toList
  [⟨"i".toList, "In".toList, [], [], [], true, false⟩]
private def otherD : TypeDesc := .comp "Other".toList [] [] "fpO".toList
  [⟨"y".toList, "string".toList, [], [], [], true, false⟩]

/-- A `Holder` has an `In`; here it has an `Other` instead, and what it holds is a number. -/
def otherClass : Cursor := blobOf [inD, otherD, holderD]
  (described "fpH".toList (.mk .list [described "fpO".toList (.mk .list [.mk (.int 5) []])]))

/-- A `Holder` with an object of a class with two properties in place of an `In`. -/
def biggerClass : Cursor := blobOf [inD, twoD, holderD]
  (described "fpH".toList (.mk .list [described "fpTwo".toList (.mk .list [.mk (.int 5) [], .mk (.int 6) []])]))

/-- **C77, violated**: an object of another class than the schema promises is not refused either.  With as many
properties it is shown with the names of that class and the types of the promised one. -/
theorem C77_other_class_violated :
    ∀ lf : Bool, (inspect lf otherClass).1 = .ok "{ Parsed : { i : { y : 5 } } }".toList := by decide +kernel

/-- **C77, violated**: with another number of properties the behaviour is undefined (a failed assertion). -/
theorem C77_bigger_class_violated : ∀ lf : Bool, (inspect lf biggerClass).1 = .ub "assert" := by decide +kernel

/-- A payload with a descriptor that is not in the schema. -/
example : ∀ lf : Bool, (inspect lf (blobOf [inD] (described "fp?".toList (.mk .list [])))).1 = .ub "assert" := by decide +kernel

private def floatD : TypeDesc := .comp "Temp".toList [] [] "fpT".toList [⟨"t".toList, "float".toList, [], [], [], true, false⟩]

/-- A well-formed object with a floating point number. -/
example : ∀ lf : Bool, (inspect lf (blobOf [floatD] (described "fpT".toList (.mk .list [.mk (.float 0) []])))).1 =
    .throw "This is very bad" := by decide +kernel

private def keysD : TypeDesc := .restr "java.util.List<java.security.PublicKey>".toList "list".toList "fpK".toList

example : ∀ lf : Bool, (inspect lf (blobOf [keysD] (described "fpK".toList (.mk .list [described "k".toList (.mk (.binary "ab".toList) [])])))).1 =
    .throw "NOT IMPLEMENTED" := by decide +kernel

/-- The empty list of keys is shown. -/
example : ∀ lf : Bool, (inspect lf (blobOf [keysD] (described "fpK".toList (.mk .list [])))).1 = .ok "{ Parsed : [  ] }".toList := by
  decide +kernel

end Corda.Props

#print axioms Corda.Props.C77_inspect_any
#print axioms Corda.Props.C77_blob
#print axioms Corda.Props.C77_surplus
#print axioms Corda.Props.C77_missing
#print axioms Corda.Props.C77_float
#print axioms Corda.Props.C77_keys_in_lists
#print axioms Corda.Props.C77_undefined
#print axioms Corda.Props.C77_mistyped_violated
#print axioms Corda.Props.C77_other_class_violated
#print axioms Corda.Props.C77_bigger_class_violated
