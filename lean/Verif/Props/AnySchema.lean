import Verif.Spec.AnySchema
import Verif.Lemmas.Meaning
import Verif.Lemmas.Accepted

/-
C89: what reading a schema makes of any tree.
-/

namespace Corda.Props
open Corda Prog Spec

private theorem is_step {α β : Type} {ps : List Node} {i : Nat} {q : Prog α} {f : α → β} {r : Res β} {Q : Cursor → Prop}
    (h : Is (Pos ps (i + 1)) q f r Q) : Is (Pos ps i) (Prog.next >>= fun _ => q) f r Q := by
  intro c hc
  rw [bind_of_ok (show Prog.next c = (.ok (c.next).1, c.next.2) from rfl)]
  exact h _ hc.next

private theorem id_map {α : Type} (r : Res α) : id <$> r = r := by cases r <;> rfl

/-- Something that looks at the current node only. -/
private theorem is_here {α : Type} {ps : List Node} {i : Nat} {p : Prog α} {r : Res α}
    (h : ∀ c, c.cur = nth ps i → p c = (r, c)) : Is (Pos ps i) p id r (Pos ps i) := by
  intro c hc
  rw [h c hc.1]
  exact ⟨id_map r, fun _ _ => hc⟩

private theorem val_at {c : Cursor} {n : Option Node} (h : c.cur = n) : c.val = valueOf n := by rw [Cursor.val, h]; rfl

private theorem is_getString {ps : List Node} {i : Nat} (b : Bool) :
    Is (Pos ps i) (getString b) id (stringAt b (nth ps i)) (Pos ps i) := by
  refine is_here fun c hc => ?_
  unfold getString stringAt
  rw [val_at hc]
  cases valueOf (nth ps i) with
  | none => rfl
  | some a => cases a <;> first | rfl | (cases b <;> rfl)

private theorem is_getBoolean {ps : List Node} {i : Nat} : Is (Pos ps i) getBoolean id (flagAt (nth ps i)) (Pos ps i) := by
  refine is_here fun c hc => ?_
  unfold getBoolean flagAt
  rw [val_at hc]
  cases valueOf (nth ps i) with
  | none => rfl
  | some a => cases a <;> rfl

private theorem is_word {ps : List Node} {i : Nat} (b : Bool) :
    Is (Pos ps i) (Prog.readString b) id (wordAt b (nth ps i)) (Pos ps (i + 1)) := by
  unfold Prog.readString
  refine is_autoNext (is_here fun c hc => ?_)
  unfold wordAt
  rw [val_at hc]
  cases valueOf (nth ps i) with
  | none => rfl
  | some a => cases a <;> first | rfl | (cases b <;> rfl)

private theorem mapRes_all {α : Type} (g : Node → Res α) (f : Option Node → Res α) (h : ∀ n, g n = f (some n))
    (ns : List Node) : mapRes g ns = all (ns.map fun m => f (some m)) := by
  induction ns with
  | nil => rfl
  | cons n ns ih => rw [mapRes, List.map_cons, all, ih, h]

/-- A loop over the inside of the current node. -/
private theorem is_loop {α : Type} {ps : List Node} {i : Nat} (hne : ps ≠ []) {body : Prog α} {f : Option Node → Res α}
    (hs : ScopedOn body) (hb : ∀ c n, c.cur = some n → body c = (f (some n), c)) :
    Is (Pos ps i) (autoListEnter (fun _ => whileNext body)) id (eachOf f (nth ps i)) (Pos ps i) := by
  refine is_here fun c hc => ?_
  obtain ⟨n, hn⟩ := nth_isSome i hne
  rw [hn] at hc ⊢
  rw [autoListEnter_eq (fun _ => scoped_whileNext hs) (by rw [hc]; rfl)]
  simp only [Bool.false_eq_true, if_false]
  rw [whileNext_map (g := fun n => f (some n)) hb, mapRes_all _ f fun _ => rfl]
  obtain ⟨p, cu, r, u⟩ := c
  simp only at hc
  subst hc
  cases n
  rfl

private theorem string_here (c : Cursor) (n : Node) (h : c.cur = some n) :
    getString false c = (stringAt false (some n), c) := by
  unfold getString stringAt
  rw [val_at h]
  cases n with
  | mk a ks => cases a <;> rfl

private theorem is_strings {ps : List Node} {i : Nat} (hne : ps ≠ []) :
    Is (Pos ps i) stringList id (eachOf (stringAt false) (nth ps i)) (Pos ps i) :=
  is_loop hne (scoped_getString _).on string_here

private theorem string_ne {ps : List Node} {i : Nat} {b : Bool} {s : Str} (h : stringAt b (nth ps i) = .ok s) : ps ≠ [] := by
  rintro rfl; cases h

private theorem word_ne {ps : List Node} {i : Nat} {b : Bool} {s : Str} (h : wordAt b (nth ps i) = .ok s) : ps ≠ [] := by
  rintro rfl; cases h

private theorem is_field {ps : List Node} : Is (Pos ps 0) fieldBody id (fieldOf ps) (Pos ps 6) := by
  unfold fieldBody fieldOf
  refine is_bind (is_getString false) fun name hn => is_step ?_
  have hne := string_ne hn
  refine is_bind (is_getString false) fun type _ => is_step ?_
  refine is_bind (is_strings hne) fun req _ => is_step ?_
  refine is_bind (is_getString true) fun d _ => is_step ?_
  refine is_bind (is_getString true) fun l _ => is_step ?_
  refine is_bind is_getBoolean fun m _ => is_step ?_
  refine is_bind is_getBoolean fun u _ => ?_
  refine is_bind (is_lift _) fun f _ => ?_
  exact is_pure id _

/-- A reader of elements that makes the given thing of whatever is there. -/
private def Makes (rec : Prog Element) (f : Option Node → Res Element) : Prop := ∀ c, rec c = (f c.cur, c)

private theorem is_rec {rec : Prog Element} {f : Option Node → Res Element} (h : Makes rec f) {ps : List Node} {i : Nat} :
    Is (Pos ps i) rec id (f (nth ps i)) (Pos ps i) := is_here fun c hc => by rw [h c, hc]

private theorem asDescriptor_eq (e : Element) : asDescriptor e = lift (asKind theFingerprint e) := by
  cases e <;> rfl
private theorem asField_eq (e : Element) : asField e = lift (asKind theField e) := by
  cases e <;> rfl
private theorem asChoice_eq (e : Element) : asChoice e = lift (asKind theChoice e) := by
  cases e <;> rfl
private theorem asNotation_eq (e : Element) : asNotation e = lift (asKind theType e) := by
  cases e <;> rfl
private theorem asSchema_eq (e : Element) : asSchema e = lift (asKind theSchema e) := by
  cases e <;> rfl

private theorem rec_here {α : Type} {rec : Prog Element} {f : Option Node → Res Element} (h : Makes rec f)
    (g : Element → Res α) (c : Cursor) (n : Node) (hc : c.cur = some n) :
    (rec >>= fun e => lift (g e)) c = (f (some n) >>= g, c) := by
  rw [bind_def, h c, hc]
  cases f (some n) <;> rfl

private theorem is_composite {rec : Prog Element} {f : Option Node → Res Element} (hs : Scoped rec) (h : Makes rec f)
    {ps : List Node} : Is (Pos ps 0) (compositeBody rec) id (compositeOf f ps) (Pos ps 4) := by
  unfold compositeBody compositeOf
  refine is_bind (is_getString false) fun name hn => is_step ?_
  have hne := string_ne hn
  refine is_bind (is_getString true) fun label _ => is_step ?_
  refine is_bind (is_strings hne) fun prov _ => is_step ?_
  have e1 : (fingerprintOf f (nth ps 3) >>= fun fingerprint => eachOf (fun m => do
      let e ← f m
      asKind theField e) (nth ps 4) >>= fun fields =>
        pure (.notation (.comp ⟨name, label, prov, fingerprint, fields⟩)))
      = f (nth ps 3) >>= fun e => asKind theFingerprint e >>= fun fingerprint => eachOf (fun m => do
      let e ← f m
      asKind theField e) (nth ps 4) >>= fun fields =>
        pure (.notation (.comp ⟨name, label, prov, fingerprint, fields⟩) : Element) := by
    unfold fingerprintOf
    cases f (nth ps 3) <;> rfl
  refine Is.eq ?_ e1.symm
  refine is_bind (is_rec h) fun e _ => ?_
  rw [asDescriptor_eq]
  refine is_bind (is_lift _) fun d _ => is_step ?_
  refine is_bind (is_loop hne ?_ ?_) fun fields _ => ?_
  · exact (scoped_bind hs fun e => by rw [asField_eq]; exact scoped_lift _).on
  · intro c n hc
    simp only [asField_eq]
    exact rec_here h _ c n hc
  · exact is_pure id _

private theorem is_restricted {rec : Prog Element} {f : Option Node → Res Element} (hs : Scoped rec) (h : Makes rec f)
    {ps : List Node} : Is (Pos ps 0) (restrictedBody rec) id (restrictedOf f ps) (Pos ps 5) := by
  unfold restrictedBody restrictedOf
  refine is_bind (is_word false) fun name hn => ?_
  have hne := word_ne hn
  refine is_bind (is_word true) fun label _ => ?_
  refine is_bind (is_strings hne) fun prov _ => is_step ?_
  refine is_bind (is_word false) fun source _ => ?_
  have e1 : ∀ k : Str → Res Element, (fingerprintOf f (nth ps 4) >>= k)
      = f (nth ps 4) >>= fun e => asKind theFingerprint e >>= k := by
    intro k
    unfold fingerprintOf
    cases f (nth ps 4) <;> rfl
  refine Is.eq ?_ (e1 _).symm
  refine is_bind (is_rec h) fun e _ => ?_
  rw [asDescriptor_eq]
  refine is_bind (is_lift _) fun d _ => is_step ?_
  refine is_bind (is_loop hne ?_ ?_) fun choices _ => ?_
  · exact (scoped_bind hs fun e => by rw [asChoice_eq]; exact scoped_lift _).on
  · intro c n hc
    simp only [asChoice_eq]
    exact rec_here h _ c n hc
  · exact is_bind (is_lift _) fun r _ => is_pure id _

private theorem typesOf_append (f : Option Node → Res Element) (ns ms : List Node) (ls : List (List TypeNotation)) :
    typesOf f ls (ns ++ ms) = typesOf f ls ns >>= fun ls' => typesOf f ls' ms := by
  induction ns generalizing ls with
  | nil => rfl
  | cons n ns ih =>
    rw [List.cons_append, typesOf, typesOf]
    cases f (some n) with
    | ok e =>
      show (asKind _ e >>= fun t => _) = (asKind _ e >>= fun t => _) >>= _
      cases asKind theType e with
      | ok t =>
        show (insertR _ ls t >>= fun ls' => _) = (insertR _ ls t >>= fun ls' => _) >>= _
        cases insertR TypeNotation.dependsOn ls t with
        | ok ls' => exact ih ls'
        | throw m => rfl
        | ub m => rfl
      | throw m => rfl
      | ub m => rfl
    | throw m => rfl
    | ub m => rfl

private def stepOf (f : Option Node → Res Element) (ls : List (List TypeNotation)) (n : Node) : Res (List (List TypeNotation)) := do
  let e ← f (some n)
  let t ← asKind theType e
  insertR TypeNotation.dependsOn ls t

private theorem fold_step (f : Option Node → Res Element) (ns : List Node) (ls : List (List TypeNotation)) :
    foldRes (stepOf f) ls ns = typesOf f ls ns := by
  induction ns generalizing ls with
  | nil => rfl
  | cons n ns ih =>
    rw [foldRes, typesOf, stepOf]
    cases f (some n) with
    | ok e =>
      show ((asKind _ e >>= fun t => _) >>= _) = (asKind _ e >>= fun t => _)
      cases asKind theType e with
      | ok t =>
        show (insertR _ ls t >>= fun ls' => _) = (insertR _ ls t >>= fun ls' => _)
        cases insertR TypeNotation.dependsOn ls t with
        | ok ls' => exact ih ls'
        | throw m => rfl
        | ub m => rfl
      | throw m => rfl
      | ub m => rfl
    | throw m => rfl
    | ub m => rfl

private theorem fold_types (f : Option Node → Res Element) (ns : List Node) (ls : List (List TypeNotation)) :
    foldRes (fun ls n => typesOf f ls n.kids) ls ns = typesOf f ls (ns.flatMap Node.kids) := by
  induction ns generalizing ls with
  | nil => rfl
  | cons n ns ih =>
    rw [foldRes, List.flatMap_cons, typesOf_append]
    cases typesOf f ls n.kids with
    | ok ls' => exact ih ls'
    | throw m => rfl
    | ub m => rfl

private theorem step_here {rec : Prog Element} {f : Option Node → Res Element} (h : Makes rec f)
    (ls : List (List TypeNotation)) (c : Cursor) (n : Node) (hc : c.cur = some n) :
    schemaStep rec ls c = (stepOf f ls n, c) := by
  unfold schemaStep stepOf
  simp only [asNotation_eq]
  rw [bind_def, h c, hc]
  cases f (some n) with
  | ok e =>
    show (lift (asKind _ e) >>= fun t => _) c = _
    rw [bind_def]
    simp only [lift, Res.bind_eq, Res.bind]
    cases asKind theType e <;> rfl
  | throw m => rfl
  | ub m => rfl

private theorem entered_rest (c : Cursor) (n : Node) (hc : c.cur = some n) : c.enter.rest = n.kids := by
  obtain ⟨p, cu, r, u⟩ := c
  simp only at hc
  subst hc
  cases n
  rfl

private theorem list_here {rec : Prog Element} {f : Option Node → Res Element} (hs : Scoped rec) (h : Makes rec f)
    (ls : List (List TypeNotation)) (c : Cursor) (n : Node) (hc : c.cur = some n) :
    autoListEnter (fun _ => foldNext (schemaStep rec) ls) false c = (typesOf f ls n.kids, c) := by
  rw [autoListEnter_eq (fun _ => scoped_foldNext (fun ls => scopedOn_schemaStep hs ls) ls) (by rw [hc]; rfl)]
  simp only [Bool.false_eq_true, if_false]
  rw [foldNext_fold (step_here h), entered_rest c n hc, fold_step]

private theorem lists_here {rec : Prog Element} {f : Option Node → Res Element} (hs : Scoped rec) (h : Makes rec f)
    (c : Cursor) (n : Node) (hc : c.cur = some n) :
    autoListEnter (fun _ => foldNext (fun ls => autoListEnter (fun _ => foldNext (schemaStep rec) ls)) []) false c
      = (typesOf f [] (n.kids.flatMap Node.kids), c) := by
  rw [autoListEnter_eq (fun _ => scoped_foldNext (fun ls =>
    scopedOn_autoListEnter fun _ => scoped_foldNext (fun ls => scopedOn_schemaStep hs ls) ls) _) (by rw [hc]; rfl)]
  simp only [Bool.false_eq_true, if_false]
  rw [foldNext_fold (list_here hs h), entered_rest c n hc, fold_types]

private theorem is_envelope {rec : Prog Element} {f : Option Node → Res Element} (h : Makes rec f)
    {ps : List Node} : Is (Pos ps 0) (envelopeBody rec) id (envelopeOf f ps) (Pos ps 2) := by
  unfold envelopeBody envelopeOf consumeBlob
  rw [prog_assoc]
  refine is_bind is_attestDescribed fun _ hk => ?_
  have hn := described_some hk
  refine is_bind (is_enter hn scoped_getSymbol is_getSymbol) fun o _ => is_step ?_
  refine is_bind (is_rec h) fun e _ => ?_
  rw [asSchema_eq]
  exact is_bind (is_lift _) fun s _ => is_step (is_pure id _)

private theorem validate_here {ks : List Node} {k : Nat} {xs : List Node} (hn : nth ks 0 = some (.mk (.ulong (descId k)) xs))
    {α : Type} {q : Prog α} {r : Res α} (h : Is (Pos ks 1) q id r (fun _ => True)) :
    Is (Pos ks 0) (validateAndNext k >>= fun _ => q) id r (fun _ => True) := by
  intro c hc
  have hv := val_at (hc.1.trans hn)
  have : validateAndNext k c = (.ok (), c.next.2) := by
    have h1 : attest .ulong "Bad type for a descriptor" c = (.ok (), c) := attest_ok (by
      rw [Cursor.type, hc.1, hn]; rfl)
    unfold validateAndNext
    rw [bind_of_ok h1]
    have h2 : getUlong c = descId k := by unfold getUlong; rw [hv]; rfl
    rw [bind_of_ok (show look getUlong c = (.ok (getUlong c), c) from rfl), h2]
    simp [bind_def, Prog.next, pure_def]
  rw [bind_of_ok this]
  exact h _ hc.next

private theorem is_inside {ks : List Node} (hne : ks ≠ []) {p : Prog Element} {r : List Node → Res Element}
    {Q : List Node → Cursor → Prop} (hs : Scoped p) (h : ∀ ps, Is (Pos ps 0) p id (r ps) (Q ps)) :
    Is (Pos ks 1) (autoEnter p) id (r (kidsOf (nth ks 1))) (fun _ => True) := by
  obtain ⟨n, hn⟩ := nth_isSome 1 hne
  rw [hn]
  exact (is_enter hn hs (h n.kids)).post fun _ _ => trivial

private theorem is_build {rec : Prog Element} {f : Option Node → Res Element} (hs : Scoped rec) (h : Makes rec f)
    {ks xs : List Node} {i : Nat} (hn : nth ks 0 = some (.mk (.ulong i) xs)) :
    Is (Pos ks 0) (build rec i) id (elementOf f i (kidsOf (nth ks 1))) (fun _ => True) := by
  have hne := nth_ne_nil hn
  have hd : ∀ k ≤ 22, descId k = cordaId k := fun k hk => descId_is hk
  unfold build elementOf
  by_cases h0 : i = 22
  · rw [if_pos h0, if_pos h0]; exact is_throw _ _
  rw [if_neg h0, if_neg h0]
  rw [← hd 1 (by decide), ← hd 2 (by decide), ← hd 3 (by decide), ← hd 4 (by decide), ← hd 5 (by decide),
    ← hd 6 (by decide), ← hd 7 (by decide), ← hd 8 (by decide), ← hd 9 (by decide), ← hd 10 (by decide),
    ← hd 11 (by decide)]
  by_cases h1 : i = descId 1
  · rw [if_pos h1, if_pos h1]; subst h1
    exact validate_here hn (is_inside hne (scoped_envelopeBody hs) fun ps => is_envelope h)
  rw [if_neg h1, if_neg h1]
  by_cases h2 : i = descId 2
  · rw [if_pos h2, if_pos h2]; subst h2
    unfold schemaBuild schemaOf
    refine validate_here hn ?_
    obtain ⟨n, hm⟩ := nth_isSome 1 hne
    rw [hm]
    refine is_bind (Q := Pos ks 1) (is_here fun c hc => ?_) fun ls _ => (is_pure id _).post fun _ _ => trivial
    rw [hm] at hc
    exact lists_here hs h c n hc
  rw [if_neg h2, if_neg h2]
  by_cases h3 : i = descId 3
  · rw [if_pos h3, if_pos h3]; subst h3
    refine validate_here hn (is_inside (Q := fun ps => Pos ps 0) (r := fun ps => symbolOf (nth ps 0) >>= fun s => pure (.descriptor s)) hne ?_ fun ps => ?_)
    · exact scoped_bind scoped_getSymbol fun _ => scoped_pure _
    · exact is_bind is_getSymbol fun s _ => is_pure id _
  rw [if_neg h3, if_neg h3]
  by_cases h4 : i = descId 4
  · rw [if_pos h4, if_pos h4]; subst h4
    exact validate_here hn (is_inside hne scoped_fieldBody fun ps => is_field)
  rw [if_neg h4, if_neg h4]
  by_cases h5 : i = descId 5
  · rw [if_pos h5, if_pos h5]; subst h5
    exact validate_here hn (is_inside hne (scoped_compositeBody hs) fun ps => is_composite hs h)
  rw [if_neg h5, if_neg h5]
  by_cases h6 : i = descId 6
  · rw [if_pos h6, if_pos h6]; subst h6
    exact validate_here hn (is_inside hne (scoped_restrictedBody hs) fun ps => is_restricted hs h)
  rw [if_neg h6, if_neg h6]
  by_cases h7 : i = descId 7
  · rw [if_pos h7, if_pos h7]; subst h7
    refine validate_here hn (is_inside (Q := fun ps => Pos ps 0) (r := fun ps => stringAt false (nth ps 0) >>= fun s => pure (.choice s)) hne ?_ fun ps => ?_)
    · exact scoped_bind (scoped_getString _) fun _ => scoped_pure _
    · exact is_bind (is_getString false) fun s _ => is_pure id _
  rw [if_neg h7, if_neg h7]
  have hnull : ∀ k, i = descId k → Is (Pos ks 0) (nullBuild k) id (.ok .null) (fun _ => True) := by
    intro k he; subst he
    exact validate_here hn ((is_pure id _).post fun _ _ => trivial)
  by_cases h8 : i = descId 8
  · rw [if_pos h8, if_pos (.inl h8)]; exact hnull 8 h8
  by_cases h9 : i = descId 9
  · rw [if_neg h8, if_pos h9, if_pos (.inr (.inl h9))]; exact hnull 9 h9
  by_cases h10 : i = descId 10
  · rw [if_neg h8, if_neg h9, if_pos h10, if_pos (.inr (.inr (.inl h10)))]; exact hnull 10 h10
  by_cases h11 : i = descId 11
  · rw [if_neg h8, if_neg h9, if_neg h10, if_pos h11, if_pos (.inr (.inr (.inr h11)))]; exact hnull 11 h11
  rw [if_neg h8, if_neg h9, if_neg h10, if_neg h11, if_neg (by rintro (h | h | h | h) <;> contradiction)]
  exact is_ub _ _

private theorem is_number {ks : List Node} : Is (Pos ks 0) (isUlong >>= fun _ => look getUlong) id (numberAt (nth ks 0)) (Pos ks 0) := by
  refine is_here fun c hc => ?_
  have hv := val_at hc
  have ht : c.type = match valueOf (nth ks 0) with | some a => a.type | none => .invalid := by
    rw [Cursor.type, hc]; cases nth ks 0 <;> rfl
  unfold numberAt isUlong
  cases ha : valueOf (nth ks 0) with
  | none => rw [ha] at ht; rw [bind_of_throw (attest_no (by rw [ht]; exact PnType.noConfusion))]
  | some a =>
    rw [ha] at ht hv
    by_cases hu : ∃ i, a = .ulong i
    · obtain ⟨i, rfl⟩ := hu
      rw [bind_of_ok (attest_ok (by rw [ht]; rfl))]
      simp [look, getUlong, hv]
    · rw [bind_of_throw (attest_no (by rw [ht]; cases a <;> simp_all [Atom.type]))]
      cases a <;> simp_all

private theorem number_some {n : Option Node} {i : Nat} (h : numberAt n = .ok i) : ∃ xs, n = some (.mk (.ulong i) xs) := by
  unfold numberAt at h
  cases n with
  | none => cases h
  | some m =>
    cases m with
    | mk a xs => cases a <;> first | (cases h; exact ⟨xs, rfl⟩) | cases h

private theorem makes_dispatch : (fuel : Nat) → Makes (dispatch fuel) (elementIn fuel)
  | 0 => fun c => rfl
  | fuel + 1 => by
    intro c
    have ih := makes_dispatch fuel
    have hs := scoped_dispatchBody (scoped_dispatch fuel)
    have key : ∀ ks, Is (Pos ks 0) (dispatchBody (dispatch fuel)) id
        (numberAt (nth ks 0) >>= fun i => elementOf (elementIn fuel) i (kidsOf (nth ks 1))) (fun _ => True) := by
      intro ks
      unfold dispatchBody
      rw [← prog_assoc]
      refine is_bind is_number fun i hi => ?_
      obtain ⟨xs, hx⟩ := number_some hi
      exact is_build (scoped_dispatch fuel) ih hx
    rw [dispatch, elementIn]
    cases hd : c.cur with
    | none =>
      rw [bind_of_throw (show attestDescribed c = _ from attest_no (by rw [Cursor.type, hd]; exact PnType.noConfusion))]
      rfl
    | some n =>
      by_cases hv : n.val = .described
      · rw [bind_of_ok (show attestDescribed c = _ from attest_ok (by rw [Cursor.type, hd]; simp [hv, Atom.type])),
          autoEnter_eq hs (by rw [hd]; rfl)]
        simp only [Bool.false_eq_true, if_false]
        have := (key n.kids _ (pos_enter hd)).1
        rw [id_map] at this
        rw [this]
        have hp : describedParts (some n) = .ok n.kids := by unfold describedParts valueOf; simp [hv, kidsOf]
        rw [hp]; rfl
      · rw [bind_of_throw (show attestDescribed c = _ from attest_no (by
          rw [Cursor.type, hd]
          intro ht; apply hv; cases hnv : n.val <;> simp_all [Atom.type]))]
        have hp : describedParts (some n) = .throw "Expected a Described type" := by
          unfold describedParts valueOf; cases hnv : n.val <;> simp_all
        rw [hp]; rfl

/-- **C89, elements.** Reading a schema element from any tree, with the cursor anywhere, has the outcome described in the
specification. -/
theorem C89_element (depth : Nat) (c : Cursor) : (dispatch depth c).1 = elementIn depth c.cur := by
  rw [makes_dispatch depth c]

/-- **C89.** Reading the envelope of a blob has the outcome described in the specification for the tree under the
cursor: the same schema, the same exception or the same undefined behaviour. -/
theorem C89_any (c : Cursor) (n : Node) (hc : c.cur = some n) : (readEnvelope c).1 = envelopeFrom n := by
  have hf : c.fuel = n.height := by rw [Cursor.fuel, hc]
  have hs : Scoped (do
      let id ← look getUlong
      build (dispatch c.fuel) id) := scoped_bind (scoped_look _) fun id => scoped_build (scoped_dispatch _) id
  unfold readEnvelope envelopeFrom
  by_cases hv : n.val = .described
  · have h1 : isDescribed c = (.ok true, c) := by simp [isDescribed, look, Cursor.type, hc, hv, Atom.type]
    rw [bind_of_ok h1, hv]
    simp only [if_true]
    have h2 : ((look getUlong >>= fun id => build (dispatch c.fuel) id) c.enter.next.2).1
        = elementOf (elementIn n.height) (numberOrZero (nth n.kids 0))
          (kidsOf (nth n.kids 1)) := by
      have hp := pos_enter hc
      rw [bind_of_ok (show look getUlong c.enter.next.2 = (.ok (getUlong c.enter.next.2), c.enter.next.2) from rfl)]
      have hg : getUlong c.enter.next.2 = numberOrZero (nth n.kids 0) := by
        unfold getUlong numberOrZero; rw [val_at hp.1]; rfl
      rw [hg, hf]
      by_cases hu : ∃ i xs, nth n.kids 0 = some (.mk (.ulong i) xs)
      · obtain ⟨i, xs, hu⟩ := hu
        have := (is_build (scoped_dispatch n.height) (makes_dispatch n.height) hu _ hp).1
        rw [id_map] at this
        rw [hu]
        exact this
      · have hz : (numberOrZero (nth n.kids 0)) = 0 := by
          cases hm : nth n.kids 0 with
          | none => rfl
          | some m =>
            cases m with
            | mk a xs =>
              cases a <;> first | rfl | exact absurd ⟨_, _, hm⟩ hu
        rw [hz]
        have hb : build (dispatch n.height) 0 = ub "null registry entry" := by
          unfold build
          repeat rw [if_neg (by decide)]
        have he : ∀ g ps, elementOf g 0 ps = .ub "null registry entry" := by
          intro g ps
          unfold elementOf
          repeat rw [if_neg (by decide)]
        rw [hb, he]; rfl
    rw [bind_def, autoEnter_eq hs (by rw [hc]; rfl)]
    simp only [Bool.false_eq_true, if_false]
    rw [h2]
    cases elementOf (elementIn n.height) (numberOrZero (nth n.kids 0))
      (kidsOf (nth n.kids 1)) with
    | ok e => cases e <;> rfl
    | throw m => rfl
    | ub m => rfl
  · have h1 : isDescribed c = (.ok false, c) := by
      simp only [isDescribed, look, Cursor.type, hc]
      cases hnv : n.val <;> simp_all [Atom.type]
    rw [bind_of_ok h1]
    cases hnv : n.val <;> first | rfl | exact absurd hnv hv

/-- **C89, the bound on the nesting is no restriction**: anything from the height of the tree gives the same. -/
theorem C89_depth (n : Node) (d : Nat) (h : n.height ≤ d) : elementIn d (some n) = elementIn n.height (some n) := by
  have := readNode_fuel h (Nat.le_refl n.height)
  unfold readNode at this
  rw [C89_element, C89_element] at this
  exact this

/-- **C89, undefined behaviour when one kind of element stands where another belongs**: a schema whose only type is instead a field is not rejected;
nor is one with a type that is a reference, or has an unknown number; nor a blob that is not described. -/
theorem C89_undefined :
    let blob := fun t => Cursor.root (envelopeTree (payloadTree "fp".toList []) (schemaTree [t]) (.mk .null []))
    (readEnvelope (blob (fieldTree "a".toList "int".toList [] [] [] true false))).1 = .ub "wrong element class"
      ∧ (readEnvelope (blob (element 8 []))).1 = .ub "null element"
      ∧ (readEnvelope (blob (element 12 []))).1 = .ub "null registry entry"
      ∧ (readEnvelope (Cursor.root (.mk .list []))).1 = .ub "null envelope" := by decide +kernel

/-- What is wrong first decides: here the number of the second type is never looked at. -/
example :
    (readEnvelope (Cursor.root (envelopeTree (payloadTree "fp".toList [])
      (schemaTree [.mk .null [], element 12 []]) (.mk .null [])))).1 = .throw "Expected a Described type" := by decide +kernel

#print axioms C89_element
#print axioms C89_any
#print axioms C89_depth
#print axioms C89_undefined

end Corda.Props
