import Verif.Lemmas.Safe
import Verif.Props.Descriptors

/-
C23: malformed schemas.  The readers check some things and rely on others; `Spec/Malformed.lean` states what they rely
on.
-/

namespace Corda.Props
open Corda Corda.Prog Corda.Spec

/-! ### Evaluation of an arbitrary node -/

private theorem safeName_not_ub {s : Str} (h : SafeName s) : ¬ ArrayUB s := by
  obtain ⟨h1, h2, h3, -⟩ := h
  simp only [ArrayUB, not_or]
  exact ⟨h1, h2, h3⟩

private theorem safeName_isArray {s : Str} (h : SafeName s) : ∃ b, isArray s = .ok b := by
  obtain ⟨b, hb, -⟩ := C08_is_array_partial s (safeName_not_ub h)
  exact ⟨b, hb⟩

/-- The program run on the element list behind a validated descriptor. -/
private theorem validated_sat {α : Type} {Q : α → Prop} {p : Prog α} (k : Nat) (ks : List Node)
    (id : Nat) (more : List Node)
    (h : ∀ m, nth (.mk (.ulong id) ks :: more) 1 = some m →
      ∀ c, c.cur = some m → (p c).1.Sat Q) :
    ((do validateAndNext k; p : Prog α) (start (.mk (.ulong id) ks :: more))).1.Sat Q := by
  have h1 : attest .ulong "Bad type for a descriptor" (start (.mk (.ulong id) ks :: more))
      = (.ok (), start (.mk (.ulong id) ks :: more)) := by
    simp [attest, Cursor.type, start, Node.val, Atom.type]
  by_cases hid : id = descId k
  · have h2 : validateAndNext k (start (.mk (.ulong id) ks :: more))
        = (.ok (), (start (.mk (.ulong id) ks :: more)).next.2) := by
      unfold validateAndNext
      rw [bind_of_ok h1]
      cases more <;> simp [bind_def, look, getUlong, Cursor.val, start, Node.val, hid, Prog.next, Cursor.next, pure_def]
    rw [bind_of_ok h2]
    have hp := (pos_start (.mk (.ulong id) ks :: more)).next
    obtain ⟨m, hm⟩ := nth_isSome (ps := .mk (.ulong id) ks :: more) 1 (by simp)
    exact h m hm _ (hp.1.trans hm)
  · have h2 : validateAndNext k (start (.mk (.ulong id) ks :: more))
        = (.throw "Invalid Type", start (.mk (.ulong id) ks :: more)) := by
      unfold validateAndNext
      rw [bind_of_ok h1]
      simp [bind_def, look, getUlong, Cursor.val, start, Node.val, hid]
      rfl
    rw [bind_of_throw h2]
    trivial

/-- A body in an entered list. -/
private theorem autoEnter_sat {α : Type} {Q : α → Prop} {p : Prog α} (hp : Scoped p) {m : Node} {c : Cursor}
    (hc : c.cur = some m) (h : (p (start m.kids)).1.Sat Q) : (autoEnter p false c).1.Sat Q := by
  rw [autoEnter_eq hp (by simp [hc])]
  simp only [Bool.false_eq_true, if_false]
  obtain ⟨u, hu⟩ := enter_next_start c m hc
  rw [hu, (hp _).2]
  exact h

/-- Reading any node whose descriptor, if it has one, is that of element `k`. -/
private theorem read_sat {fuel k : Nat} {n : Node} {Q : Element → Prop} (hk : k ≤ 22) (hi : IdIs k n)
    (h : ∀ ks more, n.kids = .mk (.ulong (descId k)) ks :: more →
      (build (dispatch fuel) (descId k) (start n.kids)).1.Sat Q) : (readNode (fuel + 1) n).Sat Q := by
  have hs := scoped_dispatchBody (scoped_dispatch fuel)
  unfold readNode
  rw [dispatch]
  by_cases ht : n.val.type = .described
  · have hv : n.val = .described := by
      cases hn : n.val <;> rw [hn] at ht <;> first | rfl | simp [Atom.type] at ht
    have h1 : attestDescribed (Cursor.root n) = (.ok (), Cursor.root n) := by
      simp [attestDescribed, attest, Cursor.type, Cursor.root, ht]
    rw [bind_of_ok h1]
    refine autoEnter_sat hs (m := n) rfl ?_
    unfold dispatchBody
    cases hn : n.kids with
    | nil => simp [isUlong, attest, start, Cursor.type, bind_def]; trivial
    | cons d more =>
      cases d with
      | mk v ks =>
        cases v with
        | ulong i =>
          have hid : i = descId k := by
            rw [descId_eq k hk]
            exact hi hv i ks (by simp [nth, hn])
          have h2 : isUlong (start (.mk (.ulong i) ks :: more)) = (.ok (), start (.mk (.ulong i) ks :: more)) := by
            simp [isUlong, attest, start, Cursor.type, Node.val, Atom.type]
          have h3 : look getUlong (start (.mk (.ulong i) ks :: more)) = (.ok i, start (.mk (.ulong i) ks :: more)) := by
            simp [look, getUlong, Cursor.val, start, Node.val]
          rw [bind_of_ok h2, bind_of_ok h3, hid]
          have := h ks more (by rw [hn, hid])
          rw [hn, hid] at this
          exact this
        | _ => simp [isUlong, attest, start, Cursor.type, Node.val, Atom.type, bind_def]; trivial
  · have h1 : attestDescribed (Cursor.root n) = (.throw "Expected a Described type", Cursor.root n) := by
      simp [attestDescribed, attest, Cursor.type, Cursor.root, ht]
    rw [bind_of_throw h1]
    trivial

/-- The same for the readers that enter the element list. -/
private theorem read_parts_sat {fuel k : Nat} {n : Node} {Q : Element → Prop} {body : Prog Element} (hk : k ≤ 22)
    (hi : IdIs k n) (hp : Scoped body)
    (hb : build (dispatch fuel) (descId k) = do validateAndNext k; autoEnter body)
    (h : (body (start (parts n))).1.Sat Q) : (readNode (fuel + 1) n).Sat Q := by
  refine read_sat hk hi fun ks more hn => ?_
  rw [hb, hn]
  refine validated_sat k ks _ more fun m hm c hc => autoEnter_sat hp hc ?_
  have : parts n = m.kids := by unfold parts; rw [hn, hm]
  rw [← this]
  exact h

private theorem Safe.run {α : Type} {ps : List Node} {p : Prog α} {Q : α → Prop}
    (h : Safe (Pos ps 0) p (fun a _ => Q a)) : (p (start ps)).1.Sat Q := h _ (pos_start ps)

/-! ### Fields -/

private theorem allNested_sat (rs : List Str) (h : ∀ r ∈ rs, r.Small) : (allNested rs).Sat (fun _ => True) := by
  induction rs with
  | nil => trivial
  | cons r rs ih =>
    simp only [allNested, Res.bind_eq]
    have h1 : (nestedGenericTypes r).Sat (fun _ => True) := by
      have := C07_nested_total r (h r (by simp))
      cases hn : nestedGenericTypes r <;> rw [hn] at this <;> first | trivial | exact this
    exact Res.sat_bind h1 fun _ _ => Res.sat_bind (ih fun r hr => h r (by simp [hr])) fun _ _ => trivial

/-- `resolvedType` of the field is defined. -/
def Resolves (f : Field) : Prop := ∃ t, f.resolvedType = .ok t

private theorem make_sat (name type : Str) (req : List Str) (d l : Str) (ma mu : Bool) (ht : SafeName type)
    (hr : ∀ r ∈ req, r.Small) (hstar : type = "*".toList → ∃ r rs, req = r :: rs ∧ SafeName r) :
    (Field.make name type req d l ma mu).Sat Resolves := by
  unfold Field.make
  split
  · exact ⟨_, rfl⟩
  · obtain ⟨b, hb⟩ := safeName_isArray ht
    rw [hb]
    simp only [Res.bind_eq, Res.bind]
    cases b with
    | true =>
      simp only [if_true]
      exact Res.sat_bind (allNested_sat req hr) fun _ _ => ⟨_, rfl⟩
    | false =>
      simp only [Bool.false_eq_true, if_false]
      split
      · rename_i hs
        obtain ⟨r, rs, rfl, hsr⟩ := hstar hs
        obtain ⟨b, hb⟩ := safeName_isArray hsr
        simp only [isContainer, hb, Res.bind_eq, Res.bind, Res.pure_eq]
        split
        · exact Res.sat_bind (allNested_sat _ hr) fun _ _ => ⟨r, rfl⟩
        · trivial
      · obtain ⟨a, b, hl, -⟩ := listType_short type ht.1 ht.2.2.2
        rw [hl]
        exact ⟨_, rfl⟩

private theorem field_sat (fuel : Nat) (n : Node) (h : FieldOk n) :
    (readNode (fuel + 1) n).Sat (fun e => ∃ f, e = .field f ∧ Resolves f) := by
  refine read_parts_sat (by decide) h.1 scoped_fieldBody rfl (Safe.run ?_)
  unfold fieldBody
  refine safe_bind safe_getString fun name => safe_pre fun hname => ?_
  have hne : parts n ≠ [] := nth_ne_nil hname.choose_spec
  refine safe_bind safe_next fun _ => safe_bind safe_getString fun type => safe_pre fun ⟨kt, htype⟩ => ?_
  obtain ⟨hsafe, hreq⟩ := h.2 type kt htype
  refine safe_bind safe_next fun _ => safe_bind (safe_stringList hne) fun req => safe_pre fun ⟨m, hm, hmr⟩ => ?_
  obtain ⟨hsmall, hstar⟩ := hreq m hm
  refine safe_bind safe_next fun _ => safe_bind (safe_getStringNull true) fun d => ?_
  refine safe_bind safe_next fun _ => safe_bind (safe_getStringNull true) fun l => ?_
  refine safe_bind safe_next fun _ => safe_bind safe_getBoolean fun ma => ?_
  refine safe_bind safe_next fun _ => safe_bind safe_getBoolean fun mu => ?_
  refine safe_bind (safe_lift (make_sat name type req d l ma mu hsafe ?_ ?_)) fun f => safe_pre fun hf => ?_
  · intro r hr
    obtain ⟨x, hx, ks, rfl⟩ := hmr.mem r hr
    exact hsmall r ks hx
  · intro he
    obtain ⟨hk, hh⟩ := hstar he
    generalize m.kids = ks at hmr hk hh
    cases hmr with
    | nil => exact absurd rfl hk
    | cons hq _ =>
      obtain ⟨ks, rfl⟩ := hq
      exact ⟨_, _, rfl, hh _ ks rfl⟩
  · exact safe_pure _ fun _ _ => ⟨f, rfl, hf⟩

/-! ### Types -/

private theorem getSymbol_sat (c : Cursor) : (getSymbol c).1.Sat (fun _ => True) := by
  simp only [getSymbol, isSymbol, attest, bind_def]
  by_cases h : c.type = .symbol <;> simp only [h, if_true, if_false] <;> trivial

private theorem object_sat (fuel : Nat) (n : Node) (h : IdIs 3 n) :
    (readNode (fuel + 1) n).Sat (fun e => ∃ s, e = .descriptor s) := by
  refine read_parts_sat (by decide) h (scoped_bind scoped_getSymbol fun _ => scoped_pure _) rfl (Safe.run ?_)
  refine safe_bind (R := fun _ _ => True) ?_ fun s => safe_pure _ fun _ _ => ⟨s, rfl⟩
  intro c _
  exact (getSymbol_sat c).mono fun _ _ => trivial

private theorem choice_sat (fuel : Nat) (n : Node) (h : IdIs 7 n) :
    (readNode (fuel + 1) n).Sat (fun e => ∃ s, e = .choice s) := by
  refine read_parts_sat (by decide) h (scoped_bind (scoped_getString _) fun _ => scoped_pure _) rfl (Safe.run ?_)
  exact safe_bind (safe_getStringNull false) fun s => safe_pure _ fun _ _ => ⟨s, rfl⟩

/-- A list of elements read with `dispatchDescribed` and cast. -/
private theorem safe_elements {α : Type} {ps : List Node} {i fuel : Nat} (hne : ps ≠ []) {as : Element → Prog α}
    {Q : α → Prop} {f : Element → Res α} (has : ∀ e c, as e c = (f e, c)) (hsc : ∀ e, Scoped (as e))
    (h : ∀ m, nth ps i = some m → ∀ x ∈ m.kids, ((readNode fuel x).bind f).Sat Q) :
    Safe (Pos ps i) (autoListEnter (fun _ => whileNext (do let e ← dispatch fuel; as e)))
      (fun l c => Pos ps i c ∧ ∀ a ∈ l, Q a) := by
  intro c hc
  obtain ⟨m, hm⟩ := nth_isSome i hne
  have hcur : c.cur = some m := by rw [hc.1, hm]
  rw [autoListEnter_eq (fun _ => scoped_whileNext (scoped_bind (scoped_dispatch _) fun e => hsc e).on)
    (by simp [hcur])]
  simp only [Bool.false_eq_true, if_false]
  rw [whileNext_map (g := fun x => (readNode fuel x).bind f) (fun c n hc => by
    rw [bind_def, dispatch_at fuel hc]
    cases readNode fuel n <;> simp [has, Res.bind])]
  have hr : c.enter.rest = m.kids := by
    obtain ⟨p, cu, r, u⟩ := c
    simp only at hcur
    subst hcur
    cases m; rfl
  rw [hr]
  refine (mapRes_sat (Q := fun _ a => Q a) (h m hm)).mono fun l hl => ⟨hc, fun a ha => ?_⟩
  obtain ⟨_, -, hq⟩ := hl.mem a ha
  exact hq

/-- The type answers `dependsOn` without undefined behaviour. -/
def Answerable : TypeNotation → Prop
  | .comp c => ∀ f ∈ c.fields, Resolves f
  | .restr _ => True

private theorem safe_asDescriptor {P : Cursor → Prop} {e : Element} (h : ∃ s, e = .descriptor s) :
    Safe P (asDescriptor e) (fun _ c => P c) := by
  obtain ⟨s, rfl⟩ := h
  exact fun c hc => hc

private theorem composite_sat (fuel : Nat) (n : Node) (h : CompositeOk n) :
    (readNode (fuel + 2) n).Sat (fun e => ∃ t, e = .notation t ∧ Answerable t) := by
  obtain ⟨hid, hdesc, hfields⟩ := h
  refine read_parts_sat (by decide) hid (scoped_compositeBody (scoped_dispatch _)) rfl (Safe.run ?_)
  unfold compositeBody
  refine safe_bind safe_getString fun name => safe_pre fun hname => ?_
  have hne : parts n ≠ [] := nth_ne_nil hname.choose_spec
  refine safe_bind safe_next fun _ => safe_bind (safe_getStringNull true) fun label => ?_
  refine safe_bind safe_next fun _ => safe_bind (safe_stringList hne) fun prov => safe_pre fun _ => ?_
  refine safe_bind safe_next fun _ =>
    safe_bind (safe_dispatch hne fun m hm => object_sat fuel m (hdesc m hm)) fun d => safe_pre fun hd => ?_
  refine safe_bind (safe_asDescriptor hd) fun fp => safe_bind safe_next fun _ => ?_
  refine safe_bind (safe_elements (Q := Resolves) (f := fun e => (asField e (Cursor.root (.mk .null []))).1) hne
    (fun e c => by cases e <;> rfl) scoped_asField fun m hm x hx => ?_) fun fs => safe_pre fun hfs => ?_
  · refine Res.sat_bind (field_sat fuel x (hfields m hm x hx)) fun e he => ?_
    obtain ⟨f, rfl, hf⟩ := he
    exact hf
  · exact safe_pure _ fun _ _ => ⟨_, rfl, hfs⟩

/-! `makePrim` keeps type names safe. -/

private theorem matchHere_length {pat : List PatChar} {s : Str} (h : matchHere pat s = true) : pat.length ≤ s.length := by
  induction pat generalizing s with
  | nil => simp
  | cons p ps ih =>
    cases s with
    | nil => simp [matchHere] at h
    | cons c cs =>
      simp only [matchHere, Bool.and_eq_true] at h
      have := ih h.2
      simp; omega

private theorem regexReplace_length {pat : List PatChar} {rep : Str} (hr : rep.length ≤ pat.length) (hp : pat ≠ [])
    (skip : Nat) (s : Str) : (regexReplace pat rep skip s).length ≤ s.length - skip := by
  induction s generalizing skip with
  | nil => cases skip <;> simp [regexReplace]
  | cons c cs ih =>
    cases skip with
    | succ k => have := ih k; simp only [regexReplace, List.length_cons]; omega
    | zero =>
      simp only [regexReplace]
      have hpos : 0 < pat.length := List.length_pos_iff.mpr hp
      split
      · rename_i hm
        have := matchHere_length hm
        have := ih (pat.length - 1)
        simp only [List.length_append, List.length_cons] at *
        omega
      · have := ih 0
        simp only [List.length_cons]
        omega

private theorem regexReplace_same (pat : List PatChar) (rep : Str) (skip : Nat) (s : Str) :
    regexReplace pat rep skip s = s.drop skip ∨ rep.length ≤ (regexReplace pat rep skip s).length := by
  induction s generalizing skip with
  | nil => cases skip <;> simp [regexReplace]
  | cons c cs ih =>
    cases skip with
    | succ k => simpa [regexReplace] using ih k
    | zero =>
      simp only [regexReplace]
      split
      · right; simp
      · rcases ih 0 with h | h
        · left; rw [h]; rfl
        · right; simp only [List.length_cons]; omega

private theorem regexReplace_safe {pat : List PatChar} {rep s : Str} (hr : rep.length ≤ pat.length) (h3 : 3 ≤ rep.length)
    (h : SafeName s) : SafeName (regexReplace pat rep 0 s) := by
  obtain ⟨h1, h2, h4, h5⟩ := h
  have hl := regexReplace_length hr (by rintro rfl; simp at hr; rw [hr] at h3; simp at h3) 0 s
  rcases regexReplace_same pat rep 0 s with he | he
  · rw [he]; exact ⟨h1, h2, h4, h5⟩
  · have hx : 3 ≤ (regexReplace pat rep 0 s).length := by omega
    refine ⟨?_, ?_, ?_, Nat.lt_of_le_of_lt hl h5⟩ <;> intro e <;> rw [e] at hx <;> simp at hx

private theorem makePrim_safe {s : Str} (h : SafeName s) : SafeName (makePrim s) := by
  have key : ∀ rs : List (Str × Str), (∀ r ∈ rs, r.2.length ≤ (toPat r.1).length ∧ 3 ≤ r.2.length) →
      ∀ s, SafeName s → SafeName (rs.foldl (fun name r => regexReplace (toPat r.1) r.2 0 name) s) := by
    intro rs
    induction rs with
    | nil => intro _ s h; exact h
    | cons r rs ih =>
      intro hr s h
      exact ih (fun r h => hr r (by simp [h])) _ (regexReplace_safe (hr r (by simp)).1 (hr r (by simp)).2 h)
  exact key regexs (by decide) s h

private theorem restrictedMake_sat (d n l : Str) (p : List Str) (src : Str) (cs : List Str) (h : SafeName n) :
    (Restricted.make d n l p src cs).Sat (fun _ => True) := by
  unfold Restricted.make
  split
  · split
    · obtain ⟨b, hb⟩ := safeName_isArray h
      obtain ⟨x, y, hl, -⟩ := listType_short n h.1 h.2.2.2
      rw [hb, hl]
      cases b <;> trivial
    · trivial
  · split
    · rcases mapType_short n h.2.2.2 h.1 with hm | ⟨a, b, c, hm, -⟩
      · cases hx : mapType n <;> rw [hx] at hm <;> first | trivial | exact hm.elim
      · rw [hm]; trivial
    · trivial

private theorem restricted_sat (fuel : Nat) (n : Node) (h : RestrictedOk n) :
    (readNode (fuel + 2) n).Sat (fun e => ∃ t, e = .notation t ∧ Answerable t) := by
  obtain ⟨hid, hdesc, hch, hn⟩ := h
  refine read_parts_sat (by decide) hid (scoped_restrictedBody (scoped_dispatch _)) rfl (Safe.run ?_)
  unfold restrictedBody
  refine safe_bind (safe_readString false) fun name => safe_pre fun ⟨hname, hne⟩ => ?_
  obtain ⟨ks, hname⟩ := hname rfl
  refine safe_bind (safe_readString true) fun label => safe_pre fun _ => ?_
  refine safe_bind (safe_stringList hne) fun prov => safe_pre fun _ => ?_
  refine safe_bind safe_next fun _ => safe_bind (safe_readString false) fun source => safe_pre fun _ => ?_
  refine safe_bind (safe_dispatch hne fun m hm => object_sat fuel m (hdesc m hm)) fun d => safe_pre fun hd => ?_
  refine safe_bind (safe_asDescriptor hd) fun fp => safe_bind safe_next fun _ => ?_
  refine safe_bind (safe_elements (Q := fun _ => True) (f := fun e => (asChoice e (Cursor.root (.mk .null []))).1) hne
    (fun e c => by cases e <;> rfl) scoped_asChoice fun m hm x hx => ?_) fun cs => safe_pre fun _ => ?_
  · refine Res.sat_bind (choice_sat fuel x (hch m hm x hx)) fun e he => ?_
    obtain ⟨f, rfl⟩ := he
    trivial
  · refine safe_bind (safe_lift (restrictedMake_sat _ _ _ _ _ _ (makePrim_safe (hn name ks hname)))) fun r => ?_
    exact safe_pure _ fun _ _ => ⟨_, rfl, trivial⟩

/-! ### The schema -/

private theorem anyResolved_ok (n : Str) (fs : List Field) (h : ∀ f ∈ fs, Resolves f) :
    ∃ b, anyResolved n fs = .ok b := by
  induction fs with
  | nil => exact ⟨_, rfl⟩
  | cons f fs ih =>
    obtain ⟨t, ht⟩ := h f (by simp)
    obtain ⟨b, hb⟩ := ih fun f hf => h f (by simp [hf])
    simp only [anyResolved, ht, hb, Res.bind_eq, Res.bind]
    split <;> exact ⟨_, rfl⟩

private theorem anyDeep_ok (n : Str) (fs : List Field) (h : ∀ f ∈ fs, Resolves f) : ∃ b, anyDeep n fs = .ok b := by
  induction fs with
  | nil => exact ⟨_, rfl⟩
  | cons f fs ih =>
    obtain ⟨t, ht⟩ := h f (by simp)
    obtain ⟨b, hb⟩ := ih fun f hf => h f (by simp [hf])
    simp only [anyDeep, ht, hb, Res.bind_eq, Res.bind]
    split <;> split <;> exact ⟨_, rfl⟩

private theorem dependsOn_ok (a b : TypeNotation) (ha : Answerable a) (hb : Answerable b) :
    ∃ i, a.dependsOn b = .ok i := by
  cases a with
  | comp x =>
    cases b with
    | comp y =>
      obtain ⟨b1, h1⟩ := anyDeep_ok x.name y.fields hb
      obtain ⟨b2, h2⟩ := anyResolved_ok y.name x.fields ha
      simp only [TypeNotation.dependsOn, Composite.rhsComposite, h1, h2, Res.bind_eq, Res.bind]
      split <;> exact ⟨_, rfl⟩
    | restr y =>
      obtain ⟨b2, h2⟩ := anyResolved_ok y.name x.fields ha
      simp only [TypeNotation.dependsOn, Restricted.rhsComposite, h2, Res.bind_eq, Res.bind]
      split <;> split <;> exact ⟨_, rfl⟩
  | restr x =>
    cases b with
    | comp y =>
      obtain ⟨b2, h2⟩ := anyResolved_ok x.name y.fields hb
      simp only [TypeNotation.dependsOn, Composite.rhsRestricted, h2, Res.bind_eq, Res.bind]
      split <;> exact ⟨_, rfl⟩
    | restr y => exact ⟨_, rfl⟩

private theorem insert_sat (ls : List (List TypeNotation)) (t : TypeNotation) (hl : Within Answerable ls)
    (ht : Answerable t) : (insertR TypeNotation.dependsOn ls t).Sat (Within Answerable) := by
  have hd : ∀ a b, Answerable a → Answerable b →
      TypeNotation.dependsOn a b = .ok (plain TypeNotation.dependsOn a b) := by
    intro a b ha hb
    obtain ⟨i, hi⟩ := dependsOn_ok a b ha hb
    simp [plain, hi]
  obtain ⟨r, hr, -⟩ := insGo_terminates (plain TypeNotation.dependsOn) (ls.flatten.length + 1) t ls (by
    simp [size])
  obtain ⟨h1, h2⟩ := insGoR_of hd _ t ls r ht hl hr
  unfold insertR
  rw [h1]
  exact h2

/-- Reading one type of the schema's list of lists. -/
private def stepOf (fuel : Nat) (ls : List (List TypeNotation)) (n : Node) : Res (List (List TypeNotation)) :=
  (readNode fuel n).bind fun e => (asNotation e (Cursor.root n)).1.bind (insertR TypeNotation.dependsOn ls)

private theorem schemaStep_at (fuel : Nat) (ls : List (List TypeNotation)) {c : Cursor} {n : Node}
    (h : c.cur = some n) : schemaStep (dispatch fuel) ls c = (stepOf fuel ls n, c) := by
  unfold schemaStep stepOf
  rw [bind_def, dispatch_at fuel h]
  cases readNode fuel n with
  | ok e => cases e <;> rfl
  | throw m => rfl
  | ub m => rfl

private theorem enter_rest {c : Cursor} {m : Node} (h : c.cur = some m) : c.enter.rest = m.kids := by
  obtain ⟨p, cu, r, u⟩ := c
  simp only at h
  subst h
  cases m; rfl

private theorem level_at (fuel : Nat) (ls : List (List TypeNotation)) {c : Cursor} {n : Node} (h : c.cur = some n) :
    autoListEnter (fun _ => foldNext (schemaStep (dispatch fuel)) ls) false c
      = (foldRes (stepOf fuel) ls n.kids, c) := by
  rw [autoListEnter_eq (fun _ => scoped_foldNext (fun ls => scopedOn_schemaStep (scoped_dispatch _) ls) ls)
    (by simp [h])]
  simp only [Bool.false_eq_true, if_false]
  rw [foldNext_fold (fun ls c n hc => schemaStep_at fuel ls hc), enter_rest h]

private theorem schema_sat (fuel : Nat) (n : Node) (h : SchemaOk n) :
    (readNode (fuel + 3) n).Sat (fun e => ∃ s, e = .schema s) := by
  obtain ⟨hid, hl⟩ := h
  refine read_sat (by decide) hid fun ks more hn => ?_
  have hb : build (dispatch (fuel + 2)) (descId 2) = schemaBuild (dispatch (fuel + 2)) := rfl
  rw [hb, hn]
  unfold schemaBuild
  refine validated_sat 2 ks _ more fun m hm c hc => ?_
  have hp : parts n = m.kids := by unfold parts; rw [hn, hm]
  rw [bind_def, autoListEnter_eq (fun _ => scoped_foldNext (fun ls => scopedOn_autoListEnter fun _ =>
    scoped_foldNext (fun ls => scopedOn_schemaStep (scoped_dispatch _) ls) ls) _) (by simp [hc])]
  simp only [Bool.false_eq_true, if_false]
  rw [foldNext_fold (fun ls c n hc => level_at (fuel + 2) ls hc), enter_rest hc]
  have hfold : (foldRes (fun ls n => foldRes (stepOf (fuel + 2)) ls n.kids) [] m.kids).Sat (Within Answerable) := by
    refine foldRes_sat (by simp [Within]) fun l hlm s hs => foldRes_sat hs fun t ht s hs => ?_
    have : (readNode (fuel + 2) t).Sat (fun e => ∃ t, e = .notation t ∧ Answerable t) := by
      rcases hl l (hp ▸ hlm) t ht with h | h
      · exact composite_sat fuel t h
      · exact restricted_sat fuel t h
    refine Res.sat_bind this fun e he => ?_
    obtain ⟨t', rfl, ht'⟩ := he
    exact insert_sat s t' hs ht'
  cases hf : foldRes (fun ls n => foldRes (stepOf (fuel + 2)) ls n.kids) [] m.kids with
  | ok ls => exact ⟨_, rfl⟩
  | throw m => trivial
  | ub m => rw [hf] at hfold; exact hfold

/-! ### The envelope -/

private theorem height_kid {n m : Node} (h : m ∈ n.kids) : m.height < n.height := by
  cases n with
  | mk v ks =>
    simp only [Node.kids] at h
    simp only [Node.height]
    suffices m.height ≤ Node.height.heights ks by omega
    induction ks with
    | nil => simp at h
    | cons k ks ih =>
      simp only [Node.height.heights]
      rcases List.mem_cons.mp h with rfl | h
      · omega
      · have := ih h; omega

private theorem safe_consumeBlob {ps : List Node} {i : Nat} :
    Safe (Pos ps i) consumeBlob (fun _ c => Pos ps i c ∧ ps ≠ []) := by
  intro c hc
  unfold consumeBlob
  by_cases h : c.type = .described
  · have h1 : attestDescribed c = (.ok (), c) := by simp [attestDescribed, attest, h]
    rw [bind_of_ok h1]
    cases hn : c.cur with
    | none => simp [Cursor.type, hn] at h
    | some m =>
      rw [autoEnter_eq scoped_getSymbol (by simp [hn])]
      exact (getSymbol_sat _).mono fun _ _ => ⟨hc, nth_ne_nil (hc.1.symm.trans hn)⟩
  · have h1 : attestDescribed c = (.throw "Expected a Described type", c) := by
      simp [attestDescribed, attest, h]
    rw [bind_of_throw h1]
    trivial

/-- **C23, what does hold.** If the tree under the cursor satisfies the preconditions in `Spec/Malformed.lean`, which
concern only descriptor numbers and a few type names and otherwise leave the tree arbitrary, then reading the envelope
returns or throws. -/
theorem C23_malformed_partial (c : Cursor) (n : Node) (hc : c.cur = some n) (h : EnvelopeOk n) :
    (readEnvelope c).1.Defined := by
  obtain ⟨hv, ⟨ks, hid⟩, hs⟩ := h
  have hd : isDescribed c = (.ok true, c) := by
    simp [isDescribed, look, Cursor.type, hc, hv, Atom.type]
  unfold readEnvelope
  rw [bind_of_ok hd]
  simp only [if_true]
  have hsc : Scoped (do let id ← look getUlong; build (dispatch c.fuel) id) :=
    scoped_bind (scoped_look _) fun id => scoped_build (scoped_dispatch _) id
  have main : (autoEnter (do let id ← look getUlong; build (dispatch c.fuel) id) false c).1.Sat
      (fun e => ∃ s o, e = .envelope s o) := by
    refine autoEnter_sat hsc hc ?_
    obtain ⟨more, hn⟩ : ∃ more, n.kids = .mk (.ulong (descId 1)) ks :: more := by
      cases hk : n.kids with
      | nil => rw [hk] at hid; simp [nth] at hid
      | cons k more =>
        rw [hk] at hid
        simp only [nth, Nat.zero_min, List.getElem?_cons_zero, Option.some.injEq] at hid
        exact ⟨more, by rw [hid, descId_eq 1 (by decide)]⟩
    rw [hn]
    have h3 : look getUlong (start (.mk (.ulong (descId 1)) ks :: more))
        = (.ok (descId 1), start (.mk (.ulong (descId 1)) ks :: more)) := by
      simp [look, getUlong, Cursor.val, start, Node.val]
    rw [bind_of_ok h3]
    have hb : build (dispatch c.fuel) (descId 1)
        = (do validateAndNext 1; autoEnter (envelopeBody (dispatch c.fuel)) : Prog Element) := rfl
    rw [hb]
    refine validated_sat 1 ks _ more fun m hm c' hc' =>
      autoEnter_sat (scoped_envelopeBody (scoped_dispatch _)) hc' ?_
    have hp : parts n = m.kids := by unfold parts; rw [hn, hm]
    rw [← hp]
    refine Safe.run ?_
    unfold envelopeBody
    refine safe_bind safe_consumeBlob fun o => safe_pre fun hne => ?_
    refine safe_bind safe_next fun _ => safe_bind (safe_dispatch hne (Q := fun e => ∃ s, e = .schema s) ?_) fun e =>
      safe_pre fun he => ?_
    · intro x hx
      have h1 : x.height ≤ c.fuel := by
        have hxm : x ∈ m.kids := hp ▸ nth_mem hx
        have hmn : m ∈ n.kids := hn ▸ nth_mem hm
        have := height_kid hxm
        have := height_kid hmn
        simp only [Cursor.fuel, hc]
        omega
      rw [readNode_fuel h1 (Nat.le_add_right _ 3)]
      exact schema_sat _ x (hs x hx)
    · obtain ⟨s, rfl⟩ := he
      refine safe_bind (R := fun _ _ => True) (fun c hc => trivial) fun s => ?_
      refine safe_bind (R := fun _ _ => True) (fun c hc => trivial) fun _ => ?_
      exact safe_pure _ fun _ _ => ⟨_, _, rfl⟩
  rw [bind_def]
  rcases hr : autoEnter (do let id ← look getUlong; build (dispatch c.fuel) id) false c with ⟨r, c'⟩
  rw [hr] at main
  cases r with
  | ok e => obtain ⟨s, o, rfl⟩ := main; trivial
  | throw m => trivial
  | ub m => exact main

/-- A well-formed envelope with one composite type. -/
def goodTree : Node :=
  envelopeTree (payloadTree "fp".toList [.mk (.int 1) []])
    (schemaTree [compositeTree "A".toList [] [] "fp".toList
      [FieldDesc.tree ⟨"a".toList, "int".toList, [], [], [], true, false⟩]]) (.mk .null [])

/-- The precondition holds of well-formed envelopes. -/
example : EnvelopeOk goodTree := by
  refine ⟨rfl, ⟨[], rfl⟩, fun m hm => ?_⟩
  have hm : m = schemaTree [compositeTree "A".toList [] [] "fp".toList
      [FieldDesc.tree ⟨"a".toList, "int".toList, [], [], [], true, false⟩]] := by
    simpa [goodTree, envelopeTree, element, parts, nth, Node.kids] using hm.symm
  subst hm
  refine ⟨fun _ id ks h => ?_, fun l hl t ht => .inl ?_⟩
  · simp [schemaTree, element, nth, Node.kids] at h; exact h.1.symm
  · simp [schemaTree, element, parts, nth, Node.kids] at hl
    subst hl
    simp [Node.kids] at ht
    subst ht
    refine ⟨fun _ id ks h => ?_, fun m hm => ?_, fun m hm f hf => ?_⟩
    · simp [compositeTree, element, nth, Node.kids] at h; exact h.1.symm
    · simp [compositeTree, element, parts, nth, Node.kids] at hm
      subst hm
      intro _ id ks h
      simp [objectTree, element, nth, Node.kids] at h; exact h.1.symm
    · simp [compositeTree, element, parts, nth, Node.kids] at hm
      subst hm
      simp [Node.kids] at hf
      subst hf
      refine ⟨fun _ id ks h => ?_, fun t ks h => ?_⟩
      · simp [FieldDesc.tree, fieldTree, element, nth, Node.kids] at h; exact h.1.symm
      · simp [FieldDesc.tree, fieldTree, element, parts, nth, Node.kids, str] at h
        obtain ⟨rfl, -⟩ := h
        refine ⟨by unfold SafeName Str.Small; decide +kernel, fun m hm => ?_⟩
        simp [FieldDesc.tree, fieldTree, element, parts, nth, Node.kids, strList] at hm
        subst hm
        simp [Node.kids]

/-- **C23 is false.** Reading an envelope from a tree can dereference a null pointer or use an object as a different
class: for a root that is not described; for a root with an unknown identifier; for one that is a different schema
element; for one whose schema is of another kind; with a choice in the place of a field; with a field of type `*` and no
requirements next to another type; and with an empty type name. -/
theorem C23_malformed_violated :
    (readEnvelope (Cursor.root (.mk (.int 1) []))).1.IsUB
    ∧ (readEnvelope (Cursor.root (element 99 []))).1.IsUB
    ∧ (readEnvelope (Cursor.root (.mk .described [.mk (.symbol "net.corda:x".toList) [], .mk .list []]))).1.IsUB
    ∧ (readEnvelope (Cursor.root (element 8 []))).1.IsUB
    ∧ (readEnvelope (Cursor.root (objectTree "fp".toList))).1.IsUB
    ∧ (readEnvelope (Cursor.root (envelopeTree (payloadTree "fp".toList []) (choiceTree "c".toList []) (.mk .null [])))).1.IsUB
    ∧ (readEnvelope (Cursor.root (envelopeTree (payloadTree "fp".toList []) (element 8 []) (.mk .null [])))).1.IsUB
    ∧ (readEnvelope (Cursor.root (envelopeTree (payloadTree "fp".toList []) (schemaTree [
        compositeTree "A".toList [] [] "fp".toList [choiceTree "c".toList []]]) (.mk .null [])))).1.IsUB
    ∧ (readEnvelope (Cursor.root (envelopeTree (payloadTree "fp".toList []) (schemaTree [
        compositeTree "A".toList [] [] "fp".toList [fieldTree "a".toList "*".toList [] [] [] true false],
        compositeTree "B".toList [] [] "fq".toList []]) (.mk .null [])))).1.IsUB
    ∧ (readEnvelope (Cursor.root (envelopeTree (payloadTree "fp".toList []) (schemaTree [
        compositeTree "A".toList [] [] "fp".toList [fieldTree "a".toList [] [] [] [] true false]]) (.mk .null [])))).1.IsUB := by
  decide +kernel

#print axioms C23_malformed_partial
#print axioms C23_malformed_violated

end Corda.Props
