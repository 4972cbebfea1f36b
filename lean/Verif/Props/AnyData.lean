import Verif.Spec.AnyData
import Verif.Lemmas.Meaning
import Verif.Props.RawDump

/-
C85: what a dump of the data makes of any payload.
-/

namespace Corda.Props
open Corda Prog Spec

private theorem showAt_nth {ns : List Node} {i : Nat} {n : Node} (h : nth ns i = some n) (t : PnType) :
    showAt (takenParts ns) i t = taken n t := by
  have hp : takenParts ns = ns.map taken := by
    clear h
    induction ns with
    | nil => rw [takenParts]; rfl
    | cons n ns ih => rw [takenParts, ih]; rfl
  unfold nth at h
  unfold showAt
  rw [hp, List.length_map, List.getElem?_map, h]
  rfl

private theorem takenAll_eq (ns : List Node) : takenAll ns = ns.map fun n => taken n n.val.type := by
  induction ns with
  | nil => rw [takenAll]; rfl
  | cons n ns ih => rw [takenAll, ih]; rfl

private theorem is_type {ps : List Node} {i : Nat} :
    Is (Pos ps i) (look Cursor.type) id (.ok (typeHere (nth ps i))) (Pos ps i) :=
  fun c hc => ⟨by simp only [look, typeHere, hc.type]; rfl, fun _ _ => hc⟩

/-- A loop over the rest of the parts. -/
private theorem is_whileNext {α β : Type} {p : Prog α} {f : α → β} {ps : List Node} {m : Node → Res β}
    (h : ∀ i n, nth ps i = some n → Is (Pos ps i) p f (m n) (Pos ps i)) (i : Nat) :
    Is (Pos ps i) (whileNext p) (List.map f) (all ((ps.drop (i + 1)).map m)) (fun _ => True) := by
  have go : ∀ (fuel i : Nat), (ps.drop (i + 1)).length < fuel →
      Is (Pos ps i) (whileNextGo p fuel) (List.map f) (all ((ps.drop (i + 1)).map m)) (fun _ => True) := by
    intro fuel
    induction fuel with
    | zero => intro i h; omega
    | succ fuel ih =>
      intro i hl c hc
      unfold whileNextGo
      cases hr : ps.drop (i + 1) with
      | nil =>
        have h1 : Prog.next c = (.ok false, c) := by
          have : c.rest = [] := hc.2.trans hr
          simp [Prog.next, Cursor.next, this]
        rw [bind_of_ok h1]
        exact ⟨rfl, fun _ _ => trivial⟩
      | cons n ns =>
        obtain ⟨h2, h3⟩ := nth_succ_of_drop hr
        have h1 : Prog.next c = (.ok true, c.next.2) := by
          have : c.rest = n :: ns := hc.2.trans hr
          simp [Prog.next, Cursor.next, this]
        rw [bind_of_ok h1]
        simp only [if_true, List.map_cons, all]
        have h4 : all (ns.map m) = all ((ps.drop (i + 1 + 1)).map m) := by rw [h3]
        have := is_bind (h (i + 1) n h2) (k := fun a => do
            let as ← whileNextGo p fuel
            pure (a :: as)) (g := List.map f) (h := fun b => do
              let as ← all (ns.map m)
              pure (b :: as)) (R := fun _ => True) fun a _ => by
          refine is_bind (f := List.map f) ((ih (i + 1) ?_).eq h4.symm) fun as _ => ?_
          · rw [hr] at hl
            rw [show i + 1 + 1 = i + 2 from rfl, h3]
            simp only [List.length_cons] at hl
            omega
          · exact (is_pure (List.map f) (a :: as)).post fun _ _ => trivial
        exact this _ hc.next
  intro c hc
  exact go (c.rest.length + 1) i (by rw [hc.2]; omega) c hc

/-- Dumped as `taken` says, at any place. -/
private def Right (rec : PnType → Prog Val) (n : Node) : Prop :=
  ∀ ps i t, nth ps i = some n → Is (Pos ps i) (rec t) Val.dump (taken n t) (Pos ps i)

private theorem all_cons_elements {r : Res Str} {rs : List (Res Str)} :
    elements <$> all (r :: rs) = all (r :: rs) := by
  simp only [all]
  cases r with
  | ok a =>
    cases h : all rs with
    | ok as => simp [Res.bind, h, elements]
    | throw m => simp [Res.bind, h]
    | ub m => simp [Res.bind, h]
  | throw m => rfl
  | ub m => rfl

private theorem is_rawList {rec : PnType → Prog Val} (hs : ∀ t, ScopedOn (rec t)) {ps ns : List Node} {i : Nat}
    (hn : nth ps i = some (.mk .list ns)) (h : ∀ n ∈ ns, Right rec n) :
    Is (Pos ps i) (rawList rec) (List.map Val.dump) (elements <$> all (takenAll ns)) (Pos ps i) := by
  have ha : Is (Pos ps i) attestList (fun _ => ()) (.ok ()) (Pos ps i) :=
    is_attest _ _ (by simp) _ _ (fun _ _ _ => rfl) fun hno => by
      exact absurd rfl (hno .list (by rw [hn]; rfl))
  unfold rawList
  refine is_bind (h := fun _ => elements <$> all (takenAll ns)) ha fun _ _ => ?_
  refine is_listEnter (Q := fun _ => True) hn (fun _ => scoped_listBody hs) ?_
  show Is (Pos ns 0) _ _ _ _
  cases ns with
  | nil =>
    refine (is_bind (h := fun _ => elements <$> all (takenAll [])) is_type fun t ht => ?_).eq rfl
    have : t = .invalid := by simpa [typeHere, valueOf, nth] using ht.symm
    rw [if_pos this]
    exact ((is_pure (List.map Val.dump) _).post fun _ _ => trivial).eq rfl
  | cons n ns =>
    refine (is_bind (h := fun _ => elements <$> all (takenAll (n :: ns))) is_type fun t ht => ?_).eq rfl
    have h0 : nth (n :: ns) 0 = some n := rfl
    have hne : t ≠ .invalid := by
      rw [h0] at ht
      have : t = n.val.type := by simpa [typeHere, valueOf] using ht.symm
      rw [this]
      cases n with | mk a _ => cases a <;> simp [Node.val, Atom.type]
    rw [if_neg hne, takenAll_eq]
    simp only [List.map_cons]
    rw [all_cons_elements, all]
    have elem : ∀ i m, nth (n :: ns) i = some m → Is (Pos (n :: ns) i) (do let t ← look Cursor.type; rec t : Prog Val)
        Val.dump (taken m m.val.type) (Pos (n :: ns) i) := by
      intro i m hm
      refine (is_bind (h := fun t => taken m t) is_type fun t _ => h m (nth_mem hm) _ _ t hm).eq ?_
      rw [hm]
      rfl
    refine is_bind (elem 0 n h0) fun v _ => ?_
    refine is_bind (f := List.map Val.dump) ((is_whileNext elem 0).eq ?_) fun vs _ => ?_
    · rfl
    · exact (is_pure (List.map Val.dump) (v :: vs)).post fun _ _ => trivial

private theorem is_rawStep {rec : PnType → Prog Val} {ns : List Node} (hne : ns ≠ []) (h : ∀ n ∈ ns, Right rec n) (i : Nat) :
    Is (Pos ns i) (rawStep rec) Val.dump (showAt (takenParts ns) (i + 1) (typeHere (nth ns i))) (Pos ns (i + 1)) := by
  unfold rawStep
  obtain ⟨m, hm⟩ := nth_isSome (i + 1) hne
  refine (is_bind (h := fun t => taken m t) (is_autoNext is_type) fun t _ => h m (nth_mem hm) _ _ t hm).eq ?_
  rw [showAt_nth hm]
  rfl

private theorem is_rawPair {rec : PnType → Prog Val} {ns : List Node} (hne : ns ≠ []) (h : ∀ n ∈ ns, Right rec n) (i : Nat) :
    Is (Pos ns i) (rawPair rec) Val.dump (do
      let k ← showAt (takenParts ns) (i + 1) (typeHere (nth ns i))
      let v ← showAt (takenParts ns) (i + 2) (typeHere (nth ns (i + 1)))
      pure (colon k v)) (Pos ns (i + 3)) := by
  unfold rawPair
  refine is_bind (is_rawStep hne h i) fun k _ => ?_
  refine is_bind (is_rawStep hne h (i + 1)) fun v _ => ?_
  refine (is_bind (h := fun _ => .ok (colon k.dump v.dump)) is_next fun _ _ => ?_).eq rfl
  exact (is_pure Val.dump (.valuePair k v)).eq (by rw [Val.dump]; rfl)

private theorem is_rawMap {rec : PnType → Prog Val} (hs : ∀ t, ScopedOn (rec t)) {ps ns : List Node} {i : Nat}
    (hn : nth ps i = some (.mk .map ns)) (h : ∀ n ∈ ns, Right rec n) :
    Is (Pos ps i) (rawMap rec) (List.map Val.dump) (slippedTaken ns (takenParts ns)) (Pos ps i) := by
  have ha : Is (Pos ps i) isMapP (fun _ => ()) (.ok ()) (Pos ps i) :=
    is_attest _ _ (by simp) _ _ (fun _ _ _ => rfl) fun hno => by
      exact absurd rfl (hno .map (by rw [hn]; rfl))
  unfold rawMap
  refine is_bind (h := fun _ => slippedTaken ns (takenParts ns)) ha fun _ _ => ?_
  refine is_mapEnter (Q := fun _ => True) hn (scoped_mapBody hs) ?_
  show Is (Pos ns 0) _ _ _ _
  by_cases hne : ns = []
  · subst hne
    refine (is_bind (h := fun _ => slippedTaken [] (takenParts [])) is_type fun t ht => ?_).eq rfl
    have : t = .invalid := by simpa [typeHere, valueOf, nth] using ht.symm
    rw [if_pos this]
    exact ((is_pure (List.map Val.dump) _).post fun _ _ => trivial).eq rfl
  · refine (is_bind (h := fun _ => slippedTaken ns (takenParts ns)) is_type fun t ht => ?_).eq rfl
    obtain ⟨n, h0⟩ := nth_isSome 0 hne
    have hne' : t ≠ .invalid := by
      rw [h0] at ht
      have : t = n.val.type := by simpa [typeHere, valueOf] using ht.symm
      rw [this]
      cases n with | mk a _ => cases a <;> simp [Node.val, Atom.type]
    rw [if_neg hne', slippedTaken, if_neg hne]
    refine (is_times (k := 3) (is_rawPair hne h) _ 0).eq ?_
    congr 1
    apply List.map_congr_left
    intro j _
    simp only [Nat.zero_add]

private theorem is_list_no {rec : PnType → Prog Val} {ps : List Node} {i : Nat} {n : Node} (hn : nth ps i = some n)
    (ht : n.val.type ≠ .list) {r : Res (List Str)} (hr : r = .throw "Expected a List") :
    Is (Pos ps i) (rawList rec) (List.map Val.dump) r (Pos ps i) := by
  subst hr
  have ha : Is (Pos ps i) attestList (fun _ => ()) (.throw "Expected a List") (Pos ps i) :=
    is_attest _ _ (by simp) _ _ (fun a ha hm => by rw [hn] at ha; cases ha; exact absurd hm ht) fun _ => rfl
  exact (is_bind (h := fun _ => .ok []) ha fun _ h => by cases h)

private theorem is_map_no {rec : PnType → Prog Val} {ps : List Node} {i : Nat} {n : Node} (hn : nth ps i = some n)
    (ht : n.val.type ≠ .map) {r : Res (List Str)} (hr : r = .throw "Expected a Map") :
    Is (Pos ps i) (rawMap rec) (List.map Val.dump) r (Pos ps i) := by
  subst hr
  have ha : Is (Pos ps i) isMapP (fun _ => ()) (.throw "Expected a Map") (Pos ps i) :=
    is_attest _ _ (by simp) _ _ (fun a ha hm => by rw [hn] at ha; cases ha; exact absurd hm ht) fun _ => rfl
  exact (is_bind (h := fun _ => .ok []) ha fun _ h => by cases h)

private theorem list_atom {a : Atom} (h : a.type = .list) : a = .list := by cases a <;> simp_all [Atom.type]
private theorem map_atom {a : Atom} (h : a.type = .map) : a = .map := by cases a <;> simp_all [Atom.type]

/-- A list, or not. -/
private theorem is_asList {rec : PnType → Prog Val} (hs : ∀ t, ScopedOn (rec t)) {ps : List Node} {i : Nat} {n : Node}
    (hn : nth ps i = some n) (h : ∀ k ∈ n.kids, Right rec k) :
    Is (Pos ps i) (rawList rec) (fun vs => brackets (vs.map Val.dump)) (taken n .list) (Pos ps i) := by
  obtain ⟨a, ks⟩ := n
  rw [taken, if_pos rfl]
  by_cases ha : a.type = .list
  · rw [if_pos ha]
    rw [list_atom ha] at hn
    refine ((is_rawList hs hn h).map brackets).eq ?_
    cases all (takenAll ks) <;> rfl
  · rw [if_neg ha]
    exact ((is_list_no hn ha rfl).map brackets).eq rfl

private theorem is_asMap {rec : PnType → Prog Val} (hs : ∀ t, ScopedOn (rec t)) {ps : List Node} {i : Nat} {n : Node}
    (hn : nth ps i = some n) (h : ∀ k ∈ n.kids, Right rec k) :
    Is (Pos ps i) (rawMap rec) (fun vs => brackets (vs.map Val.dump)) (taken n .map) (Pos ps i) := by
  obtain ⟨a, ks⟩ := n
  rw [taken, if_neg (by simp), if_pos rfl]
  by_cases ha : a.type = .map
  · rw [if_pos ha]
    rw [map_atom ha] at hn
    exact (is_rawMap hs hn h).map brackets
  · rw [if_neg ha]
    exact ((is_map_no hn ha rfl).map brackets).eq rfl

private theorem is_described {rec : PnType → Prog Val} (hs : ∀ t, ScopedOn (rec t)) {ps : List Node} {i : Nat} {n : Node}
    (hn : nth ps i = some n) (h : ∀ k ∈ n.kids, ∀ l ∈ k.kids, Right rec l) :
    Is (Pos ps i) (rawDescribed rec) Val.dump (taken n .described) (Pos ps i) := by
  obtain ⟨a, ks⟩ := n
  rw [taken, if_neg (by simp), if_neg (by simp), if_pos rfl]
  unfold rawDescribed
  refine is_enter (Q := fun _ => True) hn (scoped_describedBody hs) ?_
  show Is (Pos ks 0) _ _ _ _
  refine is_bind is_readString fun fp _ => ?_
  refine (is_bind (h := fun t => if t = .list ∨ t = .map then colon fp <$> showAt (takenParts ks) 1 t
    else .throw "Described data must be either a list or map") is_type fun t ht => ?_).eq rfl
  have ht' : typeHere (nth ks 1) = t := by simpa using ht
  by_cases h1 : t = .list
  · rw [if_pos h1]
    simp only [id, h1, true_or, if_true]
    cases hk : nth ks 1 with
    | none => rw [hk, h1] at ht'; cases ht'
    | some m =>
      rw [showAt_nth hk]
      refine is_bind (h := fun x => .ok (colon fp x)) (is_asList hs hk (h m (nth_mem hk))) fun vs _ => ?_
      refine ((is_pure Val.dump (.pairList fp vs)).eq ?_).post fun _ _ => trivial
      rw [pairList_dump (some fp) vs]
      rfl
  · rw [if_neg h1]
    by_cases h2 : t = .map
    · rw [if_pos h2]
      simp only [id, h2, or_true, if_true]
      cases hk : nth ks 1 with
      | none => rw [hk, h2] at ht'; cases ht'
      | some m =>
        rw [showAt_nth hk]
        refine is_bind (h := fun x => .ok (colon fp x)) (is_asMap hs hk (h m (nth_mem hk))) fun vs _ => ?_
        refine ((is_pure Val.dump (.pairList fp vs)).eq ?_).post fun _ _ => trivial
        rw [pairList_dump (some fp) vs]
        rfl
    · rw [if_neg h2]
      simp only [id, h1, h2, or_self, if_false]
      exact is_throw _ _

private theorem is_rawAs (fuel : Nat) : ∀ n : Node, n.height ≤ fuel → Right (rawAs fuel) n := by
  induction fuel with
  | zero => intro n h; have := height_pos n; omega
  | succ fuel ih =>
    intro n hh ps i t hn
    have hk : ∀ k ∈ n.kids, Right (rawAs fuel) k := fun k hk => by
      cases n with
      | mk a ks =>
        have := height_kids (v := a) (ks := ks) hk
        exact ih k (by omega)
    have hkk : ∀ k ∈ n.kids, ∀ l ∈ k.kids, Right (rawAs fuel) l := fun k hk l hl => by
      cases n with
      | mk a ks =>
        have h1 := height_kids (v := a) (ks := ks) hk
        cases k with
        | mk b ls =>
          have h2 := height_kids (v := b) (ks := ls) hl
          exact ih l (by omega)
    have hs := scopedOn_rawAs fuel
    by_cases h1 : t = .list
    · subst h1
      refine (is_bind (h := fun x => .ok x) (is_asList hs hn hk) fun vs _ => ?_).eq (by cases taken n .list <;> rfl)
      exact (is_pure Val.dump (.singleList vs)).eq (by rw [pairList_dump none vs]; rfl)
    by_cases h2 : t = .map
    · subst h2
      refine (is_bind (h := fun x => .ok x) (is_asMap hs hn hk) fun vs _ => ?_).eq (by cases taken n .map <;> rfl)
      exact (is_pure Val.dump (.singleList vs)).eq (by rw [pairList_dump none vs]; rfl)
    by_cases h3 : t = .described
    · subst h3
      exact is_described hs hn hkk
    · have he : rawAs (fuel + 1) t = rawPrimitive := by cases t <;> first | rfl | contradiction
      rw [he]
      obtain ⟨a, ks⟩ := n
      rw [taken, if_neg h1, if_neg h2, if_neg h3]
      intro c hc
      rw [rawPrimitive_leaf c (hc.1.trans hn)]
      exact ⟨rfl, fun _ _ => hc⟩

/-- **C85.** Whatever the tree and the position, the outcome of the dump (text, exception or undefined behaviour) is the one
the direct description gives, and the cursor stays where it was. -/
theorem C85_data (c : Cursor) : dumpData c = (dataText c.cur, c) := by
  refine Prod.ext ?_ (C58_position c)
  show (dumpData c).1 = dataText c.cur
  by_cases h : c.type = .described
  · have hs : c.cur.isSome = true := on_of_type (by rw [h]; simp)
    obtain ⟨n, hn⟩ := Option.isSome_iff_exists.mp hs
    have hk : typeHere c.cur = .described := by
      rw [hn, ← h, type_of_cur hn]; rfl
    rw [dumpData_described h, bind_def, keyCheck_at hn]
    unfold dataText
    rw [if_pos hk]
    have hkey : numberHere (nth (kidsOf c.cur) 0) = firstKey n := by
      rw [hn]
      show numberHere (nth n.kids 0) = firstKey n
      unfold firstKey
      cases n.kids with
      | nil => rfl
      | cons k ks => cases k with | mk a l => cases a <;> rfl
    rw [hkey]
    by_cases h1 : firstKey n % 2 ^ 32 = 1
    · rw [if_pos h1, if_pos h1]
      simp only
      have hp : Is (Pos n.kids 1) (payloadDump c.fuel) Val.dump (do
          let ps ← listParts (nth n.kids 1)
          firstText ps) (Pos n.kids 1) := by
        unfold payloadDump
        refine is_bind (h := firstText) is_attestList fun _ hl => ?_
        have hb := list_some hl
        refine is_listEnter (Q := fun _ => True) hb (fun _ => scoped_entered _) ?_
        generalize hps : kidsOf (nth n.kids 1) = ps at hb ⊢
        show Is (Pos ps 0) _ _ _ _
        unfold firstText
        refine is_bind is_attestDescribed fun _ hd => ?_
        have hq := described_some hd
        generalize kidsOf (nth ps 0) = qs at hq
        simp only [hq]
        refine (is_described (scopedOn_rawAs _) hq fun k hk l hl => is_rawAs _ l ?_).post fun _ _ => trivial
        have e1 : n.height ≤ c.fuel := by simp [Cursor.fuel, hn]
        have e2 : (Node.mk .list ps) ∈ n.kids := nth_mem hb
        have e3 := nth_mem hq
        have f1 : (Node.mk .list ps).height < n.height := by
          cases n with | mk a ks => exact height_kids (v := a) (ks := ks) e2
        have f2 := height_kids (v := .list) e3
        have f3 := height_kids (v := .described) (ks := qs) hk
        have f4 : l.height < k.height := by
          cases k with | mk a ks => exact height_kids (v := a) (ks := ks) hl
        omega
      rw [bind_def, autoEnter_eq (scoped_payloadDump c.fuel) hs, if_pos rfl]
      have := (hp _ (pos_enter hn).next).1
      rw [hn]
      refine Eq.trans ?_ this
      cases (payloadDump c.fuel c.enter.next.2.next.2).1 <;> rfl
    · rw [if_neg h1, if_neg h1]
  · have hk : typeHere c.cur ≠ .described := by
      intro hk
      apply h
      unfold typeHere valueOf at hk
      unfold Cursor.type
      cases hc : c.cur with
      | none => rw [hc] at hk; cases hk
      | some n => rw [hc] at hk; exact hk
    rw [dumpData_other h]
    unfold dataText
    rw [if_neg hk]

private theorem data_envelope {c : Cursor} {p st tr : Node} (hc : c.cur = some (envelopeTree p st tr))
    (hp : p.val = .described) : (dumpData c).1 = taken p .described := by
  rw [C85_data, hc]
  show dataText (some (.mk .described [.mk (.ulong (cordaId 1)) [], .mk .list [p, st, tr]])) = _
  have h1 : dataText (some (.mk .described [.mk (.ulong (cordaId 1)) [], .mk .list [p, st, tr]])) = firstText [p, st, tr] := by
    unfold dataText
    rw [if_pos (by rfl), if_pos (by show cordaId 1 % 2 ^ 32 = 1; decide +kernel)]
    rfl
  rw [h1]
  unfold firstText
  obtain ⟨a, ks⟩ := p
  simp only [Node.val] at hp
  subst hp
  rfl

/-- **C85, the payload alone.** What is dumped does not depend on anything but the payload: neither on the schema nor on the
transforms nor on where the blob is. -/
theorem C85_payload_alone (c c' : Cursor) (p st tr st' tr' : Node) (hc : c.cur = some (envelopeTree p st tr))
    (hc' : c'.cur = some (envelopeTree p st' tr')) : (dumpData c).1 = (dumpData c').1 := by
  by_cases hp : p.val = .described
  · rw [data_envelope hc hp, data_envelope hc' hp]
  · have key : ∀ {c : Cursor} {st tr : Node}, c.cur = some (envelopeTree p st tr) →
        (dumpData c).1 = .throw "Expected a Described type" := by
      intro c st tr hc
      rw [C85_data, hc]
      show dataText (some (.mk .described [.mk (.ulong (cordaId 1)) [], .mk .list [p, st, tr]])) = _
      have h1 : dataText (some (.mk .described [.mk (.ulong (cordaId 1)) [], .mk .list [p, st, tr]]))
          = firstText [p, st, tr] := by
        unfold dataText
        rw [if_pos (by rfl), if_pos (by show cordaId 1 % 2 ^ 32 = 1; decide +kernel)]
        rfl
      rw [h1]
      unfold firstText
      obtain ⟨a, ks⟩ := p
      cases a <;> first | rfl | exact absurd rfl hp
    rw [key hc, key hc']

/-- **C85, maps with one entry.** Of an entry the value is shown twice, the first time taken for what the key is; of the key
nothing but its type matters. -/
theorem C85_one_entry (c : Cursor) (d : Str) (k v st tr : Node)
    (hc : c.cur = some (envelopeTree (described d (.mk .map [k, v])) st tr)) :
    (dumpData c).1 = (do
      let x ← taken v k.val.type
      let y ← taken v v.val.type
      pure (colon d (brackets [colon x y]))) := by
  rw [data_envelope hc rfl]
  unfold described
  rw [taken, if_neg (by simp), if_neg (by simp), if_pos rfl]
  have h1 : nth [Node.mk (.symbol d) [], .mk .map [k, v]] 1 = some (.mk .map [k, v]) := rfl
  have h0 : nth [Node.mk (.symbol d) [], .mk .map [k, v]] 0 = some (.mk (.symbol d) []) := rfl
  rw [showAt_nth h1, h0, h1]
  have hm : typeHere (some (Node.mk .map [k, v])) = .map := rfl
  rw [hm]
  have ht : taken (.mk .map [k, v]) .map = brackets <$> slippedTaken [k, v] (takenParts [k, v]) := by
    rw [taken, if_neg (by simp), if_pos rfl, if_pos (by rfl)]
  have hn : ∀ i, nth [k, v] (i + 1) = some v := by
    intro i
    unfold nth
    rw [show min (i + 1) ([k, v].length - 1) = 1 by simp]
    rfl
  have hs : slippedTaken [k, v] (takenParts [k, v]) = (do
      let x ← taken v k.val.type
      let y ← taken v v.val.type
      pure [colon x y]) := by
    unfold slippedTaken
    rw [if_neg (by simp), show ([k, v].length + 1) / 2 = 1 by simp]
    simp only [List.range_succ, List.range_zero, List.nil_append, List.map_cons, List.map_nil, all, Nat.mul_zero,
      Nat.zero_add]
    rw [showAt_nth (hn 0), showAt_nth (hn 1), show nth [k, v] 1 = some v from hn 0, show nth [k, v] 0 = some k from rfl]
    show _ = Res.bind (taken v (typeHere (some k))) _
    cases taken v (typeHere (some k)) with
    | ok x =>
      show _ = Res.bind (taken v (typeHere (some v))) _
      cases h : taken v (typeHere (some v)) <;> simp [Res.bind, h]
    | throw m => rfl
    | ub m => rfl
  rw [ht, hs]
  rw [show textOf (some (Node.mk (.symbol d) [])) = .ok d from rfl]
  generalize taken v k.val.type = r
  generalize taken v v.val.type = r'
  cases r <;> cases r' <;> simp [Res.bind]

/-! ### Examples -/

/-- A map from a number to a list: the key is shown as the name of the type of the value. -/
example : (dumpData (Cursor.root (envelopeTree (described "m".toList (.mk .map [.mk (.int 1) [], .mk .list [.mk (.int 2) []]]))
    (.mk .null []) (.mk .null [])))).1 = .ok "m : [ list : [ 2 ] ]".toList := by decide +kernel
/-- A described value without list or map. -/
example : (dumpData (Cursor.root (envelopeTree (described "m".toList (.mk (.int 1) [])) (.mk .null []) (.mk .null [])))).1
    = .throw "Described data must be either a list or map" := by decide +kernel
/-- A payload that is a bare value. -/
example : (dumpData (Cursor.root (envelopeTree (.mk (.string "x".toList) []) (.mk .null []) (.mk .null [])))).1
    = .throw "Expected a Described type" := by decide +kernel
/-- The description evaluates as well. -/
example : taken (described "f".toList (.mk .list [.mk .list [], .mk (.bool true) []])) .described
    = .ok "f : [ [ <<<Empty List>>> ], true ]".toList := by decide +kernel

#print axioms C85_data
#print axioms C85_payload_alone
#print axioms C85_one_entry

end Corda.Props
