import Verif.Lemmas.Prog
import Verif.Lemmas.Writer
import Verif.Spec.RoundTrip

/-
Reading back what was written.
-/

namespace Corda
open Prog Spec

/-- On that node, the program returns that value and steps on. -/
def Reads {α : Type} (p : Prog α) (n : Node) (v : α) : Prop :=
  ∀ c : Cursor, c.cur = some n → p c = (.ok v, c.next.2)

/-- On that node, the program does not return. -/
def Fails {α : Type} (p : Prog α) (n : Node) : Prop :=
  ∀ c : Cursor, c.cur = some n → ∀ v, (p c).1 ≠ .ok v

theorem attest_ok {t : PnType} {m : String} {c : Cursor} (h : c.type = t) : attest t m c = (.ok (), c) := by
  simp [attest, h]

theorem attest_no {t : PnType} {m : String} {c : Cursor} (h : c.type ≠ t) : attest t m c = (.throw m, c) := by
  simp [attest, h]

theorem type_of_cur {c : Cursor} {n : Node} (h : c.cur = some n) : c.type = n.val.type := by
  simp [Cursor.type, h]

theorem narrow_char (n : Int) : narrow ((n % 2 ^ 32).toNat) = (n + 128) % 256 - 128 := by
  unfold narrow
  omega

/-- Reading a primitive where one of that type was written. -/
theorem reads_prim (ptr : Bool) (v : Prim) : Reads (readProp (.prim ptr v.type)) (primNode v) (.prim (received v)) := by
  intro c hc
  unfold readProp
  have hv : c.val = some (primNode v).val := by simp [Cursor.val, hc]
  have ht := type_of_cur hc
  unfold autoNext
  suffices h : primGet v.type c = (.ok (received v), c) by
    have : (do let v ← primGet v.type; pure (RVal.prim v) : Prog RVal) c = (.ok (.prim (received v)), c) := by
      rw [bind_of_ok h]; rfl
    rw [this]
  cases v <;>
    simp only [Prim.type, primGet, attestInt, attestBool, attestFloat, attestDouble, attestLong, attestChar,
      primNode, Node.val] at *
  case string s =>
    simp [bind_def, attestString, ht, Atom.type, lookR, cString, hv, received, pure_def]
  case char n =>
    simp only [Atom.type] at ht
    rw [bind_of_ok (attest_ok ht)]
    simp only [bind_def, look, getChar, hv, received, pure_def, narrow_char]
  all_goals
    simp only [Atom.type] at ht
    rw [bind_of_ok (attest_ok ht)]
    simp only [bind_def, look, getInt, getBool, getFloat, getDouble, getLong, hv, received, pure_def]

/-- Nothing but its own type is read as a primitive; strings are different. -/
theorem primGet_type (t : PrimType) (c : Cursor) (v : Prim) (h : (primGet t c).1 = .ok v) : c.type = amqpType t := by
  have key : ∀ (pt : PnType) (m : String) (f : Unit → Prog Prim), ((attest pt m >>= f) c).1 = .ok v → c.type = pt := by
    intro pt m f h
    by_cases ht : c.type = pt
    · exact ht
    · rw [bind_of_throw (attest_no ht)] at h; simp at h
  cases t <;> simp only [primGet, attestInt, attestBool, attestFloat, attestDouble, attestLong, attestChar] at h
  case string =>
    simp only [bind_def, attestString, Bool.false_and] at h
    by_cases ht : c.type = .string
    · exact ht
    · exfalso
      have : ∀ s, c.val ≠ some (.string s) := by
        intro s hs
        apply ht
        obtain ⟨p, cu, r, u⟩ := c
        cases cu with
        | none => simp [Cursor.val] at hs
        | some n => simp [Cursor.val] at hs; simp [Cursor.type, hs, Atom.type]
      simp only [ne_eq, ht, not_false_eq_true, if_true, Bool.false_eq_true, if_false, lookR, cString] at h
      simp at h
  all_goals exact key _ _ _ h

theorem fails_null_prim (ptr : Bool) (t : PrimType) : Fails (readProp (.prim ptr t)) (.mk .null []) := by
  intro c hc v h
  unfold readProp autoNext at h
  cases hp : primGet t c with
  | mk r c' =>
    rw [bind_def, hp] at h
    cases r with
    | throw m => simp at h
    | ub w => simp at h
    | ok x =>
      have := primGet_type t c x (by rw [hp])
      rw [type_of_cur hc] at this
      cases t <;> simp [Node.val, Atom.type, amqpType] at this

/-- The cursor on the first of the parts of a node that was entered. -/
theorem startRead_described (c : Cursor) (f : Str) (ks : List Node) (hc : c.cur = some (describedNode f .list ks)) :
    ∃ c2, c2.cur.isSome = true ∧ Keeps c.enter c2 ∧ startRead c = (.ok (), c2.enter.next.2)
      ∧ c2.cur = some (.mk .list ks) := by
  obtain ⟨p, cu, r, u⟩ := c
  simp only at hc
  subst hc
  exact ⟨⟨[.mk (.symbol f) []], some (.mk .list ks), [], (p, .described, r) :: u⟩, rfl, ⟨rfl, rfl, by simp [describedNode, Cursor.enter]⟩,
    rfl, rfl⟩

/-- A composite is read if its parts are, from the first one, staying among them. -/
theorem reads_composite {α : Type} {body : Prog α} {f : Str} {ks : List Node} {v : α}
    (hb : ∀ u, ∃ c', body (⟨[], none, ks, u⟩ : Cursor).next.2 = (.ok v, c') ∧ Keeps (⟨[], none, ks, u⟩ : Cursor) c') :
    Reads (composite body) (describedNode f .list ks) v := by
  intro c hc
  obtain ⟨c2, hs, hk, hst, hcur⟩ := startRead_described c f ks hc
  unfold composite
  rw [hst]
  simp only
  have he : c2.enter = ⟨[], none, ks, (c2.prev, .list, c2.rest) :: c2.up⟩ := by simp [Cursor.enter, hcur]
  obtain ⟨c', h1, h2⟩ := hb ((c2.prev, .list, c2.rest) :: c2.up)
  rw [he, h1]
  have h3 : c'.exit = c2 := Cursor.exit_of_keeps hs (by rw [he]; exact h2)
  have h4 : c2.exit = c := Cursor.exit_of_keeps (by simp [hc]) hk
  simp only [endRead, h3, h4]

theorem fails_composite {α : Type} {body : Prog α} {f : Str} {ks : List Node}
    (hb : ∀ u v, (body (⟨[], none, ks, u⟩ : Cursor).next.2).1 ≠ .ok v) :
    Fails (composite body) (describedNode f .list ks) := by
  intro c hc v
  obtain ⟨c2, hs, hk, hst, hcur⟩ := startRead_described c f ks hc
  unfold composite
  rw [hst]
  simp only
  have he : c2.enter = ⟨[], none, ks, (c2.prev, .list, c2.rest) :: c2.up⟩ := by simp [Cursor.enter, hcur]
  rw [he]
  exact hb _ v

theorem fails_composite_null {α : Type} {body : Prog α} : Fails (composite body) (.mk .null []) := by
  intro c hc v
  have : c.type ≠ .described := by rw [type_of_cur hc]; simp [Node.val, Atom.type]
  unfold composite startRead
  rw [bind_of_throw (p := attestDescribed) (attest_no this)]
  simp

/-- Reading the parts one after the other; `more` are parts that are not read. -/
theorem readProps_cons {q : PropShape} {qs : List PropShape} {n : Node} {v : RVal} (h : Reads (readProp q) n v)
    (c : Cursor) (hc : c.cur = some n) :
    readProps (q :: qs) c = match readProps qs c.next.2 with
      | (.ok vs, c') => (.ok (v :: vs), c')
      | (.throw m, c') => (.throw m, c')
      | (.ub w, c') => (.ub w, c') := by
  rw [readProps, bind_of_ok (h c hc), bind_def]
  cases readProps qs c.next.2 with
  | mk r c' => cases r <;> rfl

/-- Where the cursor is before the parts `ts` are read: on the first of them, or anywhere if there are none. -/
def At (ts more : List Node) (c : Cursor) : Prop :=
  match ts with
  | [] => True
  | t :: ts => c.cur = some t ∧ c.rest = ts ++ more

theorem At.next {t : Node} {ts more : List Node} {c : Cursor} (h : At (t :: ts) more c) : At ts more c.next.2 := by
  cases ts with
  | nil => trivial
  | cons a ts =>
    obtain ⟨p, cu, r, u⟩ := c
    obtain ⟨h1, h2⟩ := h
    simp only at h1 h2
    subst h1 h2
    exact ⟨rfl, rfl⟩

/-- The position after reading all there is: on the last one. -/
def Last (ts : List Node) (more : List Node) (c : Cursor) : Prop :=
  more = [] → ∀ t, ts.getLast? = some t → c.cur = some t ∧ c.rest = []

mutual

theorem reads_object : (s : Shape) → (o : Obj) → Matches s o → ∀ v, valueWith received o = some v → ∀ ptr,
    Reads (readProp (.obj ptr s)) (objTree o) v
  | s, .comp n f ms => by
    intro hm v hv ptr
    obtain ⟨ps, rfl, hm⟩ := hm
    rw [readProp, objTree]
    simp only [valueWith, Option.map_eq_some_iff] at hv
    obtain ⟨vs, hvs, rfl⟩ := hv
    apply reads_composite
    intro u
    have hat : At (memberTrees ms) [] (⟨[], none, memberTrees ms, u⟩ : Cursor).next.2 := by
      cases memberTrees ms with
      | nil => trivial
      | cons a as => exact ⟨rfl, (List.append_nil _).symm⟩
    obtain ⟨c', h1, h2, -⟩ := reads_members ps ms hm vs hvs [] _ hat
    exact ⟨c', by rw [readShape, bind_of_ok h1]; rfl, (Cursor.next_keeps _).trans h2⟩
  | s, .list _ _ _ => by intro hm; exact absurd hm (by simp [Matches])
  | s, .map _ _ _ => by intro hm; exact absurd hm (by simp [Matches])

theorem reads_members : (ps : List PropShape) → (ms : List Member) → MatchesAll ps ms →
    ∀ vs, valuesWith received ms = some vs → ∀ (more : List Node) (c : Cursor), At (memberTrees ms) more c →
    ∃ c', readProps ps c = (.ok vs, c') ∧ Keeps c c' ∧ Last (memberTrees ms) more c'
  | ps, [] => by
    intro hm vs hv more c _
    simp only [MatchesAll] at hm
    subst hm
    simp only [valuesWith, Option.some.injEq] at hv
    subst hv
    exact ⟨c, rfl, Keeps.refl c, by intro _ t ht; simp [memberTrees] at ht⟩
  | ps, m :: ms => by
    intro hm vs hv more c hat
    obtain ⟨q, qs, rfl, h1, h2⟩ := hm
    simp only [valuesWith] at hv
    cases hv1 : memberWith received m with
    | none => rw [hv1] at hv; simp at hv
    | some v =>
      cases hv2 : valuesWith received ms with
      | none => rw [hv1, hv2] at hv; simp at hv
      | some ws =>
        rw [hv1, hv2] at hv
        simp only [Option.some.injEq] at hv
        subst hv
        have hr := reads_member q m h1 v hv1
        rw [memberTrees] at hat
        obtain ⟨c', h3, h4, h5⟩ := reads_members qs ms h2 ws hv2 more c.next.2 hat.next
        refine ⟨c', by rw [readProps_cons hr c hat.1, h3], (Cursor.next_keeps c).trans h4, ?_⟩
        intro hmore t ht
        rw [memberTrees] at ht
        cases hts : memberTrees ms with
        | cons a as =>
          apply h5 hmore
          rw [hts] at ht ⊢
          simpa using ht
        | nil =>
          rw [hts] at ht
          simp only [List.getLast?_singleton, Option.some.injEq] at ht
          subst ht
          have hms : ms = [] := by cases ms with
            | nil => rfl
            | cons _ _ => simp [memberTrees] at hts
          subst hms
          simp only [MatchesAll] at h2
          subst h2
          simp only [readProps, pure_def, Prod.mk.injEq, Res.ok.injEq] at h3
          rw [← h3.2]
          have hrest := hat.2
          rw [hts, hmore] at hrest
          simp only [List.append_nil] at hrest
          have : c.next.2 = c := by unfold Cursor.next; rw [hrest]
          rw [this]
          exact ⟨hat.1, hrest⟩

theorem reads_member : (p : PropShape) → (m : Member) → MatchesProp p m → ∀ v, memberWith received m = some v →
    Reads (readProp p) (memberTree m) v
  | p, .prim n ptr w => by
    intro hm v hv
    simp only [MatchesProp] at hm
    subst hm
    simp only [memberWith, Option.some.injEq] at hv
    subst hv
    rw [memberTree]
    exact reads_prim ptr w
  | p, .nullPrim n t => by intro _ v hv; simp [memberWith] at hv
  | p, .obj n t ptr o => by
    intro hm v hv
    obtain ⟨s, rfl, hm⟩ := hm
    rw [memberTree]
    exact reads_object s o hm v hv ptr
  | p, .nullObj n t => by intro _ v hv; simp [memberWith] at hv

end

mutual

theorem fails_object : (s : Shape) → (o : Obj) → Matches s o → valueWith received o = none → ∀ ptr,
    Fails (readProp (.obj ptr s)) (objTree o)
  | s, .comp n f ms => by
    intro hm hv ptr
    obtain ⟨ps, rfl, hm⟩ := hm
    rw [readProp, objTree]
    simp only [valueWith, Option.map_eq_none_iff] at hv
    apply fails_composite
    intro u v h
    have hat : At (memberTrees ms) [] (⟨[], none, memberTrees ms, u⟩ : Cursor).next.2 := by
      cases memberTrees ms with
      | nil => trivial
      | cons a as => exact ⟨rfl, (List.append_nil _).symm⟩
    have := fails_members ps ms hm hv [] _ hat
    rw [readShape, bind_def] at h
    cases hr : readProps ps (⟨[], none, memberTrees ms, u⟩ : Cursor).next.2 with
    | mk r c' =>
      rw [hr] at h this
      cases r with
      | ok vs => exact this vs rfl
      | throw m => simp at h
      | ub w => simp at h
  | s, .list _ _ _ => by intro hm; exact absurd hm (by simp [Matches])
  | s, .map _ _ _ => by intro hm; exact absurd hm (by simp [Matches])

theorem fails_members : (ps : List PropShape) → (ms : List Member) → MatchesAll ps ms →
    valuesWith received ms = none → ∀ (more : List Node) (c : Cursor), At (memberTrees ms) more c →
    ∀ vs, (readProps ps c).1 ≠ .ok vs
  | ps, [] => by intro _ hv; simp [valuesWith] at hv
  | ps, m :: ms => by
    intro hm hv more c hat vs
    obtain ⟨q, qs, rfl, h1, h2⟩ := hm
    rw [memberTrees] at hat
    cases hv1 : memberWith received m with
    | none =>
      have hf := fails_member q m h1 hv1 c hat.1
      rw [readProps, bind_def]
      cases hr : readProp q c with
      | mk r c' =>
        rw [hr] at hf
        cases r with
        | ok v => exact absurd rfl (hf v)
        | throw m => simp
        | ub w => simp
    | some v =>
      have hv2 : valuesWith received ms = none := by
        cases h : valuesWith received ms with
        | none => rfl
        | some ws => simp [valuesWith, hv1, h] at hv
      have hr := reads_member q m h1 v hv1
      have hf := fails_members qs ms h2 hv2 more c.next.2 hat.next
      rw [readProps_cons hr c hat.1]
      cases hx : readProps qs c.next.2 with
      | mk r c' =>
        rw [hx] at hf
        cases r with
        | ok ws => exact absurd rfl (hf ws)
        | throw m => simp
        | ub w => simp

theorem fails_member : (p : PropShape) → (m : Member) → MatchesProp p m → memberWith received m = none →
    Fails (readProp p) (memberTree m)
  | p, .prim n ptr w => by intro _ hv; simp [memberWith] at hv
  | p, .nullPrim n t => by
    intro hm _
    simp only [MatchesProp] at hm
    subst hm
    rw [memberTree]
    exact fails_null_prim true t
  | p, .obj n t ptr o => by
    intro hm hv
    obtain ⟨s, rfl, hm⟩ := hm
    rw [memberTree]
    exact fails_object s o hm hv ptr
  | p, .nullObj n t => by
    intro hm _
    obtain ⟨s, rfl⟩ := hm
    rw [memberTree, readProp]
    exact fails_composite_null

end

/-! Changing the primitives that are not changed. -/

theorem received_clean (v : Prim) (h : Clean v) : received v = v := by
  cases v with
  | string s =>
    simp only [received, Prim.string.injEq]
    simp only [Clean] at h
    induction s with
    | nil => rfl
    | cons a s ih =>
      simp only [List.mem_cons, not_or] at h
      rw [List.takeWhile_cons_of_pos (by simpa using Ne.symm h.1), ih h.2]
  | char n =>
    simp only [Clean] at h
    simp only [received, Prim.char.injEq]
    omega
  | int n => rfl
  | bool b => rfl
  | float n => rfl
  | double n => rfl
  | long n => rfl

mutual

theorem value_congr (f g : Prim → Prim) : (o : Obj) → (∀ v ∈ prims o, f v = g v) → valueWith f o = valueWith g o
  | .comp _ _ ms => by
    intro h
    rw [prims] at h
    rw [valueWith, valueWith, values_congr f g ms h]
  | .list _ _ _ => by intro _; rw [valueWith, valueWith] <;> simp
  | .map _ _ _ => by intro _; rw [valueWith, valueWith] <;> simp

theorem values_congr (f g : Prim → Prim) : (ms : List Member) → (∀ v ∈ primsMembers ms, f v = g v) →
    valuesWith f ms = valuesWith g ms
  | [] => by intro _; rfl
  | m :: ms => by
    intro h
    rw [primsMembers] at h
    rw [valuesWith, valuesWith, member_congr f g m (fun v hv => h v (by simp [hv])),
      values_congr f g ms (fun v hv => h v (by simp [hv]))]

theorem member_congr (f g : Prim → Prim) : (m : Member) → (∀ v ∈ primsMember m, f v = g v) →
    memberWith f m = memberWith g m
  | .prim _ _ v => by intro h; simp only [memberWith]; rw [h v (by simp [primsMember])]
  | .nullPrim _ _ => by intro _; rfl
  | .obj _ _ _ o => by intro h; rw [primsMember] at h; rw [memberWith, memberWith, value_congr f g o h]
  | .nullObj _ _ => by intro _; rfl

end

mutual

/-- Whether there is a null does not depend on how primitives arrive. -/
theorem value_none (f g : Prim → Prim) : (o : Obj) → (valueWith f o = none ↔ valueWith g o = none)
  | .comp _ _ ms => by simp only [valueWith, Option.map_eq_none_iff]; exact values_none f g ms
  | .list _ _ _ => by rw [valueWith, valueWith] <;> simp
  | .map _ _ _ => by rw [valueWith, valueWith] <;> simp

theorem values_none (f g : Prim → Prim) : (ms : List Member) → (valuesWith f ms = none ↔ valuesWith g ms = none)
  | [] => by simp [valuesWith]
  | m :: ms => by
    have h1 := member_none f g m
    have h2 := values_none f g ms
    simp only [valuesWith]
    cases ha : memberWith f m <;> cases hb : memberWith g m <;> simp [ha, hb] at h1 <;>
      cases hc : valuesWith f ms <;> cases hd : valuesWith g ms <;> simp [hc, hd] at h2 <;> simp

theorem member_none (f g : Prim → Prim) : (m : Member) → (memberWith f m = none ↔ memberWith g m = none)
  | .prim _ _ v => by simp [memberWith]
  | .nullPrim _ _ => by simp [memberWith]
  | .obj _ _ _ o => by rw [memberWith, memberWith]; exact value_none f g o
  | .nullObj _ _ => by simp [memberWith]

end

/-! Objects that a class can read have no containers, so they can always be written. -/

mutual

theorem classes_matched : (s : Shape) → (o : Obj) → Matches s o → ∀ u ∈ classes o, u.2 = none
  | s, .comp n f ms => by
    intro hm u hu
    obtain ⟨ps, rfl, hm⟩ := hm
    rw [classes, List.mem_cons] at hu
    rcases hu with rfl | hu
    · rfl
    · exact classes_matchedAll ps ms hm u hu
  | s, .list _ _ _ => by intro hm; exact absurd hm (by simp [Matches])
  | s, .map _ _ _ => by intro hm; exact absurd hm (by simp [Matches])

theorem classes_matchedAll : (ps : List PropShape) → (ms : List Member) → MatchesAll ps ms →
    ∀ u ∈ classesMembers ms, u.2 = none
  | ps, [] => by simp [classesMembers]
  | ps, m :: ms => by
    intro hm u hu
    obtain ⟨q, qs, rfl, h1, h2⟩ := hm
    rw [classesMembers, List.mem_append] at hu
    rcases hu with hu | hu
    · exact classes_matchedProp q m h1 u hu
    · exact classes_matchedAll qs ms h2 u hu

theorem classes_matchedProp : (p : PropShape) → (m : Member) → MatchesProp p m → ∀ u ∈ classesMember m, u.2 = none
  | p, .prim _ _ _ => by simp [classesMember]
  | p, .nullPrim _ _ => by simp [classesMember]
  | p, .obj _ _ _ o => by
    intro hm u hu
    obtain ⟨s, rfl, hm⟩ := hm
    rw [classesMember] at hu
    exact classes_matched s o hm u hu
  | p, .nullObj _ _ => by simp [classesMember]

end

/-- `readyPayload` on a fresh envelope. -/
theorem readyPayload_root (f : Str) (v : Atom) (ks ts : List Node) (x : Node) :
    readyPayload (Cursor.root (envelopeTree (describedNode f v ks) (schemaTree ts) x))
      = (.ok (), ⟨[], some (describedNode f v ks), [schemaTree ts, x],
          [([.mk (.ulong (cordaId 1)) []], .list, []), ([], .described, [])]⟩) := rfl

/-- `readyPayload` where reading the payload stopped. -/
theorem readyPayload_again (p : List Node) (ts r : List Node) (u : List (List Node × Atom × List Node)) :
    (readyPayload ⟨p, some (schemaTree ts), r, u⟩).1 = .throw "Expected a Described type" := rfl

theorem objTree_described (o : Obj) : ∃ f v ks, objTree o = describedNode f v ks := by
  cases o <;> rw [objTree] <;> exact ⟨_, _, _, rfl⟩

end Corda
