import Verif.Spec.AnyObject
import Verif.Lemmas.Meaning
import Verif.Lemmas.Accepted
import Verif.Lemmas.ObjectAt
import Verif.Props.RoundTrip

/-
C88: what reading an object makes of any tree.
-/

namespace Corda.Props
open Corda Prog Spec ObjectAt

/-- Wherever the cursor is on that node, the outcome is that one, and if there is a value the cursor has moved on. -/
private def Reading {α : Type} (p : Prog α) (n : Option Node) (r : Res α) : Prop :=
  ∀ c : Cursor, c.cur = n → (p c).1 = r ∧ ∀ v, r = .ok v → (p c).2 = c.next.2

private theorem reading_prim (ptr : Bool) (t : PrimType) (n : Option Node) :
    Reading (readProp (.prim ptr t)) n (valueRead (.prim ptr t) n) := by
  intro c hc
  unfold readProp valueRead autoNext
  rw [bind_def, primGet_at t n c hc]
  cases primAt t n <;> exact ⟨rfl, fun _ _ => rfl⟩

private theorem startRead_at (n : Option Node) (c : Cursor) (h : c.cur = n) :
    (∃ ls c2, objectParts n = .ok ls ∧ startRead c = (.ok (), c2.enter.next.2) ∧ Keeps c.enter c2
        ∧ c2.cur = some (.mk .list ls) ∧ c.cur.isSome = true) ∨
      ∃ m c2, objectParts n = .throw m ∧ startRead c = (.throw m, c2) := by
  unfold objectParts startRead
  rcases attestDescribed_at n c h with ⟨ks, h1, h2⟩ | ⟨m, h1, h2⟩
  · have hn := h.trans (described_some h1)
    have hp := (pos_enter hn).next
    rw [h1, bind_of_ok h2]
    have hu : readUint64 c.enter.next.2 = (.ok (getUlong c.enter.next.2), c.enter.next.2.next.2) := rfl
    rw [bind_of_ok (show enterFirst c = (.ok (), c.enter.next.2) from rfl), bind_of_ok hu]
    rcases attestList_at (nth ks 1) c.enter.next.2.next.2 hp.1 with ⟨ls, h3, h4⟩ | ⟨m, h3, h4⟩
    · refine .inl ⟨ls, c.enter.next.2.next.2, h3, ?_, (Cursor.next_keeps _).trans (Cursor.next_keeps _),
        hp.1.trans (list_some h3), by rw [hn]; rfl⟩
      rw [bind_of_ok h4]; rfl
    · exact .inr ⟨m, _, h3, bind_of_throw h4⟩
  · exact .inr ⟨m, _, by rw [h1]; rfl, bind_of_throw h2⟩

/-- A composite, given what its body makes of the parts. -/
private theorem reading_composite {α : Type} {body : Prog α} {n : Option Node} {r : List Node → Res α}
    (hb : ∀ ls c, Pos ls 0 c → (body c).1 = r ls ∧ ∀ v, r ls = .ok v → Keeps c (body c).2) :
    Reading (composite body) n (objectParts n >>= r) := by
  intro c hc
  unfold composite
  rcases startRead_at n c hc with ⟨ls, c2, h1, h2, h3, h4, h5⟩ | ⟨m, c2, h1, h2⟩
  · obtain ⟨h6, h7⟩ := hb ls c2.enter.next.2 (pos_enter h4)
    rw [h2, h1]
    refine ⟨h6, fun v hv => ?_⟩
    have h8 : (body c2.enter.next.2).2.exit = c2 :=
      Cursor.exit_of_keeps (by rw [h4]; rfl) ((Cursor.next_keeps _).trans (h7 v hv))
    show endRead _ = _
    unfold endRead
    rw [h8, Cursor.exit_of_keeps h5 h3]
  · rw [h2, h1]
    exact ⟨rfl, fun v hv => by cases hv⟩

mutual

private theorem reading_prop : (p : PropShape) → (n : Option Node) → Reading (readProp p) n (valueRead p n)
  | .prim ptr t, n => reading_prim ptr t n
  | .obj ptr s, n => by
    rw [readProp, valueRead]
    exact reading_composite (fun ls c hc => reading_class s ls c hc)
  | .vector, n => by
    rw [readProp, valueRead]
    refine reading_composite fun ls c hc => ?_
    rcases attestList_at (nth ls 0) c hc.1 with ⟨ks, h3, h4⟩ | ⟨m, h3, h4⟩
    · rw [bind_of_ok h4, bind_of_ok h4, h3]
      exact ⟨rfl, fun v hv => by cases hv⟩
    · rw [bind_of_throw h4, h3]
      exact ⟨rfl, fun v hv => by cases hv⟩

private theorem reading_class : (s : Shape) → (ls : List Node) → (c : Cursor) → Pos ls 0 c →
    (readShape s c).1 = classAs s ls ∧ ∀ v, classAs s ls = .ok v → Keeps c (readShape s c).2
  | .mk ps, ls, c, hc => by
    obtain ⟨h1, h2⟩ := reading_props ps ls 0 c hc
    rw [readShape, classAs, bind_def]
    rcases hr : readProps ps c with ⟨r, c'⟩
    rw [hr] at h1 h2
    simp only at h1 h2
    rw [← h1] at h2 ⊢
    cases r with
    | ok vs => exact ⟨rfl, fun v _ => h2 vs rfl⟩
    | throw m => exact ⟨rfl, fun v hv => by cases hv⟩
    | ub m => exact ⟨rfl, fun v hv => by cases hv⟩

private theorem reading_props : (ps : List PropShape) → (ls : List Node) → (i : Nat) → (c : Cursor) → Pos ls i c →
    (readProps ps c).1 = propsAs ps ls i ∧ ∀ v, propsAs ps ls i = .ok v → Keeps c (readProps ps c).2
  | [], ls, i, c, _ => by rw [readProps, propsAs]; exact ⟨rfl, fun _ _ => Keeps.refl c⟩
  | p :: ps, ls, i, c, hc => by
    obtain ⟨h1, h2⟩ := reading_prop p (nth ls i) c hc.1
    rw [readProps, propsAs, bind_def]
    rcases hr : readProp p c with ⟨r, c'⟩
    rw [hr] at h1 h2
    simp only at h1 h2
    rw [← h1] at h2 ⊢
    cases r with
    | ok v =>
      have h3 := h2 v rfl
      subst h3
      obtain ⟨h4, h5⟩ := reading_props ps ls (i + 1) c.next.2 hc.next
      rcases hr' : readProps ps c.next.2 with ⟨r', c''⟩
      rw [hr'] at h4 h5
      simp only at h4 h5
      rw [← h4] at h5
      simp only [bind_def, hr', ← h4]
      cases r' with
      | ok vs => exact ⟨rfl, fun v _ => (Cursor.next_keeps _).trans (h5 vs rfl)⟩
      | throw m => exact ⟨rfl, fun v hv => by cases hv⟩
      | ub m => exact ⟨rfl, fun v hv => by cases hv⟩
    | throw m => exact ⟨rfl, fun v hv => by cases hv⟩
    | ub m => exact ⟨rfl, fun v hv => by cases hv⟩

end

private theorem ready_at (n : Option Node) (c : Cursor) (h : c.cur = n) :
    (∃ m c2, payloadPart n = .ok m ∧ readyPayload c = (.ok (), c2) ∧ c2.cur = m ∧ ∃ ls, objectParts n = .ok ls ∧ Pos ls 0 c2) ∨
      ∃ m c2, payloadPart n = .throw m ∧ readyPayload c = (.throw m, c2) := by
  have he : readyPayload = (startRead >>= fun _ => attestDescribed >>= fun _ => autoEnter (pure ())) := by
    unfold readyPayload startRead
    simp only [prog_assoc]
  unfold payloadPart
  rw [he]
  rcases startRead_at n c h with ⟨ls, c2, h1, h2, -, h4, -⟩ | ⟨m, c2, h1, h2⟩
  · rw [h1, bind_of_ok h2]
    have hp := pos_enter h4
    rcases attestDescribed_at (nth ls 0) c2.enter.next.2 hp.1 with ⟨ks, h5, h6⟩ | ⟨m, h5, h6⟩
    · refine .inl ⟨nth ls 0, c2.enter.next.2, ?_, ?_, hp.1, ls, rfl, hp⟩
      · show (describedParts (nth ls 0) >>= fun _ => _) = _
        rw [h5]; rfl
      · rw [bind_of_ok h6, autoEnter_eq (scoped_pure ())]
        · rfl
        · rw [hp.1]
          show (nth ls 0).isSome = true
          rw [described_some h5]; rfl
    · refine .inr ⟨m, _, ?_, bind_of_throw h6⟩
      show (describedParts (nth ls 0) >>= fun _ => _) = _
      rw [h5]; rfl
  · exact .inr ⟨m, c2, by rw [h1]; rfl, bind_of_throw h2⟩

/-- **C88.** Deserialising any class from any tree, with the cursor anywhere in it, has the outcome described in the
specification: the same object, the same exception or the same undefined behaviour. -/
theorem C88_any (p : PropShape) (c : Cursor) : (deserialise p c).1 = objectFrom p c.cur := by
  unfold deserialise objectFrom
  rcases ready_at c.cur c rfl with ⟨m, c2, h1, h2, h3, -⟩ | ⟨m, c2, h1, h2⟩
  · rw [h1, bind_of_ok h2]
    exact (reading_prop p m c2 h3).1
  · rw [h1, bind_of_throw h2]; rfl

/-- A property that is read leaves the cursor on what follows it. -/
theorem read_moves (p : PropShape) (c : Cursor) (v : RVal) (h : (readProp p c).1 = .ok v) : (readProp p c).2 = c.next.2 := by
  obtain ⟨h1, h2⟩ := reading_prop p c.cur c rfl
  exact h2 v (h1.symm.trans h)

/-- Where the cursor is when an object has been read: on what follows the object in the envelope. -/
theorem deserialised_at (p : PropShape) (c : Cursor) (v : RVal) (h : (deserialise p c).1 = .ok v) :
    ∃ ls, objectParts c.cur = .ok ls ∧ (deserialise p c).2.cur = nth ls 1 := by
  have ha := C88_any p c
  rw [h] at ha
  unfold deserialise objectFrom at *
  rcases ready_at c.cur c rfl with ⟨m, c2, h1, h2, h3, ls, h4, h5⟩ | ⟨m, c2, h1, h2⟩
  · rw [bind_of_ok h2]
    rw [h1] at ha
    refine ⟨ls, h4, ?_⟩
    rw [(reading_prop p m c2 h3).2 v ha.symm]
    exact h5.next.1
  · rw [bind_of_throw h2] at h; cases h

private theorem primAt_ok (t : PrimType) (n : Option Node) :
    (∃ v, primAt t n = .ok v) ↔ ∃ a, valueOf n = some a ∧ a.type = amqpType t := by
  unfold primAt
  cases valueOf n with
  | none => cases t <;> simp
  | some a => cases t <;> cases a <;> simp [Atom.type, amqpType]

private theorem primAt_type (t : PrimType) (n : Option Node) (v : Prim) (h : primAt t n = .ok v) : v.type = t := by
  unfold primAt at h
  split at h <;> first | (cases h; rfl) | cases h

theorem bind_ok_iff {α β : Type} (r : Res α) (k : α → Res β) (v : β) :
    (r >>= k) = .ok v ↔ ∃ a, r = .ok a ∧ k a = .ok v := by
  cases r with
  | ok a => exact ⟨fun h => ⟨a, rfl, h⟩, fun ⟨_, h1, h2⟩ => by cases h1; exact h2⟩
  | throw m => exact ⟨fun h => (by cases h), fun ⟨_, h1, _⟩ => by cases h1⟩
  | ub m => exact ⟨fun h => (by cases h), fun ⟨_, h1, _⟩ => by cases h1⟩

theorem describedParts_ok (n : Option Node) (ks : List Node) :
    describedParts n = .ok ks ↔ n = some (.mk .described ks) :=
  ⟨described_some, fun h => by subst h; rfl⟩

private theorem listParts_ok (n : Option Node) (ks : List Node) : listParts n = .ok ks ↔ n = some (.mk .list ks) :=
  ⟨list_some, fun h => by subst h; rfl⟩

theorem objectParts_ok (n : Option Node) (ls : List Node) :
    objectParts n = .ok ls ↔ ∃ ks, n = some (.mk .described ks) ∧ nth ks 1 = some (.mk .list ls) := by
  unfold objectParts
  simp only [bind_ok_iff, describedParts_ok, listParts_ok]

mutual

private theorem suits_iff : (p : PropShape) → (n : Option Node) → ((∃ v, valueRead p n = .ok v) ↔ Suits p n)
  | .prim ptr t, n => by
    rw [valueRead, Suits, ← primAt_ok]
    simp only [bind_ok_iff]
    exact ⟨fun ⟨_, v, h, _⟩ => ⟨v, h⟩, fun ⟨v, h⟩ => ⟨_, v, h, rfl⟩⟩
  | .obj ptr s, n => by
    rw [valueRead, Suits]
    simp only [bind_ok_iff, objectParts_ok]
    exact ⟨fun ⟨v, ls, ⟨ks, h1, h2⟩, h3⟩ => ⟨ks, ls, h1, h2, (suitsClass_iff s ls).1 ⟨v, h3⟩⟩,
      fun ⟨ks, ls, h1, h2, h3⟩ => ((suitsClass_iff s ls).2 h3).imp fun v h => ⟨ls, ⟨ks, h1, h2⟩, h⟩⟩
  | .vector, n => by
    rw [valueRead, Suits]
    simp only [bind_ok_iff]
    exact ⟨fun ⟨_, _, _, _, _, h⟩ => (by cases h), False.elim⟩

private theorem suitsClass_iff : (s : Shape) → (ls : List Node) → ((∃ v, classAs s ls = .ok v) ↔ SuitsClass s ls)
  | .mk ps, ls => by
    rw [classAs, SuitsClass, ← suitsFrom_iff ps ls 0]
    simp only [bind_ok_iff]
    exact ⟨fun ⟨_, v, h, _⟩ => ⟨v, h⟩, fun ⟨v, h⟩ => ⟨_, v, h, rfl⟩⟩

private theorem suitsFrom_iff : (ps : List PropShape) → (ls : List Node) → (i : Nat) →
    ((∃ v, propsAs ps ls i = .ok v) ↔ SuitsFrom ps ls i)
  | [], ls, i => by rw [propsAs, SuitsFrom]; exact ⟨fun _ => trivial, fun _ => ⟨_, rfl⟩⟩
  | p :: ps, ls, i => by
    rw [propsAs, SuitsFrom, ← suits_iff p, ← suitsFrom_iff ps ls]
    simp only [bind_ok_iff]
    exact ⟨fun ⟨_, v, h1, vs, h2, _⟩ => ⟨⟨v, h1⟩, vs, h2⟩, fun ⟨⟨v, h1⟩, vs, h2⟩ => ⟨_, v, h1, vs, h2, rfl⟩⟩

end

/-- **C88, when there is an object**: exactly if the blob is a described list whose first part suits the class: there is
a value of the right type for every property (the last value counting for all that are missing). -/
theorem C88_succeeds (p : PropShape) (c : Cursor) :
    (∃ v, (deserialise p c).1 = .ok v) ↔
      ∃ ks ls es, c.cur = some (.mk .described ks) ∧ nth ks 1 = some (.mk .list ls) ∧ nth ls 0 = some (.mk .described es)
        ∧ Suits p (nth ls 0) := by
  rw [C88_any, objectFrom, payloadPart]
  simp only [bind_ok_iff, objectParts_ok, describedParts_ok, ← suits_iff]
  constructor
  · rintro ⟨v, m, ⟨ls, ⟨ks, h1, h2⟩, es, h3, h4⟩, h5⟩
    cases h4
    exact ⟨ks, ls, es, h1, h2, h3, v, h5⟩
  · rintro ⟨ks, ls, es, h1, h2, h3, v, h5⟩
    exact ⟨v, _, ⟨ls, ⟨ks, h1, h2⟩, es, h3, rfl⟩, h5⟩

mutual

private theorem fitting : (p : PropShape) → (n : Option Node) → (v : RVal) → valueRead p n = .ok v → Fitting p v
  | .prim ptr t, n, v, h => by
    rw [valueRead] at h
    simp only [bind_ok_iff] at h
    obtain ⟨w, h1, h2⟩ := h
    cases h2
    rw [Fitting]
    exact ⟨w, rfl, primAt_type t n w h1⟩
  | .obj ptr s, n, v, h => by
    rw [valueRead] at h
    simp only [bind_ok_iff] at h
    obtain ⟨ls, -, h2⟩ := h
    rw [Fitting]
    exact fittingClass s ls v h2
  | .vector, n, v, h => by
    rw [valueRead] at h
    simp only [bind_ok_iff] at h
    obtain ⟨_, _, _, _, h⟩ := h
    cases h

private theorem fittingClass : (s : Shape) → (ls : List Node) → (v : RVal) → classAs s ls = .ok v → FittingClass s v
  | .mk ps, ls, v, h => by
    rw [classAs] at h
    simp only [bind_ok_iff] at h
    obtain ⟨vs, h1, h2⟩ := h
    cases h2
    rw [FittingClass]
    exact ⟨vs, rfl, fittingAll ps ls 0 vs h1⟩

private theorem fittingAll : (ps : List PropShape) → (ls : List Node) → (i : Nat) → (vs : List RVal) →
    propsAs ps ls i = .ok vs → FittingAll ps vs
  | [], ls, i, vs, h => by rw [propsAs] at h; cases h; rw [FittingAll]
  | p :: ps, ls, i, vs, h => by
    rw [propsAs] at h
    simp only [bind_ok_iff] at h
    obtain ⟨w, h1, ws, h2, h3⟩ := h
    cases h3
    rw [FittingAll]
    exact ⟨w, ws, rfl, fitting p _ w h1, fittingAll ps ls _ ws h2⟩

end

/-- **C88, what is returned**: a value for every property, each of its declared type, whatever the blob. -/
theorem C88_fits (p : PropShape) (c : Cursor) (v : RVal) (h : (deserialise p c).1 = .ok v) : Fitting p v := by
  rw [C88_any, objectFrom] at h
  simp only [bind_ok_iff] at h
  obtain ⟨m, -, h⟩ := h
  exact fitting p m v h

/-- **C88, the descriptor does not matter**: whatever stands there. -/
theorem C88_descriptor (p : PropShape) (d e x : Node) (rest : List Node) :
    valueRead p (some (.mk .described (d :: x :: rest))) = valueRead p (some (.mk .described (e :: x :: rest))) := by
  have : objectParts (some (.mk .described (d :: x :: rest))) = objectParts (some (.mk .described (e :: x :: rest))) := rfl
  cases p with
  | prim ptr t => rw [valueRead, valueRead]; cases t <;> rfl
  | obj ptr s => rw [valueRead, valueRead, this]
  | vector => rw [valueRead, valueRead, this]

private theorem propsAs_extra (ks more : List Node) : (ps : List PropShape) → (i : Nat) → i + ps.length ≤ ks.length →
    propsAs ps (ks ++ more) i = propsAs ps ks i
  | [], i, _ => by rw [propsAs, propsAs]
  | p :: ps, i, h => by
    simp only [List.length_cons] at h
    rw [propsAs, propsAs, propsAs_extra ks more ps (i + 1) (by omega)]
    have : nth (ks ++ more) i = nth ks i := by
      have h1 : i < ks.length := by omega
      have h2 : i < (ks ++ more).length := by rw [List.length_append]; omega
      rw [nth_lt h1, nth_lt h2, List.getElem?_append_left h1]
    rw [this]

/-- **C88, further parts do not matter**: those after the last property that is read are not looked at. -/
theorem C88_extra (ps : List PropShape) (ks more : List Node) (h : ps.length ≤ ks.length) :
    classAs (.mk ps) (ks ++ more) = classAs (.mk ps) ks := by
  rw [classAs, classAs, propsAs_extra ks more ps 0 (by omega)]

/-- Two properties from one value: the value counts twice; a third part and the descriptors are not looked at. -/
example :
    let blob := fun parts => Cursor.root (.mk .described [.mk (.ulong 1) [], .mk .list [.mk .described [.mk .null [], .mk .list parts]]])
    let cls : PropShape := .obj false (.mk [.prim false .int, .prim true .int])
    (deserialise cls (blob [.mk (.int 7) []])).1 = .ok (.obj [.prim (.int 7), .prim (.int 7)])
      ∧ (deserialise cls (blob [.mk (.int 7) [], .mk (.int 8) [], .mk .null []])).1 = .ok (.obj [.prim (.int 7), .prim (.int 8)])
      ∧ (deserialise cls (blob [.mk (.int 7) [], .mk (.long 8) []])).1 = .throw "Expected an Integer type"
      ∧ (deserialise cls (blob [])).1 = .throw "Expected an Integer type" := by decide +kernel

#print axioms C88_any
#print axioms C88_succeeds
#print axioms C88_fits
#print axioms C88_descriptor
#print axioms C88_extra

end Corda.Props
