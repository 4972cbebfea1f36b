import Verif.Spec.NewObjects
import Verif.Lemmas.Writer

/-
C112: what deserialising makes with `new`.
-/

namespace Corda.Props
open Corda Corda.Spec

private theorem bind_fst {α β : Type} {p : MProg α} {f : α → MProg β} {p' : Prog α} {f' : α → Prog β} (hp : ∀ c, (p c).1 = p' c)
    (hf : ∀ a c, (f a c).1 = f' a c) (c : Cursor) : (MProg.bind p f c).1 = (p' >>= f') c := by
  have h := hp c
  show _ = Prog.bind p' f' c
  unfold MProg.bind Prog.bind
  rcases hq : p c with ⟨⟨r, c'⟩, made⟩
  rw [hq] at h
  rw [← h]
  cases r with
  | ok a => exact hf a c'
  | throw m => rfl
  | ub w => rfl

private theorem composite_fst {α : Type} {p : MProg α} {p' : Prog α} (hp : ∀ c, (p c).1 = p' c) (c : Cursor) :
    (MProg.composite p c).1 = Prog.composite p' c := by
  unfold MProg.composite Prog.composite
  rcases Prog.startRead c with ⟨r, c1⟩
  cases r with
  | ok _ => simp only [hp]
  | throw m => rfl
  | ub w => rfl

private theorem taken_fst {α : Type} {p : MProg α} {p' : Prog α} (hp : ∀ c, (p c).1 = p' c) (c : Cursor) :
    (MProg.takenOver p c).1 = p' c := by
  rw [← hp]
  unfold MProg.takenOver
  rcases p c with ⟨⟨r, c'⟩, made⟩
  cases r <;> rfl

mutual

private theorem fst_prop : (p : PropShape) → ∀ c, (MProg.readProp p c).1 = Prog.readProp p c
  | .prim false t => fun c => by rw [MProg.readProp]; rfl
  | .prim true t => fun c => by
    rw [MProg.readProp, Prog.readProp]
    rfl
  | .obj false s => fun c => by
    rw [MProg.readProp, Prog.readProp]
    exact composite_fst (taken_fst (fst_shape s)) c
  | .obj true s => fun c => by
    rw [MProg.readProp, Prog.readProp]
    refine composite_fst (fun c => ?_) c
    rw [bind_fst (f' := fun v => pure v) (taken_fst (fst_shape s)) (fun _ _ => rfl)]
    show Prog.bind _ _ c = _
    unfold Prog.bind
    rcases Prog.readShape s c with ⟨r, c'⟩
    cases r <;> rfl
  | .vector => fun c => by rw [MProg.readProp]; rfl

private theorem fst_shape : (s : Shape) → ∀ c, (MProg.readShape s c).1 = Prog.readShape s c
  | .mk ps => fun c => by
    rw [MProg.readShape, Prog.readShape]
    exact bind_fst (fst_props ps) (fun _ _ => rfl) c

private theorem fst_props : (ps : List PropShape) → ∀ c, (MProg.readProps ps c).1 = Prog.readProps ps c
  | [] => fun c => by rw [MProg.readProps, Prog.readProps]; rfl
  | p :: ps => fun c => by
    rw [MProg.readProps, Prog.readProps]
    exact bind_fst (fst_prop p) (fun v c => bind_fst (fst_props ps) (fun _ _ => rfl) c) c

end

/-- **C112.** Counting does not change what is read. -/
theorem C112_same (p : PropShape) (c : Cursor) : (MProg.deserialise p c).1 = Prog.deserialise p c :=
  bind_fst (fun _ => rfl) (fun _ c => fst_prop p c) c

/-- What a step leaves, by how it ended, and where it began. -/
private def Leaves {α : Type} (p : MProg α) (good : List Made) (bad : Cursor → List Made → Prop) : Prop :=
  ∀ c, match p c with
  | ((.ok _, _), made) => made = good
  | ((.throw _, _), made) => bad c made
  | ((.ub _, _), _) => True

private theorem leaves_taken {α : Type} {p : MProg α} {good : List Made} {bad : Cursor → List Made → Prop} (h : Leaves p good bad) :
    Leaves (MProg.takenOver p) [] bad := by
  intro c
  have := h c
  unfold MProg.takenOver
  rcases hq : p c with ⟨⟨r, c'⟩, made⟩
  rw [hq] at this
  cases r with
  | ok _ => rfl
  | throw m => exact this
  | ub w => exact this

private theorem leaves_bind {α β : Type} {p : MProg α} {f : α → MProg β} {good good' : List Made} {bad bad' bad'' : Cursor → List Made → Prop}
    (h : Leaves p good bad) (hf : ∀ a, Leaves (f a) good' bad') (hb : ∀ c m, bad c m → bad'' c m)
    (hb' : ∀ c a c' m, (p c).1 = (.ok a, c') → bad' c' m → bad'' c (good ++ m)) : Leaves (MProg.bind p f) (good ++ good') bad'' := by
  intro c
  have := h c
  have hb1 := hb' c
  unfold MProg.bind
  rcases hq : p c with ⟨⟨r, c'⟩, made⟩
  rw [hq] at this hb1
  cases r with
  | ok a =>
    simp only at this
    subst this
    have h2 := hf a c'
    simp only
    rcases hr : f a c' with ⟨⟨r, c''⟩, made'⟩
    rw [hr] at h2
    cases r with
    | ok b => simp only at h2; simp only [h2]
    | throw m => exact hb1 a c' _ rfl h2
    | ub w => trivial
  | throw m => exact hb _ _ this
  | ub w => trivial

private theorem leaves_none {α : Type} (p : Prog α) : Leaves (MProg.none p) [] (fun c made => (∃ m c', p c = (.throw m, c')) ∧ made = []) := by
  intro c
  unfold MProg.none
  rcases hp : p c with ⟨r, c'⟩
  cases r with
  | ok a => rfl
  | throw m => exact ⟨⟨m, c', hp⟩, rfl⟩
  | ub w => trivial

private theorem leaves_pure {α : Type} (v : α) : Leaves (MProg.none (pure v)) [] (fun _ _ => False) := fun _ => rfl

private theorem leaves_new (m : Made) : Leaves (MProg.new m) [m] (fun _ _ => False) := fun _ => rfl

private theorem leaves_weaken {α : Type} {p : MProg α} {good : List Made} {bad bad' : Cursor → List Made → Prop} (h : Leaves p good bad)
    (hb : ∀ c m, bad c m → bad' c m) : Leaves p good bad' := by
  intro c
  have := h c
  rcases hq : p c with ⟨⟨r, c'⟩, made⟩
  rw [hq] at this
  cases r with
  | ok _ => exact this
  | throw m => exact hb _ _ this
  | ub w => trivial

/-- Failing at some property of these. -/
private def LostIn (ps : List PropShape) (c : Cursor) (m : List Made) : Prop :=
  ∃ i p path vs c', ps[i]? = some p ∧ Prog.readProps (ps.take i) c = (.ok vs, c') ∧ FailsAt path p c' ∧ m = pointees (ps.take i) ++ lost path p

/-- Failing at some place of a property. -/
private def LostAt (p : PropShape) (c : Cursor) (m : List Made) : Prop := ∃ path, FailsAt path p c ∧ m = lost path p

private theorem leaves_composite {p : MProg RVal} {good : List Made} {ps : List PropShape} (ptr : Bool) (h : Leaves p good (LostIn ps)) :
    Leaves (MProg.composite p) good (LostAt (.obj ptr (.mk ps))) := by
  intro c
  unfold MProg.composite
  rcases hs : Prog.startRead c with ⟨r, c1⟩
  cases r with
  | ok u =>
    have := h c1
    simp only
    rcases hq : p c1 with ⟨⟨r, c'⟩, made⟩
    rw [hq] at this
    cases r with
    | ok _ => exact this
    | throw m =>
      obtain ⟨i, q, path, vs, c2, h1, h2, h3, h4⟩ := this
      exact ⟨i :: path, ⟨u, c1, vs, c2, q, hs, h2, h1, h3⟩, by rw [lost, h1]; exact h4⟩
    | ub w => trivial
  | throw m => exact ⟨[], ⟨m, c1, hs⟩, rfl⟩
  | ub w => trivial

private theorem readProps_cons (p : PropShape) (ps : List PropShape) (c c1 c2 : Cursor) (v : RVal) (vs : List RVal)
    (h1 : Prog.readProp p c = (.ok v, c1)) (h2 : Prog.readProps ps c1 = (.ok vs, c2)) :
    Prog.readProps (p :: ps) c = (.ok (v :: vs), c2) := by
  rw [Prog.readProps]
  show Prog.bind _ _ c = _
  unfold Prog.bind
  rw [h1]
  show Prog.bind _ _ c1 = _
  unfold Prog.bind
  rw [h2]
  rfl

mutual

private theorem leaves_prop : (p : PropShape) → Leaves (MProg.readProp p) (pointee p) (LostAt p)
  | .prim false t => by
    rw [MProg.readProp]
    exact leaves_weaken (leaves_none _) fun c m h => ⟨[], h.1, h.2⟩
  | .prim true t => by
    have e := fst_prop (.prim true t)
    rw [MProg.readProp] at e ⊢
    have h : Leaves (MProg.bind (MProg.new (.prim t)) fun _ => MProg.none (do let v ← Prog.primGet t; pure (RVal.prim v))) ([.prim t] ++ [])
        (fun _ m => m = [.prim t]) :=
      leaves_bind (leaves_new _) (fun _ => leaves_none _) (fun _ _ h => h.elim) (fun _ _ _ m _ hm => by rw [hm.2]; rfl)
    intro c
    have := h c
    have ec := e c
    unfold MProg.autoNext at ec ⊢
    rcases hq : MProg.bind (MProg.new (.prim t)) (fun _ => MProg.none (do let v ← Prog.primGet t; pure (RVal.prim v))) c with ⟨⟨r, c'⟩, made⟩
    rw [hq] at this ec
    cases r with
    | ok _ => exact this
    | throw m => exact ⟨[], ⟨m, _, ec.symm⟩, this⟩
    | ub w => trivial
  | .obj false (.mk ps) => by
    rw [MProg.readProp]
    exact leaves_composite false (leaves_taken (leaves_shape ps))
  | .obj true (.mk ps) => by
    rw [MProg.readProp]
    refine leaves_composite true ?_
    exact leaves_bind (f := fun v => MProg.bind (MProg.new .obj) fun _ => MProg.none (pure v)) (leaves_taken (leaves_shape ps)) (good' := [.obj] ++ [])
      (bad' := fun _ _ => False) (fun v => by intro c; rfl) (fun _ _ h => h) (fun _ _ _ _ _ h => h.elim)
  | .vector => by
    rw [MProg.readProp]
    exact leaves_weaken (leaves_none _) fun c m h => ⟨[], h.1, h.2⟩

private theorem leaves_shape : (ps : List PropShape) → Leaves (MProg.readShape (.mk ps)) (pointees ps ++ []) (LostIn ps)
  | ps => by
    rw [MProg.readShape]
    exact leaves_bind (leaves_props ps) (fun v => leaves_pure _) (fun _ _ h => h) (fun _ _ _ _ _ h => h.elim)

private theorem leaves_props : (ps : List PropShape) → Leaves (MProg.readProps ps) (pointees ps) (LostIn ps)
  | [] => by
    rw [MProg.readProps]
    exact fun c => rfl
  | p :: ps => by
    rw [MProg.readProps]
    have h2 : ∀ v, Leaves (MProg.bind (MProg.readProps ps) fun vs => MProg.none (pure (v :: vs))) (pointees ps ++ []) (LostIn ps) := fun v =>
      leaves_bind (leaves_props ps) (fun vs => leaves_pure _) (fun _ _ h => h) (fun _ _ _ _ _ h => h.elim)
    have := leaves_bind (bad'' := LostIn (p :: ps)) (leaves_prop p) h2 (fun c m hm => by
      obtain ⟨path, hf, e⟩ := hm
      exact ⟨0, p, path, [], c, rfl, by rw [List.take_zero, Prog.readProps]; rfl, hf, by simpa [pointees] using e⟩) (fun c a c' m hc hm => by
      obtain ⟨i, q, path, vs, c2, h1, h2, h3, e⟩ := hm
      rw [fst_prop] at hc
      exact ⟨i + 1, q, path, a :: vs, c2, by simpa using h1, by rw [List.take_succ_cons]; exact readProps_cons _ _ _ _ _ _ _ hc h2, h3,
        by rw [e]; simp [pointees]⟩)
    rw [List.append_nil] at this
    exact this

end

/-- **C112.** When an object is read nothing is lost: what was made with `new` belongs to the objects made, and is pointed to by the result if that is a pointer. -/
theorem C112_read (p : PropShape) (c : Cursor) (v : RVal) (h : (MProg.deserialise p c).1.1 = .ok v) : (MProg.deserialise p c).2 = pointee p := by
  have := leaves_bind (bad'' := fun _ _ => True) (leaves_none Prog.readyPayload) (fun _ => leaves_prop p) (fun _ _ _ => trivial) (fun _ _ _ _ _ _ => trivial) c
  unfold MProg.deserialise at h ⊢
  rcases hq : MProg.bind (MProg.none Prog.readyPayload) (fun _ => MProg.readProp p) c with ⟨⟨r, c'⟩, made⟩
  rw [hq] at this h
  simp only at h
  subst h
  exact this

/-- **C112.** When reading throws, either the envelope is not one and nothing is lost, or it throws at some place, and what is lost are exactly the pointers already read for the
classes around that place, and a new primitive if the place is a pointer to one. -/
theorem C112_lost (p : PropShape) (c : Cursor) (m : String) (h : (MProg.deserialise p c).1.1 = .throw m) :
    ((∃ m c', Prog.readyPayload c = (.throw m, c')) ∧ (MProg.deserialise p c).2 = [])
    ∨ ∃ u c' path, Prog.readyPayload c = (.ok u, c') ∧ FailsAt path p c' ∧ (MProg.deserialise p c).2 = lost path p := by
  have := leaves_bind (bad'' := fun c made => ((∃ m c', Prog.readyPayload c = (.throw m, c')) ∧ made = [])
      ∨ ∃ u c' path, Prog.readyPayload c = (.ok u, c') ∧ FailsAt path p c' ∧ made = lost path p)
    (leaves_none Prog.readyPayload) (fun _ => leaves_prop p) (fun _ _ h => .inl h) (fun c u c' m hc hm => .inr (by
      obtain ⟨path, hf, e⟩ := hm
      exact ⟨u, c', path, hc, hf, e⟩)) c
  unfold MProg.deserialise at h ⊢
  rcases hq : MProg.bind (MProg.none Prog.readyPayload) (fun _ => MProg.readProp p) c with ⟨⟨r, c'⟩, made⟩
  rw [hq] at this h
  simp only at h
  subst h
  exact this

private theorem readProps_head {p : PropShape} (ps : List PropShape) {c c1 : Cursor} {m : String} (h : Prog.readProp p c = (.throw m, c1)) :
    Prog.readProps (p :: ps) c = (.throw m, c1) := by
  rw [Prog.readProps]
  show Prog.bind _ _ c = _
  unfold Prog.bind
  rw [h]

/-- If a property throws when those before it are read, so do all of them. -/
private theorem readProps_throws : (ps : List PropShape) → ∀ (i : Nat) (q : PropShape) (c c1 : Cursor) (vs : List RVal) (m : String) (c2 : Cursor),
    ps[i]? = some q → Prog.readProps (ps.take i) c = (.ok vs, c1) → Prog.readProp q c1 = (.throw m, c2) → ∃ c3, Prog.readProps ps c = (.throw m, c3)
  | [], i, q, c, c1, vs, m, c2, hi, _, _ => by simp at hi
  | p :: ps, 0, q, c, c1, vs, m, c2, hi, ht, hq => by
    simp only [List.getElem?_cons_zero, Option.some.injEq] at hi
    subst hi
    rw [List.take_zero, Prog.readProps] at ht
    cases ht
    exact ⟨c2, readProps_head ps hq⟩
  | p :: ps, i + 1, q, c, c1, vs, m, c2, hi, ht, hq => by
    rw [List.getElem?_cons_succ] at hi
    rw [List.take_succ_cons, Prog.readProps] at ht
    rw [Prog.readProps]
    change Prog.bind (Prog.readProp p) (fun v => Prog.bind (Prog.readProps (ps.take i)) fun vs => pure (v :: vs)) c = _ at ht
    show ∃ c3, Prog.bind (Prog.readProp p) (fun v => Prog.bind (Prog.readProps ps) fun vs => pure (v :: vs)) c = _
    unfold Prog.bind at ht ⊢
    rcases h1 : Prog.readProp p c with ⟨r, c'⟩
    rw [h1] at ht
    cases r with
    | throw m => cases ht
    | ub w => cases ht
    | ok v =>
      simp only at ht ⊢
      rcases h2 : Prog.readProps (ps.take i) c' with ⟨r, c''⟩
      rw [h2] at ht
      cases r with
      | throw m => cases ht
      | ub w => cases ht
      | ok vs' =>
        cases ht
        obtain ⟨c3, h3⟩ := readProps_throws ps i q c' c1 vs' m c2 hi h2 hq
        exact ⟨c3, by rw [h3]⟩

/-- Reading that fails at a place throws. -/
private theorem failsAt_throws : (path : List Nat) → ∀ (p : PropShape) (c : Cursor), FailsAt path p c → ∃ m c', Prog.readProp p c = (.throw m, c')
  | [], .prim _ _, c, h => h
  | [], .vector, c, h => h
  | [], .obj ptr s, c, ⟨m, c', h⟩ => ⟨m, c', by rw [Prog.readProp, Prog.composite, h]⟩
  | i :: path, .obj ptr (.mk ps), c, ⟨u, c1, vs, c2, q, h1, h2, h3, h4⟩ => by
    obtain ⟨m, c3, h5⟩ := failsAt_throws path q c2 h4
    obtain ⟨c4, h6⟩ := readProps_throws ps i q c1 c2 vs m c3 h3 h2 h5
    refine ⟨m, Prog.endRead c4, ?_⟩
    rw [Prog.readProp, Prog.composite, h1, Prog.readShape]
    show ((Prog.bind (Prog.readProps ps) _ c1).1, Prog.endRead (Prog.bind (Prog.readProps ps) _ c1).2) = _
    unfold Prog.bind
    rw [h6]
  | _ :: _, .prim _ _, _, h => h.elim
  | _ :: _, .vector, _, h => h.elim

/-- **C112, the place**: there is only one place at which reading fails, and it does fail there. -/
theorem C112_place (path path' : List Nat) (p : PropShape) (c : Cursor) (h : FailsAt path p c) :
    (∃ m c', Prog.readProp p c = (.throw m, c')) ∧ (FailsAt path' p c → path' = path) := by
  refine ⟨failsAt_throws path p c h, fun h' => ?_⟩
  induction path generalizing path' p c with
  | nil =>
    cases path' with
    | nil => rfl
    | cons j path' =>
      match p, h, h' with
      | .obj ptr (.mk ps), ⟨m, c1, h1⟩, ⟨u, c1', vs, c2, q, h1', _⟩ => rw [h1] at h1'; cases h1'
      | .prim _ _, _, h' => exact h'.elim
      | .vector, _, h' => exact h'.elim
  | cons i path ih =>
    match p, h with
    | .prim _ _, h => exact h.elim
    | .vector, h => exact h.elim
    | .obj ptr (.mk ps), ⟨u, c1, vs, c2, q, h1, h2, h3, h4⟩ =>
      cases path' with
      | nil =>
        obtain ⟨m, c1', h1'⟩ := h'
        rw [h1] at h1'
        cases h1'
      | cons j path' =>
        obtain ⟨u', c1', vs', c2', q', h1', h2', h3', h4'⟩ := h'
        rw [h1] at h1'
        cases h1'
        have key : ∀ {a b : Nat} {x y : PropShape} {va vb : List RVal} {ca cb : Cursor} {pa pb : List Nat}, a < b → ps[a]? = some x →
            Prog.readProps (ps.take a) c1 = (.ok va, ca) → FailsAt pa x ca → Prog.readProps (ps.take b) c1 = (.ok vb, cb) → False := by
          intro a b x y va vb ca cb pa pb hab hx hr hf hr'
          obtain ⟨m, c3, h5⟩ := failsAt_throws pa x ca hf
          obtain ⟨c4, h6⟩ := readProps_throws (ps.take b) a x c1 ca va m c3 (by rw [List.getElem?_take_of_lt hab]; exact hx)
            (by rw [List.take_take, Nat.min_eq_left (Nat.le_of_lt hab)]; exact hr) h5
          rw [hr'] at h6
          cases h6
        rcases Nat.lt_trichotomy i j with hij | hij | hij
        · exact (key (y := q') (pb := path') hij h3 h2 h4 h2').elim
        · subst hij
          rw [h2] at h2'
          cases h2'
          rw [h3] at h3'
          cases h3'
          rw [ih path' q c2 h4 h4']
        · exact (key (y := q) (pb := path) hij h3' h2' h4' h2).elim

/-- **C112, exactly**: if reading fails at a place, deserialising throws, and what is lost is what is given for that place. -/
theorem C112_exactly (p : PropShape) (c c' : Cursor) (path : List Nat) (hr : Prog.readyPayload c = (.ok (), c')) (hf : FailsAt path p c') :
    (∃ m, (MProg.deserialise p c).1.1 = .throw m) ∧ (MProg.deserialise p c).2 = lost path p := by
  obtain ⟨⟨m, c1, h1⟩, hu⟩ := C112_place path path p c' hf
  have ht : (MProg.deserialise p c).1.1 = .throw m := by
    rw [C112_same]
    show (Prog.bind Prog.readyPayload (fun _ => Prog.readProp p) c).1 = _
    unfold Prog.bind
    rw [hr]
    simp only
    rw [h1]
  refine ⟨⟨m, ht⟩, ?_⟩
  rcases C112_lost p c m ht with ⟨⟨m', c2, h2⟩, -⟩ | ⟨u, c2, path', h2, h3, h4⟩
  · rw [hr] at h2; cases h2
  · rw [hr] at h2
    cases h2
    rw [h4, (C112_place path path' p c' hf).2 h3]

mutual

private theorem byValue_lost : (p : PropShape) → PropShape.ByValue p → ∀ path, lost path p = []
  | .prim ptr t, h, path => by
    have : ptr = false := h
    subst this
    cases path <;> rfl
  | .obj ptr (.mk ps), h, path => by
    cases path with
    | nil => rfl
    | cons i path =>
      have hs : AllByValue ps := h.2
      rw [lost, pointees_none (ps.take i) (fun q hq => byValue_mem ps hs q (List.mem_of_mem_take hq))]
      cases hi : ps[i]? with
      | none => rfl
      | some q => exact byValues_lost ps hs q (List.mem_of_getElem? hi) path
  | .vector, _, path => by cases path <;> rfl

private theorem byValues_lost : (ps : List PropShape) → AllByValue ps → ∀ q ∈ ps, ∀ path, lost path q = []
  | [], _, q, hq, _ => by simp at hq
  | p :: ps, h, q, hq, path => by
    rcases List.mem_cons.1 hq with e | hq
    · rw [e]; exact byValue_lost p h.1 path
    · exact byValues_lost ps h.2 q hq path

private theorem pointees_none : (ps : List PropShape) → (∀ q ∈ ps, PropShape.ByValue q) → pointees ps = []
  | [], _ => rfl
  | p :: ps, h => by
    rw [pointees, pointees_none ps fun q hq => h q (by simp [hq])]
    have := h p (by simp)
    match p, this with
    | .prim ptr t, e => have e : ptr = false := e; subst e; rfl
    | .obj ptr s, e => have e := e.1; subst e; rfl
    | .vector, _ => rfl

private theorem byValue_mem : (ps : List PropShape) → AllByValue ps → ∀ q ∈ ps, PropShape.ByValue q
  | [], _, q, hq => by simp at hq
  | p :: ps, h, q, hq => by
    rcases List.mem_cons.1 hq with e | hq
    · rw [e]; exact h.1
    · exact byValue_mem ps h.2 q hq

end

/-- **C112 (partial).** A class without pointers loses nothing, whatever the blob. Missing: classes with pointers, of which it is false, see `C112_violated`. -/
theorem C112_by_value_partial (p : PropShape) (hp : PropShape.ByValue p) (c : Cursor) (m : String) (h : (MProg.deserialise p c).1.1 = .throw m) :
    (MProg.deserialise p c).2 = [] := by
  rcases C112_lost p c m h with ⟨-, e⟩ | ⟨-, -, path, -, -, e⟩
  · exact e
  · rw [e, byValue_lost p hp path]

private theorem null_get (t : PrimType) (ht : t ≠ .string) (c : Cursor) (h : c.val = some .null) : ∃ m, Prog.primGet t c = (.throw m, c) := by
  have hty : c.type = .null := by
    unfold Cursor.val at h
    unfold Cursor.type
    cases hc : c.cur with
    | none => rw [hc] at h; simp at h
    | some n =>
      rw [hc] at h
      simp only [Option.map_some, Option.some.injEq] at h
      simp only [h]
      rfl
  have key : ∀ (t : PnType) (m : String) (f : Unit → Prog Prim), t ≠ .null → Prog.bind (Prog.attest t m) f c = (.throw m, c) := by
    intro t m f hne
    unfold Prog.bind Prog.attest
    rw [hty, if_neg (Ne.symm hne)]
  cases t with
  | int => exact ⟨_, key .int _ _ (by decide)⟩
  | string => exact absurd rfl ht
  | bool => exact ⟨_, key .bool _ _ (by decide)⟩
  | float => exact ⟨_, key .float _ _ (by decide)⟩
  | double => exact ⟨_, key .double _ _ (by decide)⟩
  | long => exact ⟨_, key .long _ _ (by decide)⟩
  | char => exact ⟨_, key .char _ _ (by decide)⟩

/-- **C112.** A pointer to a primitive that was null when it was written cannot be read: the read throws, and the new primitive is lost. (For a text it is undefined.) -/
theorem C112_null (t : PrimType) (ht : t ≠ .string) (c : Cursor) (h : c.val = some .null) :
    (∃ m, (MProg.readProp (.prim true t) c).1.1 = .throw m) ∧ (MProg.readProp (.prim true t) c).2 = [.prim t] := by
  obtain ⟨m, hm⟩ := null_get t ht c h
  have e : (MProg.none (do let v ← Prog.primGet t; pure (RVal.prim v))) c = ((.throw m, c), []) := by
    show (Prog.bind _ _ c, _) = _
    unfold Prog.bind
    rw [hm]
  rw [MProg.readProp]
  unfold MProg.autoNext MProg.bind MProg.new
  simp only [e]
  exact ⟨⟨m, rfl⟩, rfl⟩

/-- A class with two pointers to numbers, and an object of it where the second is null. -/
def halfNull : Obj := .comp "A".toList "f".toList [.prim "a".toList true (.int 1), .nullPrim "b".toList .double]

/-- **C112 is violated.** The library writes this object, cannot read it back, and loses both the number it has read and the new one for the number it has not. -/
theorem C112_violated : ∃ n, serialise halfNull = .ok [n]
    ∧ (∃ m, (Prog.deserialise (.obj false (.mk [.prim true .int, .prim true .double])) (Cursor.root n)).1 = .throw m)
    ∧ (MProg.deserialise (.obj false (.mk [.prim true .int, .prim true .double])) (Cursor.root n)).2 = [.prim .int, .prim .double] := by
  refine ⟨_, rfl, ⟨_, rfl⟩, rfl⟩

/-- Inside: a class in a class, failing at the second property of the inner one, with a pointer read before in each. -/
example : lost [1, 1] (.obj true (.mk [.prim true .long, .obj false (.mk [.obj true (.mk []), .prim false .int])])) = [.prim .long, .obj] := by
  decide

#print axioms C112_same
#print axioms C112_read
#print axioms C112_lost
#print axioms C112_place
#print axioms C112_exactly
#print axioms C112_by_value_partial
#print axioms C112_null
#print axioms C112_violated

end Corda.Props
