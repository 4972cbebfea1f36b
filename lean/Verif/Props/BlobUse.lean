import Verif.Spec.BlobUse
import Verif.Props.Untouched
import Verif.Props.AnyObject
import Verif.Props.AnyData
import Verif.Props.AnyAvro
import Verif.Props.AnySchemaDump
import Verif.Props.AnySchema
import Verif.Props.Open

/-
C113: what becomes of a blob that is used more than once.
-/

namespace Corda.Props
open Corda Prog Spec

/-! ### Steps of a program -/

private theorem step_blobs (s : Blobs) (a : BlobStep) : ∃ l, (s.step a).2.blobs = s.blobs ++ l := by
  cases a with
  | blob n => exact ⟨_, rfl⟩
  | copy i =>
    simp only [Blobs.step]
    split
    · exact ⟨_, rfl⟩
    · exact ⟨[], by simp⟩
  | use i u =>
    simp only [Blobs.step]
    split
    · split
      · exact ⟨[], by simp⟩
      · exact ⟨[], by simp⟩
    · exact ⟨[], by simp⟩

private theorem run_blobs (as : List BlobStep) : ∀ s : Blobs, ∃ l, (s.run as).2.blobs = s.blobs ++ l := by
  induction as with
  | nil => exact fun s => ⟨[], by simp [Blobs.run]⟩
  | cons a as ih =>
    intro s
    obtain ⟨l, h⟩ := step_blobs s a
    obtain ⟨l', h'⟩ := ih (s.step a).2
    rw [Blobs.run]
    rcases hs : s.step a with ⟨r, s'⟩
    rw [hs] at h h'
    have both : ∃ l, (s'.run as).2.blobs = s.blobs ++ l := ⟨l ++ l', by rw [h', h, List.append_assoc]⟩
    cases r with
    | none => exact both
    | some r =>
      cases r with
      | ub w => exact ⟨l, h⟩
      | ok x => exact both
      | throw m => exact both

private theorem run_cons (s : Blobs) (a : BlobStep) (as : List BlobStep) (h : AllDefined (s.run (a :: as)).1) :
    (∀ w, (s.step a).1 ≠ some (.ub w)) ∧ (s.run (a :: as)).2 = ((s.step a).2.run as).2 ∧ AllDefined ((s.step a).2.run as).1 := by
  rw [Blobs.run] at h ⊢
  rcases hs : s.step a with ⟨r, s'⟩
  rw [hs] at h
  cases r with
  | none => exact ⟨(fun w hw => by cases hw), rfl, h⟩
  | some r =>
    cases r with
    | ub w => exact absurd (by simp) (h w)
    | ok x => exact ⟨(fun w hw => by cases hw), rfl, fun w hw => h w (List.mem_cons_of_mem _ hw)⟩
    | throw m => exact ⟨(fun w hw => by cases hw), rfl, fun w hw => h w (List.mem_cons_of_mem _ hw)⟩

private theorem prefix_get {α : Type} {l : List α} {i : Nat} {x : α} (h : l[i]? = some x) (t : List α) : (l ++ t)[i]? = some x := by
  rw [List.getElem?_append_left (by rw [List.getElem?_eq_some_iff] at h; exact h.1)]
  exact h

/-- What all uses of a tree preserve stays true of it. -/
private theorem run_keeps (I : Cursor → Prop) (k : Nat) (as : List BlobStep) : ∀ (s : Blobs) (c : Cursor), s.trees[k]? = some c → I c →
    AllDefined (s.run as).1 →
    (∀ i u, .use i u ∈ as → (s.run as).2.blobs[i]? = some k → ∀ c, I c → I (u.run c).2) →
    ∃ c', (s.run as).2.trees[k]? = some c' ∧ I c' := by
  induction as with
  | nil => exact fun s c h hi _ _ => ⟨c, h, hi⟩
  | cons a as ih =>
    intro s c h hi hd hu
    obtain ⟨hw, he, hd'⟩ := run_cons s a as hd
    rw [he] at hu ⊢
    have rest : ∀ i u, .use i u ∈ as → ((s.step a).2.run as).2.blobs[i]? = some k → ∀ c, I c → I (u.run c).2 :=
      fun i u hm hb => hu i u (List.mem_cons_of_mem _ hm) hb
    obtain ⟨l', hl'⟩ := run_blobs as (s.step a).2
    cases a with
    | blob n => exact ih _ c (prefix_get h _) hi hd' rest
    | copy i =>
      refine ih _ c ?_ hi hd' rest
      simp only [Blobs.step]
      split <;> exact h
    | use i u =>
      simp only [Blobs.step] at hw hd' rest hu hl' ⊢
      cases hb : s.blobs[i]? with
      | none => simp only [hb] at hw; exact absurd rfl (hw _)
      | some j =>
        simp only [hb] at hw hd' rest hu hl' ⊢
        cases hc : s.trees[j]? with
        | none => simp only [hc] at hw; exact absurd rfl (hw _)
        | some d =>
          simp only [hc] at hw hd' rest hu hl' ⊢
          by_cases hjk : j = k
          · subst hjk
            rw [hc] at h
            cases h
            refine ih _ (u.run c).2 ?_ (hu i u (by simp) (by rw [hl']; exact prefix_get hb _) c hi) hd' rest
            rw [List.getElem?_set_self (by rw [List.getElem?_eq_some_iff] at hc; exact hc.1)]
          · refine ih _ c ?_ hi hd' rest
            rw [List.getElem?_set_ne hjk]
            exact h

private theorem step_length (s : Blobs) (a : BlobStep) (as : List BlobStep) :
    (s.step a).2.trees.length + (treesMade as).length = s.trees.length + (treesMade (a :: as)).length := by
  cases a with
  | blob n => simp [Blobs.step, treesMade]; omega
  | copy i => simp only [Blobs.step, treesMade]; split <;> rfl
  | use i u =>
    simp only [Blobs.step, treesMade]
    split
    · split <;> simp
    · rfl

/-- A tree made by a program is there in the end, and what its uses preserve is true of it if it was in the beginning. -/
private theorem run_made (I : Node → Cursor → Prop) (hI : ∀ n, I n (Cursor.root n)) (k : Nat) (n : Node) (as : List BlobStep) : ∀ (s : Blobs),
    (treesMade as)[k]? = some n → AllDefined (s.run as).1 →
    (∀ i u, .use i u ∈ as → (s.run as).2.blobs[i]? = some (s.trees.length + k) → ∀ c, I n c → I n (u.run c).2) →
    ∃ c', (s.run as).2.trees[s.trees.length + k]? = some c' ∧ I n c' := by
  induction as generalizing k with
  | nil => intro s h; simp [treesMade] at h
  | cons a as ih =>
    intro s h hd hu
    obtain ⟨hw, he, hd'⟩ := run_cons s a as hd
    have hl := step_length s a as
    rw [he] at hu ⊢
    have rest : ∀ i u, .use i u ∈ as → ((s.step a).2.run as).2.blobs[i]? = some (s.trees.length + k) → ∀ c, I n c → I n (u.run c).2 :=
      fun i u hm hb => hu i u (List.mem_cons_of_mem _ hm) hb
    cases a with
    | blob m =>
      cases k with
      | zero =>
        simp only [treesMade, List.getElem?_cons_zero, Option.some.injEq] at h
        subst h
        exact run_keeps (I m) _ as _ (Cursor.root m) (by simp [Blobs.step]) (hI m) hd' rest
      | succ k =>
        simp only [treesMade, List.getElem?_cons_succ] at h
        have hlen : (s.step (.blob m)).2.trees.length + k = s.trees.length + (k + 1) := by simp [Blobs.step]; omega
        rw [← hlen] at rest ⊢
        exact ih k _ h hd' rest
    | copy i =>
      have hlen : (s.step (.copy i)).2.trees.length = s.trees.length := by simp only [treesMade] at hl; omega
      rw [← hlen] at rest ⊢
      exact ih k _ h hd' rest
    | use i u =>
      have hlen : (s.step (.use i u)).2.trees.length = s.trees.length := by simp only [treesMade] at hl; omega
      rw [← hlen] at rest ⊢
      exact ih k _ h hd' rest

/-! ### What the uses do to the cursor -/

private theorem use_back (u : Use) (hu : Use.Tidy u) (ho : ∀ p, u ≠ .object p) (c : Cursor) : (u.run c).2 = c := by
  cases u with
  | data => exact C58_position c
  | schema t => exact (C59_dump_cursor t c).1
  | contents cu lf F => exact C26_contents_cursor cu hu lf F c
  | object p => exact absurd rfl (ho p)
  | bytes => rfl

/-- Moving about does not change the trees. -/
private def Whole {α : Type} (p : Prog α) : Prop := ∀ c, (p c).2.forest = c.forest

private theorem whole_next (c : Cursor) : c.next.2.forest = c.forest := (C25_moves c).1
private theorem whole_enter (c : Cursor) : c.enter.forest = c.forest := (C25_moves c).2.1
private theorem whole_exit (c : Cursor) : c.exit.forest = c.forest := (C25_moves c).2.2

private theorem whole_bind {α β : Type} {p : Prog α} {f : α → Prog β} (hp : Whole p) (hf : ∀ a, Whole (f a)) : Whole (p >>= f) := by
  intro c
  have := hp c
  rw [bind_def]
  rcases hq : p c with ⟨r, c'⟩
  rw [hq] at this
  cases r with
  | ok a => exact (hf a c').trans this
  | throw m => exact this
  | ub w => exact this

private theorem whole_of_back {α : Type} {p : Prog α} (h : ∀ c, (p c).2 = c) : Whole p := fun c => by rw [h c]

private theorem whole_primGet (t : PrimType) : Whole (primGet t) := whole_of_back fun c => by rw [ObjectAt.primGet_at t c.cur c rfl]

private theorem whole_described : Whole attestDescribed := whole_of_back fun c => by
  rcases ObjectAt.attestDescribed_at c.cur c rfl with ⟨ks, -, h⟩ | ⟨m, -, h⟩ <;> rw [h]

private theorem whole_list : Whole attestList := whole_of_back fun c => by
  rcases ObjectAt.attestList_at c.cur c rfl with ⟨ks, -, h⟩ | ⟨m, -, h⟩ <;> rw [h]

private theorem whole_first : Whole enterFirst := fun c => (whole_next _).trans (whole_enter c)

private theorem whole_uint64 : Whole readUint64 := fun c => whole_next c

private theorem whole_pure {α : Type} (a : α) : Whole (pure a : Prog α) := fun _ => rfl

private theorem whole_startRead : Whole startRead :=
  whole_bind whole_described fun _ => whole_bind whole_first fun _ => whole_bind whole_uint64 fun _ => whole_bind whole_list fun _ => whole_first

private theorem whole_composite {α : Type} {p : Prog α} (h : Whole p) : Whole (composite p) := by
  intro c
  have h1 := whole_startRead c
  unfold composite
  rcases hs : startRead c with ⟨r, c1⟩
  rw [hs] at h1
  cases r with
  | ok u =>
    show (endRead (p c1).2).forest = _
    unfold endRead
    rw [whole_next, whole_exit, whole_exit, h c1]
    exact h1
  | throw m => exact h1
  | ub w => exact h1

mutual

private theorem whole_prop : (p : PropShape) → Whole (readProp p)
  | .prim ptr t => by
    intro c
    rw [readProp]
    show ((primGet t >>= fun v => pure (RVal.prim v) : Prog RVal) c).2.next.2.forest = _
    rw [whole_next]
    exact whole_bind (whole_primGet t) (fun _ => whole_pure _) c
  | .obj ptr s => by
    rw [readProp]
    exact whole_composite (whole_shape s)
  | .vector => by
    rw [readProp]
    refine whole_composite (whole_bind whole_list fun _ => whole_bind whole_list fun _ => ?_)
    exact fun c => rfl

private theorem whole_shape : (s : Shape) → Whole (readShape s)
  | .mk ps => by
    rw [readShape]
    exact whole_bind (whole_props ps) fun _ => whole_pure _

private theorem whole_props : (ps : List PropShape) → Whole (readProps ps)
  | [] => by
    rw [readProps]
    exact whole_pure _
  | p :: ps => by
    rw [readProps]
    exact whole_bind (whole_prop p) fun _ => whole_bind (whole_props ps) fun _ => whole_pure _

end

private theorem whole_ready : Whole readyPayload := by
  refine whole_bind whole_described fun _ => whole_bind whole_first fun _ => whole_bind whole_uint64 fun _ => whole_bind whole_list fun _ =>
    whole_bind whole_first fun _ => whole_bind whole_described fun _ => ?_
  intro c
  show c.enter.next.2.exit.forest = _
  rw [whole_exit, whole_next, whole_enter]

/-- **C113.** No use of a blob, whatever comes of it, changes its trees. -/
theorem C113_trees (u : Use) (hu : Use.Tidy u) (c : Cursor) : (u.run c).2.forest = c.forest := by
  by_cases h : ∃ p, u = .object p
  · obtain ⟨p, rfl⟩ := h
    exact whole_bind whole_ready (fun _ => whole_prop p) c
  · rw [use_back u hu (fun p hp => h ⟨p, hp⟩)]

/-- **C113.** Whatever a program did with a blob and its copies, the bytes made of it are those of the tree it was made of. -/
theorem C113_bytes (as : List BlobStep) (s : Blobs) (hs : (Blobs.start.run as).2 = s) (hd : AllDefined (Blobs.start.run as).1)
    (ht : ∀ a ∈ as, BlobStep.Tidy a) (i k : Nat) (n : Node) (hi : s.blobs[i]? = some k) (hn : (treesMade as)[k]? = some n) :
    (s.step (.use i .bytes)).1 = some (.ok (.trees [n])) := by
  subst hs
  obtain ⟨c', h1, h2⟩ := run_made (fun n c => c.forest = [n]) (fun n => rfl) k n as Blobs.start hn hd
    (fun j u hm _ c hc => (C113_trees u (ht _ hm) c).trans hc)
  simp only [Blobs.start, List.length_nil, Nat.zero_add] at h1
  have h1' : (Blobs.start.run as).2.trees[k]? = some c' := h1
  simp only [Blobs.step, hi, h1', Use.run, h2]

/-- **C113 (partial).** As long as no object was read from a blob or a copy of it, every use of it gives what it gives with a new blob of the same tree, whatever was done
with it before, and with other blobs. Missing: the same after an object was read, which is false, see `C113_violated`. -/
theorem C113_before_partial (as : List BlobStep) (s : Blobs) (hs : (Blobs.start.run as).2 = s) (hd : AllDefined (Blobs.start.run as).1)
    (ht : ∀ a ∈ as, BlobStep.Tidy a) (i k : Nat) (n : Node) (hi : s.blobs[i]? = some k) (hn : (treesMade as)[k]? = some n) (hr : NotRead as s.blobs k)
    (u : Use) : (s.step (.use i u)).1 = some (u.run (Cursor.root n)).1 := by
  subst hs
  obtain ⟨c', h1, h2⟩ := run_made (fun n c => c = Cursor.root n) (fun n => rfl) k n as Blobs.start hn hd
    (fun j u hm hb c hc => by
      simp only [Blobs.start, List.length_nil, Nat.zero_add] at hb
      rw [use_back u (ht _ hm) (fun p hp => hr j p (hp ▸ hm) hb)]
      exact hc)
  simp only [Blobs.start, List.length_nil, Nat.zero_add] at h1
  have h1' : (Blobs.start.run as).2.trees[k]? = some c' := h1
  simp only [Blobs.step, hi, h1', h2]

/-! ### After an object was read -/

/-- The cursor is on the schema, or on something that is not described. -/
private def Spent (whole : Node) (types : List Node) (c : Cursor) : Prop :=
  c.forest = [whole] ∧ (c.cur = some (schemaTree types) ∨ ∃ m, c.cur = some m ∧ m.val ≠ .described)

private theorem again_schema (p : PropShape) (types : List Node) (c : Cursor) (h : c.cur = some (schemaTree types)) :
    (deserialise p c).1 = .throw "Expected a Described type" ∧ (deserialise p c).2.cur = some (.mk .list types) := by
  obtain ⟨pr, cu, re, up⟩ := c
  simp only at h
  subst h
  exact ⟨rfl, rfl⟩

private theorem again_other (p : PropShape) (m : Node) (c : Cursor) (h : c.cur = some m) (hm : m.val ≠ .described) :
    deserialise p c = (.throw "Expected a Described type", c) := by
  have hb : describedParts (some m) = .throw "Expected a Described type" := by
    obtain ⟨v, ks⟩ := m
    cases v <;> first | rfl | exact absurd rfl hm
  rcases ObjectAt.attestDescribed_at _ c h with ⟨ks, h1, h2⟩ | ⟨w, h1, h2⟩
  · rw [hb] at h1; cases h1
  · rw [hb] at h1
    cases h1
    unfold deserialise readyPayload
    exact bind_of_throw (bind_of_throw h2)

private theorem spent_use (u : Use) (hu : Use.Tidy u) (whole : Node) (types : List Node) (c : Cursor) (h : Spent whole types c) : Spent whole types (u.run c).2 := by
  refine ⟨(C113_trees u hu c).trans h.1, ?_⟩
  by_cases hp : ∃ p, u = .object p
  · obtain ⟨p, rfl⟩ := hp
    rcases h.2 with h | h
    · exact .inr ⟨_, (again_schema p types c h).2, fun h => by cases h⟩
    · obtain ⟨m, h, hm⟩ := h
      exact .inr ⟨m, by show (deserialise p c).2.cur = _; rw [again_other p m c h hm]; exact h, hm⟩
  · rw [use_back u hu (fun p h => hp ⟨p, h⟩)]
    exact h.2

private theorem no_envelope (types : List Node) (x : Schema × Str) : envelopeFrom (schemaTree types) ≠ .ok x := by
  have e : envelopeFrom (schemaTree types) = (schemaOf (elementIn (schemaTree types).height) [.mk .list types] >>= fun e =>
    match e with | .envelope s o => .ok (s, o) | _ => .ub "null envelope") := rfl
  rw [e, schemaOf]
  intro h
  simp only [bind_ok_iff] at h
  obtain ⟨y, ⟨ls, -, h2⟩, h3⟩ := h
  cases h2
  cases h3

private theorem opened_schema (pay : Node) (types : List Node) (tr : Node) (x : Schema × Str)
    (h : envelopeFrom (envelopeTree pay (schemaTree types) tr) = .ok x) : envelopeFrom (schemaTree types) = .ub "null envelope" := by
  have hh : (schemaTree types).height ≤ (envelopeTree pay (schemaTree types) tr).height := by
    have h1 := height_kids (v := .list) (ks := [pay, schemaTree types, tr]) (k := schemaTree types) (by simp)
    have h2 := height_kids (v := .described) (ks := [.mk (.ulong (cordaId 1)) [], .mk .list [pay, schemaTree types, tr]])
      (k := .mk .list [pay, schemaTree types, tr]) (by simp)
    show _ ≤ (Node.mk .described [.mk (.ulong (cordaId 1)) [], .mk .list [pay, schemaTree types, tr]]).height
    omega
  have e : envelopeFrom (envelopeTree pay (schemaTree types) tr)
      = (envelopeOf (elementIn (envelopeTree pay (schemaTree types) tr).height) [pay, schemaTree types, tr] >>= fun e =>
        match e with | .envelope s o => .ok (s, o) | _ => .ub "null envelope") := rfl
  rw [e, envelopeOf] at h
  simp only [bind_ok_iff] at h
  obtain ⟨y, ⟨ks, -, outer, -, el, h3, sc, h4, -⟩, -⟩ := h
  have h3' : elementIn (envelopeTree pay (schemaTree types) tr).height (some (schemaTree types)) = .ok el := h3
  rw [C89_depth _ _ hh, ← C89_depth _ ((schemaTree types).height + 1) (by omega)] at h3'
  have h5 : elementOf (elementIn (schemaTree types).height) (cordaId 2) [.mk .list types] = .ok el := h3'
  have e2 : envelopeFrom (schemaTree types) = (elementOf (elementIn (schemaTree types).height) (cordaId 2) [.mk .list types] >>= fun e =>
    match e with | .envelope s o => .ok (s, o) | _ => .ub "null envelope") := rfl
  rw [e2, h5]
  cases el with
  | envelope s o => cases h4
  | _ => rfl

private theorem contents_undone (cu : Customs) (lf : Bool) (F : Factory) (c : Cursor) (h : ∀ x, (readEnvelope c).1 ≠ .ok x) (x : Str) :
    (dumpContents cu lf F c).1.1 ≠ .ok x := by
  unfold dumpContents
  rcases hr : readEnvelope c with ⟨r, c'⟩
  rw [hr] at h
  cases r with
  | ok y => exact absurd rfl (h y)
  | throw m => exact fun hx => by cases hx
  | ub w => exact fun hx => by cases hx

private theorem as_ok {α β : Type} (f : α → β) (r : Res α) (x : β) : r.as f = .ok x ↔ ∃ a, r = .ok a ∧ f a = x := by
  cases r <;> simp [Res.as]

private theorem data_schema (types : List Node) : dataText (some (schemaTree types)) = .ub "assert" := by
  unfold dataText
  rw [if_pos (by rfl), if_neg (by show ¬ cordaId 2 % 2 ^ 32 = 1; decide)]

private theorem spent_outcome (u : Use) (whole : Node) (types : List Node) (c : Cursor) (h : Spent whole types c) : Afterwards whole types u (u.run c).1 := by
  cases u with
  | data =>
    show ∃ w, (dumpData c).1.as Outcome.text = .ub w
    rw [C85_data]
    rcases h.2 with h | ⟨m, h, hm⟩ <;> rw [h]
    · exact ⟨"assert", by rw [data_schema]; rfl⟩
    · refine ⟨"null value", ?_⟩
      unfold dataText
      rw [if_neg (by obtain ⟨v, ks⟩ := m; cases v <;> first | exact absurd rfl hm | (intro h; cases h))]
      rfl
  | contents cu lf F =>
    show ∀ x, (dumpContents cu lf F c).1.1.as Outcome.text ≠ .ok x
    intro x hx
    rw [as_ok] at hx
    obtain ⟨s, hs, -⟩ := hx
    refine contents_undone cu lf F c (fun y => ?_) s hs
    rcases h.2 with h | ⟨m, h, hm⟩
    · rw [C89_any c _ h]; exact no_envelope types y
    · rw [C89_any c _ h]
      unfold envelopeFrom
      obtain ⟨v, ks⟩ := m
      cases v <;> first | exact absurd rfl hm | (intro hx; cases hx)
  | object p =>
    show (deserialise p c).1.as Outcome.value = _
    rcases h.2 with h | ⟨m, h, hm⟩
    · rw [(again_schema p types c h).1]; rfl
    · rw [again_other p m c h hm]; rfl
  | bytes =>
    show Res.ok (Outcome.trees c.forest) = _
    rw [h.1]
  | schema t =>
    have e : ((Use.schema t).run c).1 = (dumpSchema t c).1.as Outcome.text := rfl
    have other : (∃ m, c.cur = some m ∧ m.val ≠ .described) → ((Use.schema t).run c).1 = .throw "Can only dispatch described objects" := by
      rintro ⟨m, h, hm⟩
      rw [e]
      unfold dumpSchema
      rw [bind_of_ok (show look Cursor.type c = (.ok c.type, c) from rfl)]
      have ht : c.type ≠ .described := by
        rw [Cursor.type, h]
        obtain ⟨v, ks⟩ := m
        cases v <;> first | exact absurd rfl hm | (intro h; cases h)
      rw [if_pos ht]
      rfl
    cases t with
    | raw =>
      rcases h.2 with h | h
      · exact .inl (by rw [e, C90_any c _ h])
      · exact .inr (other h)
    | avro =>
      intro hs
      rcases h.2 with h | h
      · exact .inl (by rw [e, C91_any c _ h hs])
      · exact .inr (other h)
    | amqp =>
      rcases h.2 with h | h
      · refine .inl ?_
        rw [e]
        unfold dumpSchema
        rw [bind_of_ok (show look Cursor.type c = (.ok c.type, c) from rfl)]
        have ht : c.type = .described := by rw [Cursor.type, h]; rfl
        rw [ht]
        rfl
      · exact .inr (other h)

/-! Where the cursor is when reading throws. -/

mutual

/-- Every described value has two parts, and the second is not described. -/
private def TwoPart : Node → Prop
  | .mk v ks => (v = .described → ∃ a b, ks = [a, b] ∧ b.val ≠ .described) ∧ TwoPartAll ks

private def TwoPartAll : List Node → Prop
  | [] => True
  | n :: ns => TwoPart n ∧ TwoPartAll ns

end

private theorem twoPartAll_mem {ns : List Node} (h : TwoPartAll ns) {n : Node} (hn : n ∈ ns) : TwoPart n := by
  induction ns with
  | nil => cases hn
  | cons m ns ih =>
    rcases List.mem_cons.mp hn with rfl | hn
    · exact h.1
    · exact ih h.2 hn

private theorem twoPart_prim (v : Prim) : TwoPart (primNode v) := by
  cases v <;> exact ⟨fun h => (by cases h), trivial⟩

private theorem twoPart_null : TwoPart (.mk .null []) := ⟨fun h => (by cases h), trivial⟩

private theorem twoPart_described (f : Str) (v : Atom) (ks : List Node) (hv : v ≠ .described) (h : TwoPartAll ks) : TwoPart (describedNode f v ks) :=
  ⟨fun _ => ⟨_, _, rfl, hv⟩, ⟨fun h => (by cases h), trivial⟩, ⟨fun h => absurd h hv, h⟩, trivial⟩

mutual

private theorem twoPart_obj : (o : Obj) → TwoPart (objTree o)
  | .comp _ f ms => by rw [objTree]; exact twoPart_described f _ _ (fun h => by cases h) (twoPart_members ms)
  | .list _ f es => by rw [objTree]; exact twoPart_described f _ _ (fun h => by cases h) (twoPart_elems es)
  | .map _ f es => by rw [objTree]; exact twoPart_described f _ _ (fun h => by cases h) (twoPart_entries es)

private theorem twoPart_member : (m : Member) → TwoPart (memberTree m)
  | .prim _ _ v => by rw [memberTree]; exact twoPart_prim v
  | .nullPrim _ _ => by rw [memberTree]; exact twoPart_null
  | .obj _ _ _ o => by rw [memberTree]; exact twoPart_obj o
  | .nullObj _ _ => by rw [memberTree]; exact twoPart_null

private theorem twoPart_elem : (e : Elem) → TwoPart (elemTree e)
  | .prim v => by rw [elemTree]; exact twoPart_prim v
  | .nullPrim _ => by rw [elemTree]; exact twoPart_null
  | .obj o => by rw [elemTree]; exact twoPart_obj o

private theorem twoPart_members : (ms : List Member) → TwoPartAll (memberTrees ms)
  | [] => by rw [memberTrees]; trivial
  | m :: ms => by rw [memberTrees]; exact ⟨twoPart_member m, twoPart_members ms⟩

private theorem twoPart_elems : (es : List Elem) → TwoPartAll (elemTrees es)
  | [] => by rw [elemTrees]; trivial
  | e :: es => by rw [elemTrees]; exact ⟨twoPart_elem e, twoPart_elems es⟩

private theorem twoPart_entries : (es : List Entry) → TwoPartAll (entryTrees es)
  | [] => by rw [entryTrees]; trivial
  | .mk k v :: es => by rw [entryTrees]; exact ⟨twoPart_elem k, twoPart_elem v, twoPart_entries es⟩

end

/-- The cursor is left in a described value of the level, on its second part. -/
private def Off (c c' : Cursor) : Prop :=
  ∃ d ks m, Keeps c d ∧ d.cur = some (.mk .described ks) ∧ Keeps d.enter c' ∧ c'.cur = some m ∧ m.val ≠ .described

private theorem Off.before {a b c : Cursor} (h : Keeps a b) (h' : Off b c) : Off a c := by
  obtain ⟨d, ks, m, h1, h2⟩ := h'
  exact ⟨d, ks, m, h.trans h1, h2⟩

/-- Where a property that throws leaves the cursor. -/
private def Left (c c' : Cursor) : Prop := (c' = c ∧ ∀ ks, c.cur ≠ some (.mk .described ks)) ∨ c' = c.next.2 ∨ Off c c'

private theorem Left.keeps {c c' : Cursor} (h : Left c c') : Keeps c c' ∨ Off c c' := by
  rcases h with ⟨h, -⟩ | h | h
  · rw [h]; exact .inl (Keeps.refl c)
  · rw [h]; exact .inl (Cursor.next_keeps c)
  · exact .inr h

private theorem described_cur {c : Cursor} {ks : List Node} (h : describedParts c.cur = .ok ks) : c.cur = some (.mk .described ks) :=
  (describedParts_ok _ _).mp h

private theorem next_end {c : Cursor} (h : c.rest = []) : c.next.2 = c := by
  unfold Cursor.next
  rw [h]

private theorem left_composite {α : Type} {body : Prog α} {c : Cursor} (hc : ∀ n, c.cur = some n → TwoPart n)
    (hb : ∀ ks c, TwoPartAll ks → Pos ks 0 c → ∀ w, (body c).1 = .throw w → Keeps c (body c).2 ∨ Off c (body c).2)
    (w : String) (h : (composite body c).1 = .throw w) : Left c (composite body c).2 := by
  unfold composite startRead at h ⊢
  rcases ObjectAt.attestDescribed_at c.cur c rfl with ⟨ks, h1, h2⟩ | ⟨m, h1, h2⟩
  · have hn := described_cur h1
    have hm : TwoPart (.mk .described ks) := hc _ hn
    obtain ⟨⟨a, b, rfl, hb2⟩, hk⟩ := (⟨hm.1 rfl, hm.2⟩ : (∃ a b, ks = [a, b] ∧ b.val ≠ .described) ∧ TwoPartAll ks)
    have hp := (pos_enter hn).next
    have hk2 : Keeps c.enter c.enter.next.2.next.2 := (Cursor.next_keeps _).trans (Cursor.next_keeps _)
    have hcur : c.enter.next.2.next.2.cur = some b := hp.1
    have hu : readUint64 c.enter.next.2 = (.ok (getUlong c.enter.next.2), c.enter.next.2.next.2) := rfl
    rw [bind_of_ok h2, bind_of_ok (show enterFirst c = (.ok (), c.enter.next.2) from rfl), bind_of_ok hu] at h ⊢
    rcases ObjectAt.attestList_at (some b) c.enter.next.2.next.2 hcur with ⟨ps, h3, h4⟩ | ⟨m, h3, h4⟩
    · rw [bind_of_ok h4] at h ⊢
      have he : enterFirst c.enter.next.2.next.2 = (.ok (), c.enter.next.2.next.2.enter.next.2) := rfl
      rw [he] at h ⊢
      have hl := hcur.trans (list_some h3)
      have hps : TwoPartAll ps := by
        have h5 := list_some h3
        cases h5
        exact hk.2.1.2
      show Left c (endRead (body c.enter.next.2.next.2.enter.next.2).2)
      unfold endRead
      rcases hb ps _ hps (pos_enter hl) w h with hk | ⟨d, ks', m, g1, g2, g3, -, -⟩
      · have e1 : (body c.enter.next.2.next.2.enter.next.2).2.exit = c.enter.next.2.next.2 :=
          Cursor.exit_of_keeps (by rw [hl]; rfl) ((Cursor.next_keeps _).trans hk)
        rw [e1, Cursor.exit_of_keeps (by rw [hn]; rfl) hk2]
        exact .inr (.inl rfl)
      · have e1 : (body c.enter.next.2.next.2.enter.next.2).2.exit = d := Cursor.exit_of_keeps (by rw [g2]; rfl) g3
        have e2 : d.exit = c.enter.next.2.next.2 := Cursor.exit_of_keeps (by rw [hl]; rfl) ((Cursor.next_keeps _).trans g1)
        have e3 : c.enter.next.2.next.2.next.2 = c.enter.next.2.next.2 := by
          have : c.enter.next.2.next.2.rest = [] := hp.2
          exact next_end this
        rw [e1, e2, e3]
        exact .inr (.inr ⟨c, _, b, Keeps.refl c, hn, hk2, hcur, hb2⟩)
    · rw [bind_of_throw h4] at h ⊢
      exact .inr (.inr ⟨c, _, b, Keeps.refl c, hn, hk2, hcur, hb2⟩)
  · rw [bind_of_throw h2]
    refine .inl ⟨rfl, fun ks hks => ?_⟩
    rw [hks] at h1
    cases h1

mutual

private theorem left_prop : (p : PropShape) → ∀ c : Cursor, (∀ n, c.cur = some n → TwoPart n) → ∀ w, (readProp p c).1 = .throw w →
    Left c (readProp p c).2
  | .prim ptr t, c, hc, w, h => by
    refine .inr (.inl ?_)
    rw [readProp]
    unfold autoNext
    rw [bind_def, ObjectAt.primGet_at t c.cur c rfl]
    cases primAt t c.cur <;> rfl
  | .obj ptr (.mk ps), c, hc, w, h => by
    rw [readProp] at h ⊢
    exact left_composite hc (fun ks c hk hp w h => left_shape ps ks c hk hp w h) w h
  | .vector, c, hc, w, h => by
    rw [readProp] at h ⊢
    refine left_composite hc (fun ks c hk hp w h => ?_) w h
    left
    rcases ObjectAt.attestList_at c.cur c rfl with ⟨ps, h3, h4⟩ | ⟨m, h3, h4⟩
    · rw [bind_of_ok h4, bind_of_ok h4] at h
      cases h
    · rw [bind_of_throw h4]
      exact Keeps.refl c

private theorem left_shape : (ps : List PropShape) → ∀ (ls : List Node) (c : Cursor), TwoPartAll ls → Pos ls 0 c → ∀ w, (readShape (.mk ps) c).1 = .throw w →
    Keeps c (readShape (.mk ps) c).2 ∨ Off c (readShape (.mk ps) c).2
  | ps, ls, c, hr, hc, w, h => by
    have := left_props ps ls 0 c hc hr
    rw [readShape, bind_def] at h ⊢
    rcases hq : readProps ps c with ⟨r, c'⟩
    rw [hq] at h this
    cases r with
    | ok vs => cases h
    | throw m => exact this m rfl
    | ub m => cases h

private theorem left_props : (ps : List PropShape) → ∀ (ls : List Node) (i : Nat) (c : Cursor), Pos ls i c → TwoPartAll ls → ∀ w, (readProps ps c).1 = .throw w →
    Keeps c (readProps ps c).2 ∨ Off c (readProps ps c).2
  | [], ls, i, c, hc, hr, w, h => by rw [readProps] at h; cases h
  | p :: ps, ls, i, c, hc, hr, w, h => by
    have h1 := left_prop p c (fun n hn => twoPartAll_mem hr (by
      have := hc.1
      rw [hn, nth] at this
      exact List.mem_of_getElem? this.symm))
    have h2 := read_moves p c
    rw [readProps, bind_def] at h ⊢
    rcases hq : readProp p c with ⟨r, c'⟩
    rw [hq] at h h1 h2
    cases r with
    | ok v =>
      have h3 : c' = c.next.2 := h2 v rfl
      subst h3
      have h4 := left_props ps ls (i + 1) c.next.2 hc.next hr
      simp only [bind_def] at h ⊢
      rcases hq' : readProps ps c.next.2 with ⟨r, c''⟩
      rw [hq'] at h h4
      cases r with
      | ok vs => cases h
      | throw m =>
        rcases h4 m rfl with h5 | h5
        · exact .inl ((Cursor.next_keeps c).trans h5)
        · exact .inr (Off.before (Cursor.next_keeps c) h5)
      | ub m => cases h
    | throw m => exact (h1 m rfl).keeps
    | ub m => cases h

end

private theorem read_spent (p : PropShape) (pay tr : Node) (types : List Node) (v : RVal)
    (h : (deserialise p (Cursor.root (envelopeTree pay (schemaTree types) tr))).1 = .ok v) :
    Spent (envelopeTree pay (schemaTree types) tr) types (deserialise p (Cursor.root (envelopeTree pay (schemaTree types) tr))).2 := by
  refine ⟨C113_trees (.object p) trivial _, .inl ?_⟩
  obtain ⟨ls, h1, h2⟩ := deserialised_at p _ v h
  have : objectParts (Cursor.root (envelopeTree pay (schemaTree types) tr)).cur = .ok [pay, schemaTree types, tr] := rfl
  rw [this] at h1
  cases h1
  exact h2

private theorem tried_spent (p : PropShape) (o : Obj) (types : List Node) (m : String)
    (h : (deserialise p (Cursor.root (envelopeTree (objTree o) (schemaTree types) (.mk .null [])))).1 = .throw m) :
    Spent (envelopeTree (objTree o) (schemaTree types) (.mk .null [])) types
      (deserialise p (Cursor.root (envelopeTree (objTree o) (schemaTree types) (.mk .null [])))).2 := by
  refine ⟨C113_trees (.object p) trivial _, ?_⟩
  obtain ⟨f, v, ks, ho⟩ := objTree_described o
  have hready := readyPayload_root f v ks types (.mk .null [])
  rw [← ho] at hready
  unfold deserialise at h ⊢
  rw [bind_of_ok hready] at h ⊢
  rcases left_prop p _ (fun n hn => by cases hn; exact twoPart_obj o) m h with ⟨-, h1⟩ | h1 | ⟨d, ks', m', -, -, -, h1, h2⟩
  · exact absurd (congrArg some ho) (h1 _)
  · rw [h1]
    exact .inl rfl
  · exact .inr ⟨m', h1, h2⟩

/-- What follows a use that leaves the blob spent. -/
private theorem after_spent (as bs : List BlobStep) (i j k : Nat) (u : Use) (p : PropShape) (whole : Node) (types : List Node)
    (hd : AllDefined (Blobs.start.run as).1) (ht : ∀ a ∈ as, BlobStep.Tidy a)
    (hi : (Blobs.start.run as).2.blobs[i]? = some k) (hn : (treesMade as)[k]? = some whole) (hr : NotRead as (Blobs.start.run as).2.blobs k)
    (hspent : Spent whole types (deserialise p (Cursor.root whole)).2)
    (hd' : AllDefined (((Blobs.start.run as).2.step (.use i (.object p))).2.run bs).1) (ht' : ∀ a ∈ bs, BlobStep.Tidy a)
    (hj : (((Blobs.start.run as).2.step (.use i (.object p))).2.run bs).2.blobs[j]? = some k) :
    ∃ r, ((((Blobs.start.run as).2.step (.use i (.object p))).2.run bs).2.step (.use j u)).1 = some r ∧ Afterwards whole types u r := by
  obtain ⟨c', h1, h2⟩ := run_made (fun n c => c = Cursor.root n) (fun n => rfl) k _ as Blobs.start hn hd
    (fun j u hm hb c hc => by
      simp only [Blobs.start, List.length_nil, Nat.zero_add] at hb
      rw [use_back u (ht _ hm) (fun p hp => hr j p (hp ▸ hm) hb)]
      exact hc)
  simp only [Blobs.start, List.length_nil, Nat.zero_add] at h1
  subst h2
  have h1' : (Blobs.start.run as).2.trees[k]? = some (Cursor.root whole) := h1
  have hst : ((Blobs.start.run as).2.step (.use i (.object p))).2
      = ⟨(Blobs.start.run as).2.trees.set k ((Use.object p).run (Cursor.root whole)).2, (Blobs.start.run as).2.blobs⟩ := by
    simp only [Blobs.step, hi, h1']
  rw [hst] at hd' hj ⊢
  obtain ⟨c, h3, h4⟩ := run_keeps (Spent whole types) k bs _ _ (by
      exact List.getElem?_set_self (by rw [List.getElem?_eq_some_iff] at h1'; exact h1'.1)) hspent hd'
    (fun j u hm _ c hc => spent_use u (ht' _ hm) _ _ c hc)
  refine ⟨(u.run c).1, ?_, spent_outcome u _ _ c h4⟩
  have hj' : ∀ s' : Blobs, s'.blobs[j]? = some k → s'.trees[k]? = some c → (s'.step (.use j u)).1 = some (u.run c).1 := by
    intro s' a b
    simp only [Blobs.step, a, b]
  exact hj' _ hj h3

private theorem first_outcome (as : List BlobStep) (i k : Nat) (p : PropShape) (whole : Node)
    (hd : AllDefined (Blobs.start.run as).1) (ht : ∀ a ∈ as, BlobStep.Tidy a)
    (hi : (Blobs.start.run as).2.blobs[i]? = some k) (hn : (treesMade as)[k]? = some whole) (hr : NotRead as (Blobs.start.run as).2.blobs k) :
    ((Blobs.start.run as).2.step (.use i (.object p))).1 = some ((deserialise p (Cursor.root whole)).1.as .value) :=
  C113_before_partial as _ rfl hd ht i k whole hi hn hr (.object p)

/-- **C113, after an object was read** from a blob that no object was read from before: whatever else the program does, with this blob and its copies and with others,
all further uses of the blob and its copies give what `Afterwards` allows: its data and its contents can never be shown again, nor can its object be read. -/
theorem C113_afterwards (as bs : List BlobStep) (i j k : Nat) (u : Use) (p : PropShape) (v : RVal) (pay tr : Node) (types : List Node) (s s' : Blobs)
    (hs : (Blobs.start.run as).2 = s) (hd : AllDefined (Blobs.start.run as).1) (ht : ∀ a ∈ as, BlobStep.Tidy a)
    (hi : s.blobs[i]? = some k) (hn : (treesMade as)[k]? = some (envelopeTree pay (schemaTree types) tr)) (hr : NotRead as s.blobs k)
    (hv : (s.step (.use i (.object p))).1 = some (.ok (.value v)))
    (hs' : ((s.step (.use i (.object p))).2.run bs).2 = s') (hd' : AllDefined ((s.step (.use i (.object p))).2.run bs).1) (ht' : ∀ a ∈ bs, BlobStep.Tidy a)
    (hj : s'.blobs[j]? = some k) :
    ∃ r, (s'.step (.use j u)).1 = some r ∧ Afterwards (envelopeTree pay (schemaTree types) tr) types u r := by
  subst hs
  subst hs'
  rw [first_outcome as i k p _ hd ht hi hn hr, Option.some.injEq] at hv
  obtain ⟨a, ha, -⟩ := (as_ok _ _ _).mp hv
  exact after_spent as bs i j k u p _ types hd ht hi hn hr (read_spent p pay tr types a ha) hd' ht' hj

/-- **C113, after reading was tried**: the same after an exception, for every blob the library wrote. -/
theorem C113_attempted (o : Obj) (n : Node) (ho : serialise o = .ok [n]) :
    ∃ types, n = envelopeTree (objTree o) (schemaTree types) (.mk .null []) ∧
    ∀ (as bs : List BlobStep) (i j k : Nat) (u : Use) (p : PropShape) (r : Res Outcome) (s s' : Blobs)
    (_ : (Blobs.start.run as).2 = s) (_ : AllDefined (Blobs.start.run as).1) (_ : ∀ a ∈ as, BlobStep.Tidy a)
    (_ : s.blobs[i]? = some k) (_ : (treesMade as)[k]? = some n) (_ : NotRead as s.blobs k)
    (_ : (s.step (.use i (.object p))).1 = some r) (_ : ∀ w, r ≠ .ub w)
    (_ : ((s.step (.use i (.object p))).2.run bs).2 = s') (_ : AllDefined ((s.step (.use i (.object p))).2.run bs).1) (_ : ∀ a ∈ bs, BlobStep.Tidy a)
    (_ : s'.blobs[j]? = some k), ∃ r', (s'.step (.use j u)).1 = some r' ∧ Afterwards n types u r' := by
  obtain ⟨types, hts⟩ := C30_blob o [n] ho
  simp only [List.cons.injEq, and_true] at hts
  subst hts
  refine ⟨types, rfl, ?_⟩
  intro as bs i j k u p r s s' hs hd ht hi hn hr hv hub hs' hd' ht' hj
  subst hs
  subst hs'
  rw [first_outcome as i k p _ hd ht hi hn hr, Option.some.injEq] at hv
  refine after_spent as bs i j k u p _ types hd ht hi hn hr ?_ hd' ht' hj
  rcases hq : (deserialise p (Cursor.root (envelopeTree (objTree o) (schemaTree types) (.mk .null [])))).1 with a | m | w
  · exact read_spent p _ _ types a hq
  · exact tried_spent p o types m hq
  · rw [hq] at hv
    exact absurd hv.symm (hub w)

/-- **C113, right after an object was read** from a blob the library wrote and that can be opened: showing its data or its contents is undefined, by an assertion and by a
null pointer. -/
theorem C113_shown (o : Obj) (n : Node) (hs : serialise o = .ok [n]) (p : PropShape) (v : RVal) (hv : (deserialise p (Cursor.root n)).1 = .ok v)
    (x : Schema × Str) (hx : (readEnvelope (Cursor.root n)).1 = .ok x) (cu : Customs) (lf : Bool) (F : Factory) :
    (dumpData (deserialise p (Cursor.root n)).2).1 = .ub "assert"
      ∧ (dumpContents cu lf F (deserialise p (Cursor.root n)).2).1.1 = .ub "null envelope" := by
  obtain ⟨ts, hts⟩ := C30_blob o [n] hs
  simp only [List.cons.injEq, and_true] at hts
  subst hts
  have hc : (deserialise p (Cursor.root (envelopeTree (objTree o) (schemaTree ts) (.mk .null [])))).2.cur = some (schemaTree ts) := by
    obtain ⟨ls, h1, h2⟩ := deserialised_at p _ v hv
    have : objectParts (Cursor.root (envelopeTree (objTree o) (schemaTree ts) (.mk .null []))).cur = .ok [objTree o, schemaTree ts, .mk .null []] := rfl
    rw [this] at h1
    cases h1
    exact h2
  refine ⟨by rw [C85_data, hc, data_schema], ?_⟩
  rw [C89_any _ _ rfl] at hx
  have hr := C89_any _ _ hc
  rw [opened_schema _ ts _ x hx] at hr
  unfold dumpContents
  rcases hq : readEnvelope (deserialise p (Cursor.root (envelopeTree (objTree o) (schemaTree ts) (.mk .null [])))).2 with ⟨r, c'⟩
  rw [hq] at hr
  simp only at hr
  subst hr
  rfl

/-- An object with one number. -/
private def single : Obj := .comp "A".toList "f".toList [.prim "a".toList false (.int 7)]

private def singleShape : PropShape := .obj false (.mk [.prim false .int])

/-- The blob of it. -/
private def singleBlob : Node := (match serialise single with | .ok (n :: _) => n | _ => .mk .null [])

/-- **C113 is violated.** The data of a blob are shown, its object is read, the object is asked for again, also of a copy, the schema is asked for. The second time the object
is refused, and then the schema; the data are not shown again. -/
theorem C113_violated :
    (Blobs.start.run [.blob singleBlob, .copy 0, .use 0 .data, .use 1 .data, .use 0 (.object singleShape), .use 1 (.object singleShape), .use 0 (.object singleShape),
        .use 0 (.schema .raw), .use 1 .data]).1
      = [.ok (.text "f : [ 7 ]".toList), .ok (.text "f : [ 7 ]".toList), .ok (.value (.obj [.prim (.int 7)])), .throw "Expected a Described type",
        .throw "Expected a Described type", .throw "Can only dispatch described objects", .ub "null value"] := by
  decide +kernel

/-- Reading with a wrong type fails, and after that reading with the right one fails too. -/
example : (Blobs.start.run [.blob singleBlob, .use 0 (.object (.obj false (.mk [.obj false (.mk [])]))), .use 0 (.object singleShape)]).1
    = [.throw "Expected a Described type", .throw "Expected a Described type"]
      ∧ (deserialise singleShape (Cursor.root singleBlob)).1 = .ok (.obj [.prim (.int 7)]) := by
  decide +kernel

#print axioms C113_trees
#print axioms C113_bytes
#print axioms C113_before_partial
#print axioms C113_afterwards
#print axioms C113_attempted
#print axioms C113_shown
#print axioms C113_violated

end Corda.Props
