import Verif.Lemmas.InspectEnvelope

/-
More fuel changes nothing about what is read and printed, once it was enough.
-/

namespace Corda.TProg
open Spec

/-- The second program does what the first does, unless the first ran out of fuel. -/
def Below {α : Type} (q q' : TProg α) : Prop := ∀ c, (q c).1.1 = .ub "fuel" ∨ q' c = q c

theorem below_refl {α : Type} (q : TProg α) : Below q q := fun _ => .inr rfl

theorem below_bind {α β : Type} {q q' : TProg α} {f f' : α → TProg β} (h : Below q q') (k : ∀ a, Below (f a) (f' a)) :
    Below (q >>= f) (q' >>= f') := by
  intro c
  rcases h c with h | h
  · refine .inl ?_
    rw [TProg.bind_def]
    revert h
    rcases q c with ⟨⟨r, c'⟩, o⟩
    rintro rfl
    rfl
  · rw [TProg.bind_def, TProg.bind_def, h]
    rcases q c with ⟨⟨r, c'⟩, o⟩
    cases r with
    | throw m => exact .inr rfl
    | ub m => exact .inr rfl
    | ok a =>
      rcases k a c' with k | k
      · exact .inl k
      · exact .inr (by simp only [k])

theorem below_same {α β : Type} {q : TProg α} {f f' : α → TProg β} (k : ∀ a, Below (f a) (f' a)) : Below (q >>= f) (q >>= f') :=
  below_bind (below_refl q) k

theorem below_scope {α : Type} {ctor : Cursor → Cursor} {q q' : TProg α} (h : Below q q') : Below (scope ctor q) (scope ctor q') := by
  intro c
  unfold scope
  rcases h (ctor c) with h | h
  · exact .inl h
  · exact .inr (by simp only [h])

theorem below_autoEnter {α : Type} {nx : Bool} {q q' : TProg α} (h : Below q q') : Below (autoEnter q nx) (autoEnter q' nx) := below_scope h

theorem below_listEnter {α : Type} {nx : Bool} {q q' : Nat → TProg α} (h : ∀ n, Below (q n) (q' n)) : Below (listEnter q nx) (listEnter q' nx) :=
  fun c => below_scope (h c.getList) c

theorem below_ite {α : Type} {b : Prop} [Decidable b] {q q' r r' : TProg α} (h : Below q q') (k : Below r r') :
    Below (if b then q else r) (if b then q' else r') := by
  by_cases hb : b
  · rw [if_pos hb, if_pos hb]; exact h
  · rw [if_neg hb, if_neg hb]; exact k

theorem below_whileNext {α : Type} {q q' : TProg α} (h : Below q q') : Below (whileNext q) (whileNext q') := by
  have go : ∀ n, Below (whileNextGo q n) (whileNextGo q' n) := by
    intro n
    induction n with
    | zero => exact below_refl _
    | succ n ih =>
      unfold whileNextGo
      exact below_same fun b => below_ite (below_bind h fun a => below_bind ih fun as => below_refl _) (below_refl _)
  exact fun c => go _ c

theorem below_foldNext {σ : Type} {q q' : Nat → σ → TProg σ} (h : ∀ i s, Below (q i s) (q' i s)) (s : σ) :
    Below (foldNext q s) (foldNext q' s) := by
  have go : ∀ n i s, Below (foldNextGo q n i s) (foldNextGo q' n i s) := by
    intro n
    induction n with
    | zero => intro i s; exact below_refl _
    | succ n ih =>
      intro i s
      unfold foldNextGo
      exact below_same fun b => below_ite (below_bind (h i s) fun s' => ih _ _) (below_refl _)
  exact fun c => go _ _ _ c

section
variable (p : Paths) {r r' : TProg Element} (h : Below r r')
include h

theorem below_compositeBuild : Below (compositeBuild p r) (compositeBuild p r') := by
  unfold compositeBuild compositeBody
  exact below_same fun _ => below_same fun _ => below_autoEnter (below_same fun _ => below_same fun _ => below_same fun _ => below_same fun _ =>
    below_same fun _ => below_same fun _ => below_bind h fun _ => below_same fun _ => below_same fun _ =>
    below_bind (below_listEnter fun _ => below_whileNext (below_bind h fun _ => below_refl _)) fun _ => below_refl _)

theorem below_restrictedBuild : Below (restrictedBuild p r) (restrictedBuild p r') := by
  unfold restrictedBuild restrictedBody
  exact below_same fun _ => below_same fun _ => below_autoEnter (below_same fun _ => below_same fun _ => below_same fun _ => below_same fun _ =>
    below_same fun _ => below_same fun _ => below_same fun _ => below_bind h fun _ => below_same fun _ => below_same fun _ => below_same fun _ =>
    below_bind (below_listEnter fun _ => below_whileNext (below_bind h fun _ => below_refl _)) fun _ => below_refl _)

theorem below_schemaBuild : Below (schemaBuild p r) (schemaBuild p r') := by
  unfold schemaBuild schemaStep
  exact below_same fun _ => below_same fun _ => below_bind (below_listEnter fun _ => below_foldNext (fun _ _ => below_same fun _ =>
    below_listEnter fun _ => below_foldNext (fun _ _ => below_bind h fun _ => below_refl _) _) _) fun _ => below_refl _

theorem below_envelopeBuild : Below (envelopeBuild p r) (envelopeBuild p r') := by
  unfold envelopeBuild envelopeBody
  exact below_same fun _ => below_same fun _ => below_autoEnter (below_same fun _ => below_same fun _ => below_bind h fun _ => below_refl _)

theorem below_build (id : Nat) : Below (build p r id) (build p r' id) := by
  unfold build
  exact below_ite (below_refl _) (below_ite (below_envelopeBuild p h) (below_ite (below_schemaBuild p h) (below_ite (below_refl _)
    (below_ite (below_refl _) (below_ite (below_compositeBuild p h) (below_ite (below_restrictedBuild p h) (below_refl _)))))))

end

theorem below_dispatch (p : Paths) (k : Nat) : Below (dispatch p k) (dispatch p (k + 1)) := by
  induction k with
  | zero => exact fun _ => .inl rfl
  | succ k ih =>
    have e : ∀ k, dispatch p (k + 1) = (quiet Prog.attestDescribed >>= fun _ => autoEnter (dispatchBody p (dispatch p k))) := fun _ => rfl
    rw [e, e (k + 1)]
    unfold dispatchBody
    exact below_same fun _ => below_autoEnter (below_same fun _ => below_same fun id => below_build p ih id)

/-- An element that was read is read the same way with more fuel. -/
theorem dispatch_settled (p : Paths) {k m : Nat} (hm : k ≤ m) {c : Cursor} {e : Element} (h : (dispatch p k c).1.1 = .ok e) :
    dispatch p m c = dispatch p k c := by
  induction hm with
  | refl => rfl
  | step _ ih =>
    rcases below_dispatch p _ c with hb | hb
    · rw [ih, h] at hb; exact nomatch hb
    · rw [hb, ih]

theorem dispatch_either (p : Paths) {k m : Nat} {c : Cursor} {e e' : Element} (h : (dispatch p k c).1.1 = .ok e)
    (h' : (dispatch p m c).1.1 = .ok e') : dispatch p k c = dispatch p m c := by
  rcases Nat.le_total k m with hm | hm
  · exact (dispatch_settled p hm h).symm
  · exact dispatch_settled p hm h'

/-! ### The envelope around the schema -/

/-- The program prints the lines `L` and then what `r` printed; and if it returns, so did `r`. -/
def Via {α β : Type} (q : TProg α) (c : Cursor) (L : List Str) (r : (Res β × Cursor) × List Str) : Prop :=
  (q c).2 = L ++ r.2 ∧ ∀ x, (q c).1.1 = .ok x → ∃ e, r.1.1 = .ok e

section
variable {α β γ : Type} {c c' : Cursor} {L : List Str} {r : (Res β × Cursor) × List Str}

theorem via_quiet {q : Prog γ} {f : γ → TProg α} {a : γ} (h : q c = (.ok a, c')) (k : Via (f a) c' L r) : Via (quiet q >>= f) c L r := by
  have e : (quiet q >>= f) c = f a c' := by
    rw [TProg.bind_def]
    unfold quiet
    rw [h]
    rfl
  unfold Via
  rw [e]
  exact k

theorem via_dbg (file : Str) (line : Nat) (text : Str) {f : Unit → TProg α} (k : Via (f ()) c L r) :
    Via (dbg file line text >>= f) c (traceLine file line text :: L) r :=
  ⟨congrArg (traceLine file line text :: ·) k.1, k.2⟩

theorem via_enter {q : TProg α} (h : c.enter.next.2 = c') (k : Via q c' L r) : Via (autoEnter q) c L r := by
  subst h; exact k

theorem via_then {q : TProg γ} {f : γ → TProg α} (k : Via q c L r) (hf : ∀ a c, (f a c).2 = []) : Via (q >>= f) c L r := by
  unfold Via at k ⊢
  rw [TProg.bind_def]
  revert k
  rcases q c with ⟨⟨s, c1⟩, o⟩
  intro k
  cases s with
  | throw m => exact ⟨k.1, fun _ h => nomatch h⟩
  | ub m => exact ⟨k.1, fun _ h => nomatch h⟩
  | ok a =>
    refine ⟨?_, fun x _ => k.2 a rfl⟩
    simp only [hf, List.append_nil]
    exact k.1

end

theorem validate_envelope {x : Cursor} (hx : x.cur = some (.mk (.ulong (cordaId 1)) [])) :
    Prog.validateAndNext ENVELOPE x = (.ok (), x.next.2) := by
  unfold Prog.validateAndNext
  rw [Prog.bind_of_ok (show Prog.attest .ulong "Bad type for a descriptor" x = (.ok (), x) from
    if_pos (by simp [Cursor.type, hx, Node.val, Atom.type]))]
  rw [Prog.bind_of_ok (show Prog.look Prog.getUlong x = (.ok (cordaId 1), x) by
    simp [Prog.look, Prog.getUlong, Cursor.val, hx, Node.val])]
  rw [if_neg (by decide)]
  rfl

theorem build_envelope (p : Paths) (rec : TProg Element) : build p rec (cordaId 1) = envelopeBuild p rec := by
  unfold build
  rw [if_neg (by decide), if_pos (by decide)]

theorem via_envelopeBody (p : Paths) (k : Nat) {c : Cursor} {d : Str} {pay st tr : Node} {more : List Node} (hc : c.cur = some pay)
    (hr : c.rest = st :: more) (ho : outerOf pay = .ok d) : Via (envelopeBody (dispatch p k)) c [] (dispatch p k (Cursor.root st)) := by
  unfold envelopeBody
  refine via_quiet ((consumeBlob_at hc).trans (by rw [ho])) ?_
  refine via_quiet (a := c.next.1) (c' := c.next.2) rfl ?_
  have hn : c.next.2.cur = some st := by
    obtain ⟨pr, cu, re, up⟩ := c
    simp only at hr
    subst hr
    rfl
  refine via_then ?_ ?_
  · rw [Via, told_dispatch_at p k hn]
    exact ⟨rfl, fun x h => ⟨x, h⟩⟩
  · intro e c
    cases e <;> rfl

theorem via_envelopeBuild (p : Paths) (k : Nat) {c : Cursor} {d : Str} {pay st tr : Node}
    (hc : c.cur = some (.mk (.ulong (cordaId 1)) [])) (hr : c.rest = [.mk .list [pay, st, tr]]) (ho : outerOf pay = .ok d) :
    Via (envelopeBuild p (dispatch p k)) c [traceLine (p .envelopeDescriptor) 106 "ENVELOPE".toList] (dispatch p k (Cursor.root st)) := by
  have h1 : c.next.2.enter.next.2.cur = some pay ∧ c.next.2.enter.next.2.rest = [st, tr] := by
    obtain ⟨pr, cu, re, up⟩ := c
    simp only at hr
    subst hr
    exact ⟨rfl, rfl⟩
  have h2 : Via (autoEnter (envelopeBody (dispatch p k))) c.next.2 [] (dispatch p k (Cursor.root st)) :=
    via_enter (Eq.refl c.next.2.enter.next.2) (via_envelopeBody p k (tr := tr) h1.1 h1.2 ho)
  unfold envelopeBuild
  exact via_dbg (p .envelopeDescriptor) 106 "ENVELOPE".toList (via_quiet (validate_envelope hc) h2)

theorem via_readEnvelope (p : Paths) {c : Cursor} {d : Str} {pay st tr : Node} (hc : c.cur = some (envelopeTree pay st tr))
    (ho : outerOf pay = .ok d) :
    Via (readEnvelope p) c [traceLine (p .envelopeDescriptor) 106 "ENVELOPE".toList] (dispatch p c.fuel (Cursor.root st)) := by
  have silent : ∀ (e : Element) c, ((match e with
      | .envelope s o => pure (s, o)
      | _ => quiet (Prog.ub "null envelope") : TProg (Schema × Str)) c).2 = [] := by
    intro e c
    cases e <;> rfl
  have hd : Prog.isDescribed c = (.ok true, c) := by
    simp [Prog.isDescribed, Prog.look, Cursor.type, hc, envelopeTree, element, Node.val, Atom.type]
  have hb : ∀ k, Via (do
      let id ← quiet (Prog.look Prog.getUlong)
      build p (dispatch p k) id : TProg Element) c.enter.next.2
      [traceLine (p .envelopeDescriptor) 106 "ENVELOPE".toList] (dispatch p k (Cursor.root st)) := by
    intro k
    obtain ⟨pr, cu, re, up⟩ := c
    simp only at hc
    subst hc
    refine via_quiet (a := cordaId 1) rfl ?_
    rw [build_envelope]
    exact via_envelopeBuild p k rfl rfl ho
  have hk : ∀ k, Via (do
      let d ← quiet Prog.isDescribed
      if d then do
        let e ← autoEnter (do
          let id ← quiet (Prog.look Prog.getUlong)
          build p (dispatch p k) id)
        match e with
        | .envelope s o => pure (s, o)
        | _ => quiet (Prog.ub "null envelope")
      else quiet (Prog.ub "null envelope") : TProg (Schema × Str)) c
      [traceLine (p .envelopeDescriptor) 106 "ENVELOPE".toList] (dispatch p k (Cursor.root st)) := by
    intro k
    refine via_quiet hd ?_
    rw [if_pos rfl]
    exact via_then (via_enter rfl (hb k)) silent
  have h := hk c.fuel
  unfold Via at h ⊢
  unfold readEnvelope
  exact h

end Corda.TProg
