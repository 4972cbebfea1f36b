import Verif.Lemmas.InspectBlind

/-
The inspection of two blobs that differ only in what is hidden of the payload.
-/

namespace Corda
open Spec TProg

theorem blind_enterAt {α β : Type} {R S : Cursor → Cursor → Prop} {V : α → β → Prop} {p : TProg α} {q : TProg β} (hp : Scoped (erase p))
    (hq : Scoped (erase q)) (hR : ∀ c d, R c d → LikeOn c d) (hS : ∀ c d, R c d → S c.enter.next.2 d.enter.next.2) (h : Blind S V p q) :
    Blind R V (autoEnter p) (autoEnter q) := by
  intro c d hr
  have hl := hR c d hr
  rw [autoEnter_back hp hl.2, autoEnter_back hq (hl.1.isSome.trans hl.2)]
  obtain ⟨k1, _, k3⟩ := h _ _ (hS c d hr)
  exact ⟨k1, hl.1, k3⟩

/-- On these two nodes, with these after them. -/
def Both (n m : Node) (ns ms : List Node) (c d : Cursor) : Prop := c.cur = some n ∧ d.cur = some m ∧ c.rest = ns ∧ d.rest = ms

theorem Both.like {n m : Node} {ns ms : List Node} {c d : Cursor} (h : Both n m ns ms c d) (hn : hide n = hide m) (hs : ns.map hide = ms.map hide) :
    LikeOn c d := by
  obtain ⟨h1, h2, h3, h4⟩ := h
  exact ⟨⟨by rw [h1, h2]; exact congrArg some hn, by rw [h3, h4]; exact hs⟩, by rw [h1]; rfl⟩

theorem Both.next {n m n' m' : Node} {ns ms : List Node} {c d : Cursor} (h : Both n m (n' :: ns) (m' :: ms) c d) :
    Both n' m' ns ms c.next.2 d.next.2 := by
  obtain ⟨_, _, h3, h4⟩ := h
  simp only [Cursor.next, h3, h4]
  exact ⟨rfl, rfl, rfl, rfl⟩

theorem Both.enter {v w : Atom} {n m : Node} {ns ms ns' ms' : List Node} {c d : Cursor} (h : Both (.mk v (n :: ns)) (.mk w (m :: ms)) ns' ms' c d) :
    Both n m ns ms c.enter.next.2 d.enter.next.2 := by
  obtain ⟨h1, h2, _, _⟩ := h
  simp only [Cursor.enter, h1, h2, Cursor.next]
  exact ⟨rfl, rfl, rfl, rfl⟩

/-- An envelope with this payload. -/
def envelopeOf (d pay sch : Node) (rest more : List Node) : Node := .mk .described (d :: .mk .list (pay :: sch :: rest) :: more)

theorem hide_envelopeOf (d : Node) {pay pay' : Node} (sch : Node) (rest more : List Node) (h : hide pay = hide pay') :
    hide (envelopeOf d pay sch rest more) = hide (envelopeOf d pay' sch rest more) := by
  simp [envelopeOf, hide, hideTail, hideAll, hideAtom, h]

section
variable {d pay pay' sch : Node} {rest more : List Node}

theorem blind_envelopeBody (p : Paths) (k : Nat) (h : hide pay = hide pay') :
    Blind (Both pay pay' (sch :: rest) (sch :: rest)) Eq (envelopeBody (dispatch p k)) (envelopeBody (dispatch p k)) := by
  have h1 : Blind (Both pay pay' (sch :: rest) (sch :: rest)) Eq (quiet Prog.consumeBlob) (quiet Prog.consumeBlob) := by
    intro c e hr
    simp only [quiet, consumeBlob_at hr.1, consumeBlob_at hr.2.1, outerOf_hide h]
    exact ⟨trivial, (hr.like h rfl).1, by cases outerOf pay' <;> exact rfl⟩
  have h2 : Blind (Both pay pay' (sch :: rest) (sch :: rest)) Eq (quiet Prog.next) (quiet Prog.next) := by
    intro c e hr
    have hl := (hr.like h rfl).1.next
    exact ⟨rfl, hl.2, hl.1⟩
  have h3 : Blind (Both sch sch rest rest) Eq (dispatch p k) (dispatch p k) := by
    intro c e hr
    rw [told_dispatch_at p k hr.1, told_dispatch_at p k hr.2.1]
    exact ⟨rfl, (hr.like rfl rfl).1, by cases (dispatch p k (Cursor.root sch)).1.1 <;> exact rfl⟩
  unfold envelopeBody
  refine blind_bindAt h1 (S := Both pay pay' (sch :: rest) (sch :: rest)) (fun c e a hr _ _ => ?_) fun o _ ho => ?_
  · simp only [quiet, consumeBlob_at hr.1, consumeBlob_at hr.2.1]
    exact hr
  subst ho
  refine blind_bindAt h2 (S := Both sch sch rest rest) (fun c e a hr _ _ => hr.next) fun _ _ _ => ?_
  refine blind_bind h3 fun e _ he => ?_
  subst he
  refine blind_bind (V := Eq) (fun c f hr => ?_) fun s _ hs => ?_
  · cases e <;> exact ⟨rfl, hr, rfl⟩
  subst hs
  exact blind_bind blind_next fun _ _ _ => blind_pure rfl

theorem blind_readEnvelope (p : Paths) (hd : d.val = .ulong (descId ENVELOPE)) (h : hide pay = hide pay') :
    Blind (Both (envelopeOf d pay sch rest more) (envelopeOf d pay' sch rest more) [] []) Eq (readEnvelope p) (readEnvelope p) := by
  intro c e hr
  have hfuel : c.fuel = e.fuel := (hr.like (hide_envelopeOf d sch rest more h) rfl).1.fuel
  have hb : Blind (Both d d (.mk .list (pay :: sch :: rest) :: more) (.mk .list (pay' :: sch :: rest) :: more)) Eq
      (quiet (Prog.look Prog.getUlong) >>= fun id => build p (dispatch p e.fuel) id)
      (quiet (Prog.look Prog.getUlong) >>= fun id => build p (dispatch p e.fuel) id) := by
    have hl : hide (.mk .list (pay :: sch :: rest)) = hide (.mk .list (pay' :: sch :: rest)) := by simp [hide, hideAll, hideAtom, h]
    have hg : ∀ x : Cursor, x.cur = some d → Prog.getUlong x = descId ENVELOPE := fun x hx => by
      simp [Prog.getUlong, Cursor.val, hx, hd]
    have hlist : ∀ c e, Both d d (.mk .list (pay :: sch :: rest) :: more) (.mk .list (pay' :: sch :: rest) :: more) c e → Like c e := fun c e hr =>
      (hr.like rfl (by simp [hl])).1
    have hv : ∀ x : Cursor, x.cur = some d → Prog.validateAndNext ENVELOPE x = (.ok (), x.next.2) := fun x hx => by
      unfold Prog.validateAndNext
      rw [Prog.bind_of_ok (show Prog.attest .ulong "Bad type for a descriptor" x = (.ok (), x) from
        if_pos (by simp [Cursor.type, hx, hd, Atom.type]))]
      rw [Prog.bind_of_ok (show Prog.look Prog.getUlong x = (.ok (descId ENVELOPE), x) by rw [← hg x hx]; rfl)]
      rw [if_neg (by simp)]
      rfl
    refine blind_bindAt (V := fun a b => a = b ∧ a = descId ENVELOPE)
      (S := Both d d (.mk .list (pay :: sch :: rest) :: more) (.mk .list (pay' :: sch :: rest) :: more)) ?_ (fun c e a hr _ _ => hr) ?_
    · intro c e hr
      refine ⟨rfl, hlist c e hr, ?_⟩
      show Prog.getUlong c = Prog.getUlong e ∧ _
      rw [hg c hr.1, hg e hr.2.1]
      exact ⟨rfl, rfl⟩
    rintro a _ ⟨rfl, rfl⟩
    have eb : build p (dispatch p e.fuel) (descId ENVELOPE) = envelopeBuild p (dispatch p e.fuel) := by
      unfold build
      rw [if_neg (by decide), if_pos rfl]
    rw [eb]
    unfold envelopeBuild
    refine blind_bindAt (V := Eq)
      (S := Both d d (.mk .list (pay :: sch :: rest) :: more) (.mk .list (pay' :: sch :: rest) :: more))
      (fun c e hr => ⟨rfl, hlist c e hr, rfl⟩) (fun c e a hr _ _ => hr) fun _ _ _ => ?_
    refine blind_bindAt (V := Eq) (S := Both (.mk .list (pay :: sch :: rest)) (.mk .list (pay' :: sch :: rest)) more more)
      (fun c e hr => ?_) (fun c e a hr _ _ => ?_) fun _ _ _ => ?_
    · simp only [quiet, hv c hr.1, hv e hr.2.1]
      exact ⟨trivial, (hlist c e hr).next.2, rfl⟩
    · simp only [quiet, hv c hr.1, hv e hr.2.1]
      exact hr.next
    · have hsc := (scopedT_envelopeBody (scopedT_dispatch p e.fuel)).erased
      exact blind_enterAt hsc hsc (fun c e hr => hr.like hl rfl) (fun c e hr => hr.enter) (blind_envelopeBody p _ h)
  have hsc : Scoped (erase (quiet (Prog.look Prog.getUlong) >>= fun id => build p (dispatch p e.fuel) id)) :=
    (scopedT_bind (scopedT_quiet (scoped_look _)) fun id => scopedT_build p (scopedT_dispatch p e.fuel) id).erased
  have hen := blind_enterAt (R := Both (envelopeOf d pay sch rest more) (envelopeOf d pay' sch rest more) [] []) hsc hsc
    (fun c e hr => hr.like (hide_envelopeOf d sch rest more h) rfl) (fun c e hr => hr.enter) hb
  unfold readEnvelope
  rw [hfuel]
  refine blind_bindAt (V := fun a b => a = b ∧ a = true) (S := Both (envelopeOf d pay sch rest more) (envelopeOf d pay' sch rest more) [] [])
    ?_ ?_ ?_ c e hr
  · intro c e hr
    refine ⟨rfl, (hr.like (hide_envelopeOf d sch rest more h) rfl).1, ?_⟩
    have e1 : c.type = .described := by simp [Cursor.type, hr.1, envelopeOf, Node.val, Atom.type]
    have e2 : e.type = .described := by simp [Cursor.type, hr.2.1, envelopeOf, Node.val, Atom.type]
    simp [quiet, Prog.isDescribed, Prog.look, EndsAlike, e1, e2]
  · intro c e a hr _ _
    exact hr
  · rintro a _ ⟨rfl, rfl⟩
    rw [if_pos rfl]
    refine blind_bind hen fun x _ hx => ?_
    subst hx
    cases x <;> first | exact blind_pure rfl | exact blind_ub _

theorem readEnvelope_back (p : Paths) {c : Cursor} (hc : c.cur.isSome = true) : (readEnvelope p c).1.2 = c := by
  unfold readEnvelope
  rw [TProg.bind_def]
  simp only [quiet, Prog.isDescribed, Prog.look]
  by_cases h : c.type = .described
  · simp only [h, decide_true, if_true]
    have hsc : Scoped (erase (quiet (Prog.look Prog.getUlong) >>= fun id => build p (dispatch p c.fuel) id)) :=
      (scopedT_bind (scopedT_quiet (scoped_look _)) fun id => scopedT_build p (scopedT_dispatch p c.fuel) id).erased
    have hb := autoEnter_back (nx := false) hsc hc
    rw [TProg.bind_def]
    revert hb
    generalize autoEnter _ false c = r
    rcases r with ⟨⟨r, c'⟩, o⟩
    intro hb
    simp only at hb
    subst hb
    cases r with
    | ok x => cases x <;> rfl
    | throw _ => rfl
    | ub _ => rfl
  · simp only [h, decide_false]
    rfl

theorem sameEnd_of {α β : Type} {V : α → β → Prop} {r : Res α} {r' : Res β} (h : EndsAlike V r r') : SameEnd r r' := by
  cases r <;> cases r' <;> first | exact h.elim | exact h | exact trivial

theorem inspectTold_blind (p : Paths) (lf : Bool) (hd : d.val = .ulong (descId ENVELOPE)) (h : hide pay = hide pay') :
    (inspectTold p lf (Cursor.root (envelopeOf d pay sch rest more))).2 = (inspectTold p lf (Cursor.root (envelopeOf d pay' sch rest more))).2 ∧
    SameEnd (inspectTold p lf (Cursor.root (envelopeOf d pay sch rest more))).1
      (inspectTold p lf (Cursor.root (envelopeOf d pay' sch rest more))).1 := by
  have hr : Both (envelopeOf d pay sch rest more) (envelopeOf d pay' sch rest more) [] []
      (Cursor.root (envelopeOf d pay sch rest more)) (Cursor.root (envelopeOf d pay' sch rest more)) := ⟨rfl, rfl, rfl, rfl⟩
  obtain ⟨h1, _, h3⟩ := blind_readEnvelope p hd h _ _ hr
  have b1 := readEnvelope_back p (c := Cursor.root (envelopeOf d pay sch rest more)) rfl
  have b2 := readEnvelope_back p (c := Cursor.root (envelopeOf d pay' sch rest more)) rfl
  have hl := hr.like (hide_envelopeOf d sch rest more h) rfl
  unfold inspectTold dumpContents
  revert h1 h3 b1 b2 hl
  generalize Cursor.root (envelopeOf d pay sch rest more) = c
  generalize Cursor.root (envelopeOf d pay' sch rest more) = e
  rcases readEnvelope p c with ⟨⟨r, c'⟩, o⟩
  rcases readEnvelope p e with ⟨⟨r', e'⟩, o'⟩
  intro h1 h3 b1 b2 hl
  simp only at h1 h3 b1 b2
  subst h1 b1 b2
  cases r <;> cases r' <;> try exact h3.elim
  · rename_i x y
    have hxy : x = y := h3
    subst hxy
    obtain ⟨s, o2⟩ := x
    simp only
    rcases TFProg.process p (fun _ => publicKeyName) lf s (Factory.empty.installCustom 0 publicKeyType) with ⟨⟨r, F⟩, o3⟩
    cases r with
    | throw m => exact ⟨rfl, rfl⟩
    | ub m => exact ⟨rfl, rfl⟩
    | ok _ =>
      cases hi : F.findDesc o2 with
      | none => simp only [hi]; exact ⟨trivial, rfl⟩
      | some i =>
        obtain ⟨k1, _, k3⟩ := blind_dumpPayload p (fun _ _ => scoped_publicKeyDump) blind_publicKey lf F s i _ _ hl
        simp only [hi, k1]
        exact ⟨trivial, sameEnd_of k3⟩
  · have : _ = _ := h3
    subst this
    exact ⟨rfl, rfl⟩
  · have : _ = _ := h3
    subst this
    exact ⟨rfl, rfl⟩

end

end Corda
