import Verif.Lemmas.DumpSafe
import Verif.Props.SchemaDump

/-
C67: undefined behaviour of the schema dumps.
-/

namespace Corda.Props
open Corda Corda.Prog Corda.Spec

/-! ### The raw form -/

private theorem safe_readUint64 {n : Node} {id : Nat} (h : HasId n id) :
    Safe (Pos n.kids 0) readUint64 (fun k c => Pos n.kids 1 c ∧ k = id) := by
  refine safe_autoNext ?_
  intro c hc
  obtain ⟨ks, hk⟩ := h
  refine ⟨hc, ?_⟩
  have : c.cur = some (.mk (.ulong id) ks) := by rw [hc.1, hk]
  simp [look, getUlong, Cursor.val, this, Node.val]

private theorem hasId_of_ulong {n : Node} {c : Cursor} (hc : Pos n.kids 0 c) (h : c.type = .ulong) : ∃ id, HasId n id := by
  unfold Cursor.type at h
  cases hn : c.cur with
  | none => rw [hn] at h; cases h
  | some m =>
    rw [hn] at h
    cases m with
    | mk v ks =>
      cases v <;> first | (simp [Node.val, Atom.type] at h; done) | skip
      exact ⟨_, ks, by rw [← hc.1, hn]⟩

private theorem rawBody_fine {base : Str → Prog Str} (ai : Str) {n : Node}
    (h : ∀ id, HasId n id → Safe (Pos n.kids 1) (rawFor base id (deeper ai)) (fun _ _ => True)) :
    Safe (Pos n.kids 0) (rawBody base ai) (fun _ _ => True) := by
  intro c hc
  unfold rawBody
  rw [bind_of_ok (show look Cursor.type c = (.ok c.type, c) from rfl)]
  by_cases ht : c.type = .ulong
  · obtain ⟨id, hid⟩ := hasId_of_ulong hc ht
    rw [if_pos ht]
    refine (show Safe (Pos n.kids 0) _ (fun _ _ => True) from
      safe_bind (safe_readUint64 hid) fun k => safe_pre fun hk => ?_) c hc
    subst hk
    refine safe_bind (safe_attest _ _) fun _ => safe_pre fun _ => ?_
    refine safe_bind (R := fun _ => Pos n.kids 1) (fun c hc => hc) fun _ => ?_
    exact safe_bind (h k hid) fun _ => safe_pure _ fun _ _ => trivial
  · rw [if_neg ht]
    split
    · exact trivial
    · exact trivial

private theorem mem_parts {n m : Node} {l : Node} (hl : nth n.kids 1 = some l) : m ∈ l.kids ↔ m ∈ parts n := by
  unfold parts; rw [hl]

private theorem parts_eq {n : Node} {l : Node} (hl : nth n.kids 1 = some l) : l.kids = parts n := by
  unfold parts; rw [hl]

private theorem rawObject_fine (ai : Str) (n : Node) :
    Safe (Pos n.kids 1) (rawObject ai) (fun _ _ => True) := by
  refine safe_bind (safe_attest _ _) fun _ => safe_pre fun hm => ?_
  obtain ⟨m, hm, -⟩ := hm (by decide)
  refine safe_true (safe_listEnter (nth_ne_nil hm) (fun _ => scoped_rawObjectBody ai) fun m c _ _ _ => ?_)
  rw [bind_of_ok (show Prog.next c = (.ok c.next.1, c.next.2) from rfl), bind_def]
  have : Fine (autoNext getSymbol c.next.2).1 := by
    unfold autoNext
    simp only [getSymbol, isSymbol, attest, bind_def]
    by_cases h : c.next.2.type = .symbol <;> simp only [h, if_true, if_false] <;> trivial
  rcases hx : autoNext getSymbol c.next.2 with ⟨r, c'⟩
  rw [hx] at this
  cases r <;> first | trivial | exact this

private theorem safe_and {α : Type} {P : Cursor → Prop} {R : Cursor → Prop} {p : Prog α} (h : Safe P p (fun _ => R)) :
    Safe P p (fun _ c => R c ∧ True) := fun c hc => (h c hc).mono fun _ h => ⟨h, trivial⟩

private theorem fine_map {p : Prog Str} {c : Cursor} (h : Fine (p c).1) (f : Str → Str) :
    Fine (((p >>= fun x => pure (f x)) : Prog Str) c).1 := by
  rw [bind_def]
  rcases hx : p c with ⟨r, c'⟩
  rw [hx] at h
  cases r <;> first | trivial | exact h

private theorem safe_requires {ps : List Node} {i : Nat} (hne : ps ≠ []) (ai : Str) :
    Safe (Pos ps i) (rawRequires ai) (fun _ c => Pos ps i c ∧ True) :=
  safe_listEnter hne (scoped_rawRequiresBody ai) fun _ c _ _ k =>
    fine_map (forNext_fine (P := fun _ => True) (fun i c n hc _ => strings_fine (fun s => deeper ai ++ s ++ nl) hc) c
      (fun _ _ => trivial)) (fun t => ai ++ dField3 ++ natStr k ++ nl ++ t)

private theorem rawField_fine (ai : Str) (n : Node) : Safe (Pos n.kids 1) (rawField ai) (fun _ _ => True) := by
  refine safe_bind (safe_attest _ _) fun _ => safe_pre fun hm => ?_
  obtain ⟨m, hm, -⟩ := hm (by decide)
  refine safe_true (safe_listEnterNext (fun _ =>
    scoped_guard_bind (scoped_autoNext (scoped_getString _)) (guard_autoNext (guard_getString _)) fun _ =>
    scopedOn_bind (scoped_autoNext (scoped_getString _)).on fun _ =>
    scopedOn_bind (scopedOn_rawRequires _) fun _ => scopedOn_bind scoped_next.on fun _ =>
    scopedOn_bind (scoped_attestString _).on fun _ =>
    scopedOn_bind (scoped_autoNext (scoped_getString _)).on fun _ =>
    scopedOn_bind (scoped_autoNext (scoped_getString _)).on fun _ =>
    scopedOn_bind (scoped_autoNext scoped_getBoolean).on fun _ =>
    scopedOn_bind (scoped_autoNext scoped_getBoolean).on fun _ => (scoped_pure _).on) (nth_ne_nil hm) fun m _ _ _ => ?_)
  refine safe_bind (safe_autoNext safe_getString) fun _ => safe_pre fun hs => ?_
  have hne := nth_ne_nil hs.choose_spec
  refine safe_bind (safe_autoNext safe_getString) fun _ => safe_pre fun _ => ?_
  refine safe_bind (safe_requires hne _) fun _ => safe_pre fun _ => ?_
  refine safe_bind safe_next fun _ => safe_bind (safe_attestString true) fun _ => ?_
  refine safe_bind (safe_autoNext (safe_and (safe_getStringNull true))) fun _ => safe_pre fun _ => ?_
  refine safe_bind (safe_autoNext (safe_and (safe_getStringNull true))) fun _ => safe_pre fun _ => ?_
  refine safe_bind (safe_autoNext (safe_and safe_getBoolean)) fun _ => safe_pre fun _ => ?_
  refine safe_bind (safe_autoNext (safe_and safe_getBoolean)) fun _ => safe_pre fun _ => ?_
  exact safe_pure _ fun _ _ => trivial

/-- What is assumed about the recursive use of the dump. -/
private def Good (base : Str → Prog Str) (r : Str → Node → Res Str) : Prop :=
  (∀ ai, ScopedOn (base ai)) ∧ ∀ ai c n, c.cur = some n → base ai c = (r ai n, c)

private theorem safe_strings {ps : List Node} {i : Nat} (hne : ps ≠ []) (f : Str → Str) :
    Safe (Pos ps i) (autoListEnter (fun _ => forNext (fun _ => do let s ← getString; pure (f s))))
      (fun _ c => Pos ps i c ∧ True) :=
  safe_listEnter hne (fun _ => scoped_forNext fun _ => (scoped_bind (scoped_getString _) fun _ => scoped_pure _).on)
    fun _ c _ _ _ => forNext_fine (P := fun _ => True) (fun i c n hc _ => strings_fine f hc) c (fun _ _ => trivial)

private theorem safe_typed {ps : List Node} {i : Nat} (hne : ps ≠ []) {base : Str → Prog Str} {r : Str → Node → Res Str}
    (hb : Good base r) (ai : Str) (f : Nat → Nat → Str → Str)
    (hd : ∀ l, nth ps i = some l → ∀ m ∈ l.kids, m.val = .described ∧ Fine (r ai m)) :
    Safe (Pos ps i) (autoListEnter (fun n => forNext (fun i => do let x ← byType (base ai); pure (f n i x))))
      (fun _ c => Pos ps i c ∧ True) :=
  safe_listEnter hne (fun _ => scoped_forNext fun _ => (scoped_bind (scoped_byType (hb.1 ai)) fun _ => scoped_pure _).on)
    fun m c hm hc k => forNext_fine (P := fun n => n ∈ m.kids) (fun i c n hcn hn =>
      byType_fine (hb.2 ai) hcn (hd m hm n hn).1 (hd m hm n hn).2 (f k i)) c (fun n hn => hc ▸ hn)

private theorem rawComposite_fine {base : Str → Prog Str} {r : Str → Node → Res Str} (hb : Good base r) (ai : Str) (n : Node)
    (hdesc : ∀ m, nth (parts n) 3 = some m → ∀ ai, Fine (r ai m))
    (hf : ∀ l, nth (parts n) 4 = some l → ∀ m ∈ l.kids, m.val = .described ∧ ∀ ai, Fine (r ai m)) :
    Safe (Pos n.kids 1) (rawComposite base ai) (fun _ _ => True) := by
  refine safe_attestList_enter
    (scoped_bind (scoped_attestString _) fun _ =>
    scoped_guard_bind (scoped_readString _) (guard_readString _) fun _ =>
    scopedOn_bind (scoped_attestString _).on fun _ => scopedOn_bind (scoped_readString _).on fun _ =>
    scopedOn_bind scoped_list.on fun _ =>
    scopedOn_bind (scopedOn_autoListEnter fun _ => scoped_forNext fun _ =>
      (scoped_bind (scoped_getString _) fun _ => scoped_pure _).on) fun _ =>
    scopedOn_bind scoped_next.on fun _ => scopedOn_bind scoped_described.on fun _ =>
    scopedOn_bind (scoped_autoNext (scoped_byType (hb.1 _))).on fun _ =>
    scopedOn_bind (scopedOn_autoListEnter fun _ => scoped_forNext fun _ =>
      (scoped_bind (scoped_byType (hb.1 _)) fun _ => scoped_pure _).on) fun _ => (scoped_pure _).on) fun m hm _ => ?_
  rw [parts_eq hm]
  refine safe_bind (safe_attestString _) fun _ => safe_bind (safe_readString _) fun _ => safe_pre fun ⟨_, hne⟩ => ?_
  refine safe_bind (safe_attestString _) fun _ => safe_bind (safe_readString _) fun _ => safe_pre fun _ => ?_
  refine safe_bind (safe_attest _ _) fun _ => safe_pre fun _ => ?_
  refine safe_bind (safe_strings hne _) fun _ => safe_pre fun _ => ?_
  refine safe_bind safe_next fun _ => safe_bind (safe_attest _ _) fun _ => safe_pre fun hd => ?_
  obtain ⟨d, hd, ht⟩ := hd (by decide)
  refine safe_bind (safe_autoNext (safe_byType hne (hb.2 _) (fun m hm => ?_) fun m hm => hdesc m hm _)) fun _ =>
    safe_pre fun _ => ?_
  · rw [hm] at hd
    obtain rfl := Option.some.inj hd
    revert ht
    cases m with
    | mk v ks => cases v <;> simp [Node.val, Atom.type]
  refine safe_bind (safe_typed hne hb _ _ fun l hl m hm => ⟨(hf l hl m hm).1, (hf l hl m hm).2 _⟩) fun _ => ?_
  exact safe_pure _ fun _ _ => trivial

private theorem rawRestricted_fine {base : Str → Prog Str} {r : Str → Node → Res Str} (hb : Good base r) (ai : Str) (n : Node)
    (hdesc : ∀ m, nth (parts n) 4 = some m → m.val = .described ∧ ∀ ai, Fine (r ai m)) :
    Safe (Pos n.kids 1) (rawRestricted base ai) (fun _ _ => True) := by
  refine safe_attestList_enter
    (scoped_guard_bind (scoped_readString _) (guard_readString _) fun _ => scopedOn_bind (scoped_readString _).on fun _ =>
    scopedOn_bind (scopedOn_autoListEnter fun _ => scoped_forNext fun _ =>
      (scoped_bind (scoped_getString _) fun _ => scoped_pure _).on) fun _ =>
    scopedOn_bind scoped_next.on fun _ => scopedOn_bind (scoped_readString _).on fun _ =>
    scopedOn_bind (scoped_autoNext (scoped_byType (hb.1 _))).on fun _ => (scoped_pure _).on) fun m hm _ => ?_
  rw [parts_eq hm]
  refine safe_bind (safe_readString _) fun _ => safe_pre fun ⟨_, hne⟩ => ?_
  refine safe_bind (safe_readString _) fun _ => safe_pre fun _ => ?_
  refine safe_bind (safe_strings hne _) fun _ => safe_pre fun _ => ?_
  refine safe_bind safe_next fun _ => safe_bind (safe_readString _) fun _ => safe_pre fun _ => ?_
  refine safe_bind (safe_autoNext (safe_byType hne (hb.2 _) (fun m hm => (hdesc m hm).1) fun m hm => (hdesc m hm).2 _))
    fun _ => safe_pure _ fun _ _ => trivial

private theorem rawEnvelope_fine {base : Str → Prog Str} {r : Str → Node → Res Str} (hb : Good base r) (ai : Str) (n : Node)
    (hne : parts n ≠ [])
    (h : ∀ i m, i < 2 → nth (parts n) i = some m → m.val = .described ∧ ∀ ai, Fine (r ai m)) :
    Safe (Pos n.kids 1) (rawEnvelope base ai) (fun _ _ => True) := by
  refine safe_attestList_enter
    (scoped_bind (scoped_autoNext (scoped_byType (hb.1 _))) fun _ =>
      scoped_bind (scoped_autoNext (scoped_byType (hb.1 _))) fun _ => scoped_pure _) fun m hm _ => ?_
  rw [parts_eq hm]
  refine safe_bind (safe_autoNext (safe_byType hne (hb.2 _) (fun m hm => (h 0 m (by omega) hm).1)
    fun m hm => (h 0 m (by omega) hm).2 _)) fun _ => safe_pre fun _ => ?_
  refine safe_bind (safe_autoNext (safe_byType hne (hb.2 _) (fun m hm => (h 1 m (by omega) hm).1)
    fun m hm => (h 1 m (by omega) hm).2 _)) fun _ => safe_pure _ fun _ _ => trivial

private theorem rawSchema_fine {base : Str → Prog Str} {r : Str → Node → Res Str} (hb : Good base r) (ai : Str) (n : Node)
    (h : ∀ l ∈ parts n, ∀ m ∈ l.kids, m.val = .described ∧ ∀ ai, Fine (r ai m)) :
    Safe (Pos n.kids 1) (rawSchema base ai) (fun _ _ => True) := by
  refine safe_bind (safe_attest _ _) fun _ => safe_pre fun hm => ?_
  obtain ⟨m, hm, -⟩ := hm (by decide)
  have hs : ∀ (i n : Nat), Scoped (do
      attestList
      autoListEnter (fun m => do
        let ts ← forNext (fun j => do
          let t ← byType (base (deeper (deeper (deeper ai))))
          pure (deeper (deeper ai) ++ natStr i ++ dColon ++ natStr j ++ dSlash ++ natStr m ++ dCloseBlank ++ nl ++ t))
        pure (deeper ai ++ natStr i ++ dSlash ++ natStr n ++ dClose ++ dEntries ++ natStr m ++ nl ++ ts)) : Prog Str) :=
    fun i n => scoped_guard_bind scoped_list guard_list fun _ => scopedOn_autoListEnter fun _ =>
      scoped_bind (scoped_forNext fun _ => (scoped_bind (scoped_byType (hb.1 _)) fun _ => scoped_pure _).on)
        fun _ => scoped_pure _
  refine safe_true (safe_listEnter (nth_ne_nil hm) (fun n => scoped_forNext fun i => (hs i n).on) fun m' c hm' hc k => ?_)
  refine forNext_fine (P := fun l => l ∈ parts n) ?_ c (fun x hx => by rw [← parts_eq hm']; exact hc ▸ hx)
  intro i c l hcl hl
  have hl' : (⟨[], some l, [], []⟩ : Cursor).cur = some l := rfl
  by_cases ht : c.type = .list
  · rw [bind_of_ok (show attestList c = (.ok (), c) by simp [attestList, attest, ht])]
    rw [autoListEnter_eq (fun _ => scoped_bind (scoped_forNext fun _ =>
      (scoped_bind (scoped_byType (hb.1 _)) fun _ => scoped_pure _).on) fun _ => scoped_pure _) (by simp [hcl])]
    refine ⟨rfl, ?_⟩
    simp only [Bool.false_eq_true, if_false]
    refine fine_map (forNext_fine (P := fun x => x ∈ l.kids) (fun j c x hcx hx =>
      byType_fine (hb.2 _) hcx (h l hl x hx).1 ((h l hl x hx).2 _) _) _
      (fun x hx => by rwa [enter_rest hcl] at hx)) _
  · rw [bind_of_throw (show attestList c = (.throw "Expected a List", c) by simp [attestList, attest, ht])]
    exact ⟨rfl, trivial⟩

private theorem base_fine {base : Str → Prog Str} {r : Str → Node → Res Str} (hb : Good base r) (ai : Str) (n : Node)
    (h : ∀ m, nth n.kids 1 = some m → Fine (r ai m)) (hne : n.kids ≠ []) :
    Safe (Pos n.kids 1) (base ai) (fun _ _ => True) := by
  intro c hc
  obtain ⟨m, hm⟩ := nth_isSome 1 hne
  rw [hb.2 ai c m (by rw [hc.1, hm])]
  exact h m hm

private theorem hasId_eq {n : Node} {a b : Nat} (ha : HasId n a) (hb : HasId n b) : a = b := by
  obtain ⟨k1, h1⟩ := ha
  obtain ⟨k2, h2⟩ := hb
  rw [h1] at h2
  simp only [Option.some.injEq, Node.mk.injEq, Atom.ulong.injEq] at h2
  exact h2.1

private theorem good_raw (fuel : Nat) : Good (rawBase fuel) (rawNode fuel) :=
  ⟨fun ai => scopedOn_rawBase fuel ai, fun ai _ _ h => rawBase_at fuel ai h⟩

private theorem raw_fine {n : Node} (h : RawShowable n) : ∀ (fuel : Nat) (ai : Str), n.height ≤ fuel →
    Fine (rawNode fuel ai n) := by
  induction h with
  | @other n h =>
    intro fuel ai hf
    cases fuel with
    | zero => cases n; simp [Node.height] at hf
    | succ fuel =>
      refine autoEnter_fine (scoped_rawBody (scopedOn_rawBase fuel) ai) rfl (rawBody_fine ai fun id hid => ?_)
      exact absurd hid (h id)
  | @plain n id hid hk =>
    intro fuel ai hf
    cases fuel with
    | zero => cases n; simp [Node.height] at hf
    | succ fuel =>
      refine autoEnter_fine (scoped_rawBody (scopedOn_rawBase fuel) ai) rfl (rawBody_fine ai fun id' hid' => ?_)
      rw [hasId_eq hid' hid]
      rcases hk with rfl | rfl
      · exact rawObject_fine _ n
      · exact rawField_fine _ n
  | @envelope n hid hne hd _ ih =>
    intro fuel ai hf
    cases fuel with
    | zero => cases n; simp [Node.height] at hf
    | succ fuel =>
      refine autoEnter_fine (scoped_rawBody (scopedOn_rawBase fuel) ai) rfl (rawBody_fine ai fun id' hid' => ?_)
      rw [hasId_eq hid' hid]
      exact rawEnvelope_fine (good_raw fuel) _ n hne fun i m hi hm =>
        ⟨hd i m hi hm, fun ai => ih i m hi hm fuel ai (by have := parts_height (nth_mem hm); omega)⟩
  | @schema n hid hd _ ih =>
    intro fuel ai hf
    cases fuel with
    | zero => cases n; simp [Node.height] at hf
    | succ fuel =>
      refine autoEnter_fine (scoped_rawBody (scopedOn_rawBase fuel) ai) rfl (rawBody_fine ai fun id' hid' => ?_)
      rw [hasId_eq hid' hid]
      exact rawSchema_fine (good_raw fuel) _ n fun l hl m hm =>
        ⟨hd l hl m hm, fun ai => ih l hl m hm fuel ai (by
          have := parts_height hl; have := node_height_lt hm; omega)⟩
  | @composite n hid _ hd _ ih1 ih2 =>
    intro fuel ai hf
    cases fuel with
    | zero => cases n; simp [Node.height] at hf
    | succ fuel =>
      refine autoEnter_fine (scoped_rawBody (scopedOn_rawBase fuel) ai) rfl (rawBody_fine ai fun id' hid' => ?_)
      rw [hasId_eq hid' hid]
      exact rawComposite_fine (good_raw fuel) _ n
        (fun m hm ai => ih1 m hm fuel ai (by have := parts_height (nth_mem hm); omega))
        fun l hl m hm => ⟨hd l hl m hm, fun ai => ih2 l hl m hm fuel ai (by
          have := parts_height (nth_mem hl); have := node_height_lt hm; omega)⟩
  | @restricted n hid hd _ ih =>
    intro fuel ai hf
    cases fuel with
    | zero => cases n; simp [Node.height] at hf
    | succ fuel =>
      refine autoEnter_fine (scoped_rawBody (scopedOn_rawBase fuel) ai) rfl (rawBody_fine ai fun id' hid' => ?_)
      rw [hasId_eq hid' hid]
      exact rawRestricted_fine (good_raw fuel) _ n fun m hm =>
        ⟨hd m hm, fun ai => ih m hm fuel ai (by have := parts_height (nth_mem hm); omega)⟩
  | @again n id hid hk _ ih =>
    intro fuel ai hf
    cases fuel with
    | zero => cases n; simp [Node.height] at hf
    | succ fuel =>
      refine autoEnter_fine (scoped_rawBody (scopedOn_rawBase fuel) ai) rfl (rawBody_fine ai fun id' hid' => ?_)
      rw [hasId_eq hid' hid]
      have hg := base_fine (good_raw fuel) (deeper ai) n (fun m hm => ih m hm fuel _ (by
        have := nth_height hm; omega)) (nth_ne_nil hid.choose_spec)
      simp only [List.mem_cons, List.not_mem_nil, or_false] at hk
      rcases hk with rfl | rfl | rfl | rfl | rfl | rfl <;> exact hg

/-! ### The Avro form -/

private theorem fine_congr {α β γ : Type} {x : Res α} {f : α → Res β} {g : α → Res γ} (h : Fine (x.bind f))
    (hg : ∀ a, Fine (f a) → Fine (g a)) : Fine (x.bind g) := by
  cases x with
  | ok a => exact hg a h
  | throw m => trivial
  | ub m => exact h

private theorem infer_ai {fuel : Nat} : ∀ {t r ai ai' : Str}, Fine (inferGo fuel t r ai) → Fine (inferGo fuel t r ai') := by
  induction fuel with
  | zero => intro t r ai ai' h; exact h
  | succ fuel ih =>
    intro t r ai ai' h
    have key : ∀ {x y : Str → Str} {t : Str}, Fine ((inferGo fuel t r (deeper ai)).bind fun a => .ok (x a)) →
        Fine ((inferGo fuel t r (deeper ai')).bind fun a => .ok (y a)) := by
      intro x y t h
      have : Fine (inferGo fuel t r (deeper ai)) := by
        cases hx : inferGo fuel t r (deeper ai) with
        | ub m => rw [hx] at h; exact h
        | _ => trivial
      exact Res.sat_bind (ih this) fun _ _ => trivial
    simp only [inferGo, Res.bind_eq, Res.pure_eq] at h ⊢
    generalize (if t = "*".toList then r else t) = ty at h ⊢
    refine fine_congr h fun arr h => ?_
    cases arr with
    | true =>
      simp only [if_true] at h ⊢
      refine fine_congr h fun t' h => fine_congr h fun c h => ?_
      cases c with
      | true => exact key h
      | false => trivial
    | false =>
      simp only [Bool.false_eq_true, if_false] at h ⊢
      split
      · rename_i hl
        rw [if_pos hl] at h
        refine fine_congr h fun v h => fine_congr h fun c h => ?_
        cases c with
        | true => exact key h
        | false => trivial
      · rename_i hl
        rw [if_neg hl] at h
        split
        · rename_i hm
          rw [if_pos hm] at h
          refine fine_congr h fun v h => fine_congr h fun c h => ?_
          cases c with
          | true => exact key h
          | false => trivial
        · trivial

private theorem infer_fine {s : AvroShape} (ho : s.Ok) (hs : s.render.Small) (type req ai : Str)
    (he : (if type = "*".toList then req else type) = s.render) : Fine (inferType type req ai) := by
  unfold inferType
  refine infer_ai (ai := indent 0) ?_
  rw [infer_shape s ho hs _ 0 (by rw [← he]; split <;> omega) type req he]
  trivial

private theorem avroBody_fine {base : Str → Prog Str} (ai : Str) {n : Node}
    (h : ∀ id, HasId n id → Safe (Pos n.kids 1) (avroFor base id ai) (fun _ _ => True)) :
    Safe (Pos n.kids 0) (avroBody base ai) (fun _ _ => True) := by
  intro c hc
  unfold avroBody
  rw [bind_of_ok (show look Cursor.type c = (.ok c.type, c) from rfl)]
  by_cases ht : c.type = .ulong
  · obtain ⟨id, hid⟩ := hasId_of_ulong hc ht
    rw [if_pos ht]
    refine (show Safe (Pos n.kids 0) _ (fun _ _ => True) from
      safe_bind (safe_readUint64 hid) fun k => safe_pre fun hk => ?_) c hc
    subst hk
    exact safe_bind (safe_attest _ _) fun _ => safe_pre fun _ => h k hid
  · rw [if_neg ht]
    split
    · exact trivial
    · exact trivial

private theorem avroObject_fine (ai : Str) (n : Node) : Safe (Pos n.kids 1) (avroObject ai) (fun _ _ => True) := by
  refine safe_bind (safe_attest _ _) fun _ => safe_pre fun hm => ?_
  obtain ⟨m, hm, -⟩ := hm (by decide)
  refine safe_true (safe_listEnter (nth_ne_nil hm) (fun _ =>
    scoped_bind scoped_next fun _ => scoped_bind (scoped_autoNext scoped_getSymbol) fun _ => scoped_pure _)
    fun m c _ _ _ => ?_)
  rw [bind_of_ok (show Prog.next c = (.ok c.next.1, c.next.2) from rfl), bind_def]
  have : Fine (autoNext getSymbol c.next.2).1 := by
    unfold autoNext
    simp only [getSymbol, isSymbol, attest, bind_def]
    by_cases h : c.next.2.type = .symbol <;> simp only [h, if_true, if_false] <;> trivial
  rcases hx : autoNext getSymbol c.next.2 with ⟨r, c'⟩
  rw [hx] at this
  cases r <;> first | trivial | exact this

private theorem avroType_fine (ai : Str) (ps : List Node) (hne : ps ≠ [])
    (h : ∀ t ks m, nth ps 1 = some (.mk (.string t) ks) → nth ps 2 = some m →
        (t ≠ "*".toList → ∃ s : AvroShape, s.Ok ∧ s.render.Small ∧ s.render = t)
        ∧ (t = "*".toList → m.val = .list ∧ m.kids ≠ [] ∧
          ∀ r ks, nth m.kids 0 = some (.mk (.string r) ks) → ∃ s : AvroShape, s.Ok ∧ s.render.Small ∧ s.render = r)) :
    Safe (Pos ps 1) (avroType ai) (fun _ c => Pos ps 2 c ∧ True) := by
  refine safe_bind (safe_autoNext safe_getString) fun t => safe_pre fun ⟨ks, ht⟩ => ?_
  refine safe_listEnterNext (fun _ => scoped_ite (scoped_bind (scoped_getString _) fun _ => scoped_lift _) (scoped_lift _))
    hne fun m k hm hk => ?_
  obtain ⟨h1, h2⟩ := h t ks m ht hm
  by_cases hs : t = "*".toList
  · obtain ⟨hl, hk0, hr⟩ := h2 hs
    rw [if_pos hl] at hk
    have : k > 0 := by rw [hk]; exact List.length_pos_iff.mpr hk0
    rw [if_pos this]
    refine safe_bind safe_getString fun r => safe_pre fun ⟨ks', hr'⟩ => ?_
    obtain ⟨s, ho, hsm, he⟩ := hr r ks' hr'
    exact safe_true (safe_lift (infer_fine ho hsm _ _ _ (by rw [if_pos hs, he])))
  · obtain ⟨s, ho, hsm, he⟩ := h1 hs
    split
    · refine safe_bind safe_getString fun r => safe_pre fun _ => ?_
      exact safe_true (safe_lift (infer_fine ho hsm _ _ _ (by rw [if_neg hs, he])))
    · exact safe_true (safe_lift (infer_fine ho hsm _ _ _ (by rw [if_neg hs, he])))

private theorem avroField_fine (ai : Str) (n : Node)
    (h : ∀ t ks m, nth (parts n) 1 = some (.mk (.string t) ks) → nth (parts n) 2 = some m →
        (t ≠ "*".toList → ∃ s : AvroShape, s.Ok ∧ s.render.Small ∧ s.render = t)
        ∧ (t = "*".toList → m.val = .list ∧ m.kids ≠ [] ∧
          ∀ r ks, nth m.kids 0 = some (.mk (.string r) ks) → ∃ s : AvroShape, s.Ok ∧ s.render.Small ∧ s.render = r)) :
    Safe (Pos n.kids 1) (avroField ai) (fun _ _ => True) := by
  refine safe_bind (safe_attest _ _) fun _ => safe_pre fun hm => ?_
  obtain ⟨m, hm, -⟩ := hm (by decide)
  refine safe_true (safe_listEnterNext (fun _ =>
    scoped_guard_bind (scoped_autoNext (scoped_getString _)) (guard_autoNext (guard_getString _)) fun _ =>
    scopedOn_bind (scopedOn_avroType _) fun _ => (scoped_pure _).on) (nth_ne_nil hm) fun m _ hm _ => ?_)
  rw [parts_eq hm]
  refine safe_bind (safe_autoNext safe_getString) fun _ => safe_pre fun hs => ?_
  have hne := nth_ne_nil hs.choose_spec
  exact safe_bind (avroType_fine _ _ hne h) fun _ => safe_pure _ fun _ _ => trivial

private theorem substr_fine (s : Str) (i k : Nat) : Fine (substr s i k) := by
  unfold substr
  split <;> trivial

private theorem avroComposite_fine {base : Str → Prog Str} {r : Str → Node → Res Str} (hb : Good base r) (ai : Str) (n : Node)
    (hdesc : ∀ m, nth (parts n) 3 = some m → ∀ ai, Fine (r ai m))
    (hf : ∀ l, nth (parts n) 4 = some l → ∀ m ∈ l.kids, m.val = .described ∧ ∀ ai, Fine (r ai m)) :
    Safe (Pos n.kids 1) (avroComposite base ai) (fun _ _ => True) := by
  refine safe_attestList_enter
    (scoped_bind (scoped_attestString _) fun _ =>
    scoped_guard_bind (scoped_readString _) (guard_readString _) fun _ =>
    scopedOn_bind (scoped_lift _).on fun _ => scopedOn_bind (scoped_lift _).on fun _ =>
    scopedOn_bind (scoped_attestString _).on fun _ => scopedOn_bind scoped_next.on fun _ =>
    scopedOn_bind scoped_list.on fun _ => scopedOn_bind scoped_next.on fun _ =>
    scopedOn_bind scoped_described.on fun _ =>
    scopedOn_bind (scoped_autoNext (scoped_byType (hb.1 _))).on fun _ =>
    scopedOn_bind (scopedOn_autoListEnter fun _ => scoped_forNext fun _ =>
      (scoped_bind (scoped_byType (hb.1 _)) fun _ => scoped_pure _).on) fun _ => (scoped_pure _).on) fun m hm _ => ?_
  rw [parts_eq hm]
  refine safe_bind (safe_attestString _) fun _ => safe_bind (safe_readString _) fun _ => safe_pre fun ⟨_, hne⟩ => ?_
  refine safe_bind (safe_lift (substr_fine _ _ _)) fun _ => safe_pre fun _ => ?_
  refine safe_bind (safe_lift (substr_fine _ _ _)) fun _ => safe_pre fun _ => ?_
  refine safe_bind (safe_attestString _) fun _ => safe_bind safe_next fun _ => ?_
  refine safe_bind (safe_attest _ _) fun _ => safe_pre fun _ => ?_
  refine safe_bind safe_next fun _ => safe_bind (safe_attest _ _) fun _ => safe_pre fun hd => ?_
  obtain ⟨d, hd, ht⟩ := hd (by decide)
  refine safe_bind (safe_autoNext (safe_byType hne (hb.2 _) (fun m hm => ?_) fun m hm => hdesc m hm _)) fun _ =>
    safe_pre fun _ => ?_
  · rw [hm] at hd
    obtain rfl := Option.some.inj hd
    revert ht
    cases m with
    | mk v ks => cases v <;> simp [Node.val, Atom.type]
  refine safe_bind (safe_typed hne hb _ _ fun l hl m hm => ⟨(hf l hl m hm).1, (hf l hl m hm).2 _⟩) fun _ => ?_
  exact safe_pure _ fun _ _ => trivial

private theorem avroEnvelope_fine {base : Str → Prog Str} {r : Str → Node → Res Str} (hb : Good base r) (ai : Str) (n : Node)
    (hne : parts n ≠ []) (h : ∀ m, nth (parts n) 1 = some m → m.val = .described ∧ ∀ ai, Fine (r ai m)) :
    Safe (Pos n.kids 1) (avroEnvelope base ai) (fun _ _ => True) := by
  refine safe_bind (safe_attest _ _) fun _ => safe_pre fun hm => ?_
  obtain ⟨m, hm, -⟩ := hm (by decide)
  intro c hc
  have hcur : c.cur = some m := by rw [hc.1, hm]
  have hp : Scoped (autoNext (byType (base ai))) := scoped_autoNext (scoped_byType (hb.1 _))
  rw [autoEnter_eq hp (by simp [hcur])]
  simp only [if_true]
  obtain ⟨u, hu⟩ := enter_next_start c m hcur
  have hx : ((start m.kids).under u).next.2 = (start m.kids).next.2.under u := by
    unfold Cursor.next Cursor.under start
    split <;> simp_all
  rw [hu, hx, (hp _).2]
  refine (safe_autoNext (safe_byType (ps := parts n) (i := 1) hne (hb.2 _) (fun m hm => (h m hm).1)
    fun m hm => (h m hm).2 _)) _ ?_ |>.mono fun _ _ => trivial
  rw [← parts_eq hm]
  exact (pos_start _).next

private theorem avroSchema_fine {base : Str → Prog Str} {r : Str → Node → Res Str} (hb : Good base r) (ai : Str) (n : Node)
    (h1 : (parts n).length = 1) (h : ∀ l ∈ parts n, ∀ m ∈ l.kids, m.val = .described ∧ ∀ ai, Fine (r ai m)) :
    Safe (Pos n.kids 1) (avroSchema base ai) (fun _ _ => True) := by
  refine safe_bind (safe_attest _ _) fun _ => safe_pre fun hm => ?_
  obtain ⟨m, hm, hl⟩ := hm (by decide)
  have hl : m.val = .list := by
    revert hl
    cases m with
    | mk v ks => cases v <;> simp [Node.val, Atom.type]
  intro c hc
  have hcur : c.cur = some m := by rw [hc.1, hm]
  have hg : c.getList = 1 := by
    unfold Cursor.getList
    rw [hcur]
    cases m with
    | mk v ks =>
      simp only [Node.val] at hl
      subst hl
      simpa [← parts_eq hm, Node.kids] using h1
  have hsc : ScopedOn (autoListEnter (fun m => forNext (fun j => do
      let x ← byType (base ai)
      pure (if x = [] then [] else x ++ (if j < m then aComma else []) ++ nl)))) :=
    scopedOn_autoListEnter fun _ => scoped_forNext fun _ => (scoped_bind (scoped_byType (hb.1 _)) fun _ => scoped_pure _).on
  have hne : parts n ≠ [] := by intro e; rw [e] at h1; simp at h1
  obtain ⟨u, hu⟩ := enter_next_start c m hcur
  have hpos : Pos (parts n) 0 (start m.kids) := by rw [parts_eq hm]; exact pos_start _
  have hon : (start m.kids).cur.isSome = true := by
    obtain ⟨x, hx⟩ := nth_isSome 0 hne
    rw [hpos.1, hx]; rfl
  have e : ∀ {p : Nat → Prog Str}, (autoListEnter p true c).1 = (p c.getList c.enter.next.2).1 := fun {p} => rfl
  rw [e, hg, if_pos rfl, hu, (hsc _ hon).2]
  exact (safe_typed hne hb ai (fun n i x => if x = [] then [] else x ++ (if i < n then aComma else []) ++ nl)
    (fun l hl m hm => ⟨(h l (nth_mem hl) m hm).1, (h l (nth_mem hl) m hm).2 _⟩) _ hpos).mono fun _ _ => trivial

private theorem good_avro (fuel : Nat) : Good (avroBase fuel) (avroNode fuel) :=
  ⟨fun ai => scopedOn_avroBase fuel ai, fun ai _ _ h => avroBase_at fuel ai h⟩

private theorem avro_fine {n : Node} (h : AvroShowable n) : ∀ (fuel : Nat) (ai : Str), n.height ≤ fuel →
    Fine (avroNode fuel ai n) := by
  have step : ∀ (n : Node) (fuel : Nat) (ai : Str), n.height ≤ fuel →
      (∀ f, f + 1 = fuel → ∀ id, HasId n id → Safe (Pos n.kids 1) (avroFor (avroBase f) id ai) (fun _ _ => True)) →
      Fine (avroNode fuel ai n) := by
    intro n fuel ai hf h
    cases fuel with
    | zero => cases n; simp [Node.height] at hf
    | succ fuel =>
      exact autoEnter_fine (scoped_avroBody (scopedOn_avroBase fuel) ai) rfl (avroBody_fine ai fun id hid => h fuel rfl id hid)
  induction h with
  | other h => intro fuel ai hf; exact step _ fuel ai hf fun f _ id hid => absurd hid (h id)
  | plain id hid hk =>
    intro fuel ai hf
    refine step _ fuel ai hf fun f _ id' hid' => ?_
    rw [hasId_eq hid' hid]
    rcases hk with rfl | rfl
    · exact avroObject_fine _ _
    · exact fun _ _ => trivial
  | field hid hk =>
    intro fuel ai hf
    refine step _ fuel ai hf fun f _ id' hid' => ?_
    rw [hasId_eq hid' hid]
    exact avroField_fine _ _ hk
  | envelope hid hne hd _ ih =>
    intro fuel ai hf
    refine step _ fuel ai hf fun f hf' id' hid' => ?_
    rw [hasId_eq hid' hid]
    exact avroEnvelope_fine (good_avro f) _ _ hne fun m hm =>
      ⟨hd m hm, fun ai => ih m hm f ai (by have := parts_height (nth_mem hm); omega)⟩
  | schema hid h1 hd _ ih =>
    intro fuel ai hf
    refine step _ fuel ai hf fun f hf' id' hid' => ?_
    rw [hasId_eq hid' hid]
    exact avroSchema_fine (good_avro f) _ _ h1 fun l hl m hm =>
      ⟨hd l hl m hm, fun ai => ih l hl m hm f ai (by
        have := parts_height hl; have := node_height_lt hm; omega)⟩
  | composite hid _ hd _ ih1 ih2 =>
    intro fuel ai hf
    refine step _ fuel ai hf fun f hf' id' hid' => ?_
    rw [hasId_eq hid' hid]
    exact avroComposite_fine (good_avro f) _ _
      (fun m hm ai => ih1 m hm f ai (by have := parts_height (nth_mem hm); omega))
      fun l hl m hm => ⟨hd l hl m hm, fun ai => ih2 l hl m hm f ai (by
        have := parts_height (nth_mem hl); have := node_height_lt hm; omega)⟩
  | again id hid hk _ ih =>
    intro fuel ai hf
    refine step _ fuel ai hf fun f hf' id' hid' => ?_
    rw [hasId_eq hid' hid]
    have hg := base_fine (good_avro f) ai _ (fun m hm => ih m hm f _ (by
      have := nth_height hm; omega)) (nth_ne_nil hid.choose_spec)
    simp only [List.mem_cons, List.not_mem_nil, or_false] at hk
    rcases hk with rfl | rfl | rfl | rfl | rfl | rfl <;> exact hg

/-! ### C67 -/

/-- **C67, partial**: whatever the blob, dumping its schema as raw text either gives a text or throws, if the node at the cursor
satisfies what the dump relies on without checking (`RawShowable`).  Missing: trees that do not, see below. -/
theorem C67_raw_defined_partial (c : Cursor) (h : ∀ n, c.cur = some n → n.val = .described → RawShowable n) :
    (dumpSchema .raw c).1.Defined := by
  unfold dumpSchema
  rw [bind_of_ok (show look Cursor.type c = (.ok c.type, c) from rfl)]
  by_cases hd : c.type = .described
  · simp only [ne_eq, hd, not_true, if_false]
    have hs : c.cur.isSome = true := on_of_type (by rw [hd]; decide)
    obtain ⟨n, hn⟩ := Option.isSome_iff_exists.mp hs
    rw [rawBase_at _ _ hn]
    have hv : n.val = .described := by
      simp only [Cursor.type, hn] at hd
      revert hd
      cases n with
      | mk v ks => cases v <;> simp [Node.val, Atom.type]
    exact (raw_fine (h n hn hv) _ _ (by simp [Cursor.fuel, hn])).defined
  · simp only [ne_eq, hd, not_false_iff, if_true]
    trivial

/-- **C67, partial**: the same for the Avro form. -/
theorem C67_avro_defined_partial (c : Cursor) (h : ∀ n, c.cur = some n → n.val = .described → AvroShowable n) :
    (dumpSchema .avro c).1.Defined := by
  unfold dumpSchema
  rw [bind_of_ok (show look Cursor.type c = (.ok c.type, c) from rfl)]
  by_cases hd : c.type = .described
  · simp only [ne_eq, hd, not_true, if_false]
    have hs : c.cur.isSome = true := on_of_type (by rw [hd]; decide)
    obtain ⟨n, hn⟩ := Option.isSome_iff_exists.mp hs
    rw [avroBase_at _ _ hn]
    have hv : n.val = .described := by
      simp only [Cursor.type, hn] at hd
      revert hd
      cases n with
      | mk v ks => cases v <;> simp [Node.val, Atom.type]
    exact (avro_fine (h n hn hv) _ _ (by simp [Cursor.fuel, hn])).defined
  · simp only [ne_eq, hd, not_false_iff, if_true]
    trivial

/-- **C67**: asking for the AMQP form is always defined (it writes nothing). -/
theorem C67_amqp_defined (c : Cursor) : (dumpSchema .amqp c).1.Defined := by
  unfold dumpSchema
  rw [bind_of_ok (show look Cursor.type c = (.ok c.type, c) from rfl)]
  by_cases hd : c.type = .described
  · simp only [ne_eq, hd, not_true, if_false]; trivial
  · simp only [ne_eq, hd, not_false_iff, if_true]; trivial

/-! Non-vacuity: a class cut off after its name, in a schema, in an envelope, satisfies both conditions; it is rejected. -/

/-- A class with nothing but a name. -/
private def cutClass : Node := element 5 [str "A".toList]
private def cutSchema : Node := element 2 [.mk .list [cutClass]]
private def cutEnvelope : Node := element 1 [.mk .described [sym "net.corda:A".toList, .mk .list []], cutSchema]

private theorem hasId_element (k : Nat) (ps : List Node) : HasId (element k ps) (cordaId k) := ⟨[], rfl⟩

private theorem not_id {n : Node} {v : Atom} {ks ms : List Node} (h : n.kids = .mk v ks :: ms) (hv : ∀ i, v ≠ .ulong i) (id : Nat) :
    ¬ HasId n id := by
  rintro ⟨ks', h'⟩
  rw [h] at h'
  simp only [nth, Nat.zero_min, List.getElem?_cons_zero, Option.some.injEq, Node.mk.injEq] at h'
  exact hv id h'.1

private theorem not_id_nil {n : Node} (h : n.kids = []) (id : Nat) : ¬ HasId n id := by
  rintro ⟨ks', h'⟩
  rw [h] at h'
  simp [nth] at h'

private theorem cut_showable : RawShowable cutEnvelope := by
  have hc : RawShowable cutClass := by
    refine .composite (hasId_element _ _) (fun m hm => .other (not_id_nil ?_)) (fun l hl m hm => ?_) (fun l hl m hm => ?_)
    · obtain rfl : str "A".toList = m := Option.some.inj hm
      rfl
    · obtain rfl : str "A".toList = l := Option.some.inj hl
      simp [str, Node.kids] at hm
    · obtain rfl : str "A".toList = l := Option.some.inj hl
      simp [str, Node.kids] at hm
  have hs : RawShowable cutSchema := by
    refine .schema (hasId_element _ _) (fun l hl m hm => ?_) (fun l hl m hm => ?_) <;>
      obtain rfl : l = .mk .list [cutClass] := List.mem_singleton.mp hl <;>
      obtain rfl : m = cutClass := List.mem_singleton.mp hm
    · rfl
    · exact hc
  refine .envelope (hasId_element _ _) (by decide) (fun i m hi hm => ?_) (fun i m hi hm => ?_) <;>
    obtain rfl | rfl : i = 0 ∨ i = 1 := by omega
  · obtain rfl := Option.some.inj hm; rfl
  · obtain rfl := Option.some.inj hm; rfl
  · obtain rfl := Option.some.inj hm; exact .other (not_id rfl (by simp))
  · obtain rfl := Option.some.inj hm; exact hs

example : (dumpSchema .raw (Cursor.root cutEnvelope)).1.Defined :=
  C67_raw_defined_partial _ fun n hn _ => by obtain rfl := Option.some.inj hn; exact cut_showable
example : (dumpSchema .raw (Cursor.root cutEnvelope)).1.Throws := by decide +kernel

/-! What is not checked. -/

/-- A small envelope: the payload, the schema. -/
private def env (payload : Node) (lists : List Node) : Node := element 1 [payload, element 2 lists]
private def blobPayload : Node := .mk .described [sym "net.corda:A".toList, .mk .list []]
private def field (type : Str) (req : List Node) : Node :=
  element 4 [str "x".toList, str type, .mk .list req, .mk .null [], .mk .null [], .mk (.bool true) [], .mk (.bool false) []]
private def classOf (fs : List Node) : Node :=
  element 5 [str "A".toList, str [], .mk .list [], element 3 [sym "net.corda:A".toList], .mk .list fs]

/-- A class with one field. -/
private def tiny : Node := env blobPayload [.mk .list [classOf [field "int".toList []]]]

/-- The dumps work when everything is in place. -/
example : (dumpSchema .raw (Cursor.root tiny)).1.Defined ∧ ¬ (dumpSchema .raw (Cursor.root tiny)).1.Throws
    ∧ (dumpSchema .avro (Cursor.root tiny)).1.Defined ∧ ¬ (dumpSchema .avro (Cursor.root tiny)).1.Throws := by
  decide +kernel

/-- **C67 fails**: dumping the schema has undefined behaviour on some blobs: the raw form when the payload is a bare value, e.g. a
string (a valid blob), when an identifier is unknown, when the envelope is empty, when a type in the schema is no described value;
the Avro form when a field of type `*` requires nothing, when its type is empty, when the schema has two lists or none. -/
theorem C67_dump_violated :
    (dumpSchema .raw (Cursor.root (env (str "hello".toList) [.mk .list []]))).1.IsUB
    ∧ (dumpSchema .raw (Cursor.root (.mk .described [.mk (.ulong 7) [], .mk .list []]))).1.IsUB
    ∧ (dumpSchema .raw (Cursor.root (element 1 []))).1.IsUB
    ∧ (dumpSchema .raw (Cursor.root (env blobPayload [.mk .list [str "A".toList]]))).1.IsUB
    ∧ (dumpSchema .avro (Cursor.root (env blobPayload [.mk .list [classOf [field "*".toList []]]]))).1.IsUB
    ∧ (dumpSchema .avro (Cursor.root (env blobPayload [.mk .list [classOf [field [] []]]]))).1.IsUB
    ∧ (dumpSchema .avro (Cursor.root (env blobPayload [.mk .list [], .mk .list []]))).1.IsUB
    ∧ (dumpSchema .avro (Cursor.root (env blobPayload []))).1.IsUB := by
  refine ⟨?_, ?_, ?_, ?_, ?_, ?_, ?_, ?_⟩ <;> decide +kernel

/-- **C67**: with a bare value as payload the Avro form, which skips the payload, is fine. -/
theorem C67_bare_payload_avro (payload schema : Node) (hd : schema.val = .described) (hs : AvroShowable schema) :
    (dumpSchema .avro (Cursor.root (element 1 [payload, schema]))).1.Defined := by
  refine C67_avro_defined_partial _ fun n hn _ => ?_
  obtain rfl := Option.some.inj hn
  refine .envelope (hasId_element _ _) (by simp [parts, element, nth, Node.kids]) (fun m hm => ?_) fun m hm => ?_
  · obtain rfl := Option.some.inj hm; exact hd
  · obtain rfl := Option.some.inj hm; exact hs

#print axioms C67_raw_defined_partial
#print axioms C67_avro_defined_partial
#print axioms C67_amqp_defined
#print axioms C67_dump_violated
#print axioms C67_bare_payload_avro

end Corda.Props
