import Verif.Model.SchemaDump
import Verif.Lemmas.Tree
import Verif.Lemmas.RawDump

/-
The schema dumps as cursor programs: they stay in scope, and what they write depends on the node alone.
-/

namespace Corda
open Prog

/-! ### Scope -/

theorem scoped_forNextGo {body : Nat → Prog Str} (h : ∀ i, ScopedOn (body i)) (fuel i : Nat) :
    Scoped (forNextGo body fuel i) := by
  induction fuel generalizing i with
  | zero => exact scoped_ub _
  | succ fuel ih =>
    exact scoped_next_bind (scopedOn_bind (h i) fun a => (scoped_bind (ih (i + 1)) fun as => scoped_pure _).on) (scoped_pure _)

theorem scoped_forNext {body : Nat → Prog Str} (h : ∀ i, ScopedOn (body i)) : Scoped (forNext body) :=
  fun c => ⟨(scoped_forNextGo h _ _ c).1, fun u => (scoped_forNextGo h _ _ c).2 u⟩

theorem guard_autoNext {α : Type} {p : Prog α} (h : Guard p) : Guard (autoNext p) := by
  intro c a hc
  exact (Cursor.next_keeps _).2.2 (h c a hc)

theorem guard_byType {base : Prog Str} (hb : ScopedOn base) : Guard (byType base) := by
  intro c a h
  unfold byType at h ⊢
  rw [bind_of_ok (show look Cursor.type c = (.ok c.type, c) from rfl)] at h ⊢
  by_cases ht : c.type = .described
  · rw [if_pos ht] at h ⊢
    have hs : c.cur.isSome = true := on_of_type (by rw [ht]; decide)
    exact (hb c hs).1.2.2 hs
  · rw [if_neg ht] at h
    simp [Prog.ub] at h

theorem scoped_byType {base : Prog Str} (hb : ScopedOn base) : Scoped (byType base) := by
  intro c
  unfold byType
  refine scopedAt_bind ((scoped_look (α := PnType) Cursor.type (by intros; rfl)) c) fun t ht => ?_
  simp only [look, Res.ok.injEq] at ht ⊢
  by_cases hi : t = .described
  · rw [if_pos hi]
    exact hb c (on_of_type (by rw [ht, hi]; decide))
  · rw [if_neg hi]; exact scoped_ub _ c

theorem scoped_readUint64 : Scoped readUint64 := scoped_autoNext (scoped_look _)

theorem guard_list : Guard attestList := guard_attest _ _ (by decide)
theorem scoped_list : Scoped attestList := scoped_attest _ _
theorem guard_described : Guard attestDescribed := guard_attest _ _ (by decide)
theorem scoped_described : Scoped attestDescribed := scoped_attest _ _

theorem scoped_rawObjectBody (ai : Str) : Scoped (do
    let _ ← next
    let s ← autoNext getSymbol
    let d ← look Cursor.shown
    pure (deeper ai ++ dObj1 ++ s ++ nl ++ deeper ai ++ dObj2 ++ d ++ nl) : Prog Str) :=
  scoped_bind scoped_next fun _ => scoped_bind (scoped_autoNext scoped_getSymbol) fun _ =>
    scoped_bind (scoped_look _) fun _ => scoped_pure _

theorem scoped_rawObject (ai : Str) : Scoped (rawObject ai) :=
  scoped_guard_bind scoped_list guard_list fun _ => scopedOn_autoListEnter fun _ => scoped_rawObjectBody ai

theorem scoped_rawRequiresBody (ai : Str) (n : Nat) : Scoped (do
    let t ← forNext (fun _ => do
      let s ← getString
      pure (deeper ai ++ s ++ nl))
    pure (ai ++ dField3 ++ natStr n ++ nl ++ t) : Prog Str) :=
  scoped_bind (scoped_forNext fun _ => (scoped_bind (scoped_getString _) fun _ => scoped_pure _).on) fun _ => scoped_pure _

theorem scopedOn_rawRequires (ai : Str) : ScopedOn (rawRequires ai) :=
  scopedOn_autoListEnter fun n => scoped_rawRequiresBody ai n

theorem scoped_rawField (ai : Str) : Scoped (rawField ai) :=
  scoped_guard_bind scoped_list guard_list fun _ => scopedOn_autoListEnter fun _ =>
  scoped_guard_bind (scoped_autoNext (scoped_getString _)) (guard_autoNext (guard_getString _)) fun _ =>
  scopedOn_bind (scoped_autoNext (scoped_getString _)).on fun _ =>
  scopedOn_bind (scopedOn_rawRequires _) fun _ => scopedOn_bind scoped_next.on fun _ =>
  scopedOn_bind (scoped_attestString _).on fun _ =>
  scopedOn_bind (scoped_autoNext (scoped_getString _)).on fun _ =>
  scopedOn_bind (scoped_autoNext (scoped_getString _)).on fun _ =>
  scopedOn_bind (scoped_autoNext scoped_getBoolean).on fun _ =>
  scopedOn_bind (scoped_autoNext scoped_getBoolean).on fun _ => (scoped_pure _).on

theorem scoped_rawComposite {base : Str → Prog Str} (hb : ∀ ai, ScopedOn (base ai)) (ai : Str) :
    Scoped (rawComposite base ai) :=
  scoped_guard_bind scoped_list guard_list fun _ => scopedOn_autoEnter <|
  scoped_bind (scoped_attestString _) fun _ =>
  scoped_guard_bind (scoped_readString _) (guard_readString _) fun _ =>
  scopedOn_bind (scoped_attestString _).on fun _ => scopedOn_bind (scoped_readString _).on fun _ =>
  scopedOn_bind scoped_list.on fun _ =>
  scopedOn_bind (scopedOn_autoListEnter fun _ => scoped_forNext fun _ =>
    (scoped_bind (scoped_getString _) fun _ => scoped_pure _).on) fun _ =>
  scopedOn_bind scoped_next.on fun _ => scopedOn_bind scoped_described.on fun _ =>
  scopedOn_bind (scoped_autoNext (scoped_byType (hb _))).on fun _ =>
  scopedOn_bind (scopedOn_autoListEnter fun _ => scoped_forNext fun _ =>
    (scoped_bind (scoped_byType (hb _)) fun _ => scoped_pure _).on) fun _ => (scoped_pure _).on

theorem scoped_rawRestricted {base : Str → Prog Str} (hb : ∀ ai, ScopedOn (base ai)) (ai : Str) :
    Scoped (rawRestricted base ai) :=
  scoped_guard_bind scoped_list guard_list fun _ => scopedOn_autoEnter <|
  scoped_guard_bind (scoped_readString _) (guard_readString _) fun _ => scopedOn_bind (scoped_readString _).on fun _ =>
  scopedOn_bind (scopedOn_autoListEnter fun _ => scoped_forNext fun _ =>
    (scoped_bind (scoped_getString _) fun _ => scoped_pure _).on) fun _ =>
  scopedOn_bind scoped_next.on fun _ => scopedOn_bind (scoped_readString _).on fun _ =>
  scopedOn_bind (scoped_autoNext (scoped_byType (hb _))).on fun _ => (scoped_pure _).on

theorem scoped_rawSchema {base : Str → Prog Str} (hb : ∀ ai, ScopedOn (base ai)) (ai : Str) :
    Scoped (rawSchema base ai) :=
  scoped_guard_bind scoped_list guard_list fun _ => scopedOn_autoListEnter fun _ => scoped_forNext fun _ =>
  (scoped_guard_bind scoped_list guard_list fun _ => scopedOn_autoListEnter fun _ =>
    scoped_bind (scoped_forNext fun _ => (scoped_bind (scoped_byType (hb _)) fun _ => scoped_pure _).on)
      fun _ => scoped_pure _).on

theorem scoped_rawEnvelope {base : Str → Prog Str} (hb : ∀ ai, ScopedOn (base ai)) (ai : Str) :
    Scoped (rawEnvelope base ai) :=
  scoped_guard_bind scoped_list guard_list fun _ => scopedOn_autoEnter <|
  scoped_bind (scoped_autoNext (scoped_byType (hb _))) fun _ =>
  scoped_bind (scoped_autoNext (scoped_byType (hb _))) fun _ => scoped_pure _

theorem scopedOn_rawFor {base : Str → Prog Str} (hb : ∀ ai, ScopedOn (base ai)) (key : Nat) (ai : Str) :
    ScopedOn (rawFor base key ai) := by
  unfold rawFor
  exact scopedOn_ite (hb _) <| scopedOn_ite (scoped_rawEnvelope hb _).on <| scopedOn_ite (scoped_rawSchema hb _).on <|
    scopedOn_ite (scoped_rawObject _).on <| scopedOn_ite (scoped_rawField _).on <|
    scopedOn_ite (scoped_rawComposite hb _).on <| scopedOn_ite (scoped_rawRestricted hb _).on <|
    scopedOn_ite (hb _) <| scopedOn_ite (hb _) <| scopedOn_ite (hb _) <| scopedOn_ite (hb _) <| scopedOn_ite (hb _) <|
    (scoped_ub _).on

theorem scoped_rawBody {base : Str → Prog Str} (hb : ∀ ai, ScopedOn (base ai)) (ai : Str) :
    Scoped (rawBody base ai) :=
  scoped_bind (scoped_look _) fun _ => scoped_ite
    (scoped_bind scoped_readUint64 fun _ => scoped_guard_bind scoped_list guard_list fun _ =>
      scopedOn_bind (scoped_look _).on fun _ => scopedOn_bind (scopedOn_rawFor hb _ _) fun _ => (scoped_pure _).on)
    (scoped_ite (scoped_bind (scoped_look _) fun _ => scoped_pure _) (scoped_throw _))

theorem scopedOn_rawBase (fuel : Nat) (ai : Str) : ScopedOn (rawBase fuel ai) := by
  induction fuel generalizing ai with
  | zero => exact (scoped_ub _).on
  | succ fuel ih => exact scopedOn_autoEnter (scoped_rawBody ih ai)

/-- Entering a list whose body stays in scope from there. -/
theorem scopedAt_autoListEnter {α : Type} {p : Nat → Prog α} {nx : Bool} {c : Cursor} (hc : c.cur.isSome = true)
    (hp : ScopedAt (p c.getList) (if nx then c.enter.next.2 else c.enter)) : ScopedAt (autoListEnter p nx) c := by
  have key : ∀ (c : Cursor), c.cur.isSome = true → ScopedAt (p c.getList) (if nx then c.enter.next.2 else c.enter) →
      autoListEnter p nx c = ((p c.getList (if nx then c.enter.next.2 else c.enter)).1, c) := by
    intro c hc hp
    unfold autoListEnter scope
    simp only [Prod.mk.injEq, true_and]
    apply Cursor.exit_of_keeps hc
    cases nx
    · exact hp.1
    · exact (Cursor.next_keeps _).trans hp.1
  refine ⟨?_, fun u => ?_⟩
  · rw [key c hc hp]; exact Keeps.refl c
  · obtain ⟨u', hu⟩ := Cursor.enter_under hc u
    have h2 : (if nx then (c.under u).enter.next.2 else (c.under u).enter)
        = (if nx then c.enter.next.2 else c.enter).under u' := by
      cases nx <;> simp only [hu, Cursor.next_under, if_true, Bool.false_eq_true, if_false]
    have hg : (c.under u).getList = c.getList := rfl
    have hp' : ScopedAt (p (c.under u).getList) (if nx then (c.under u).enter.next.2 else (c.under u).enter) := by
      rw [h2, hg]
      refine ⟨?_, fun w => ?_⟩
      · rw [hp.2]
        obtain ⟨a, b, d⟩ := hp.1
        exact ⟨a, rfl, d⟩
      · rw [hp.2 u']
        exact hp.2 w
    rw [key c hc hp, key (c.under u) hc hp', h2, hg, hp.2]

theorem scoped_avroObject (ai : Str) : Scoped (avroObject ai) :=
  scoped_guard_bind scoped_list guard_list fun _ => scopedOn_autoListEnter fun _ =>
  scoped_bind scoped_next fun _ => scoped_bind (scoped_autoNext scoped_getSymbol) fun _ => scoped_pure _

theorem scopedOn_avroType (ai : Str) : ScopedOn (avroType ai) :=
  scopedOn_bind (scoped_autoNext (scoped_getString _)).on fun _ => scopedOn_autoListEnter fun _ =>
  scoped_ite (scoped_bind (scoped_getString _) fun _ => scoped_lift _) (scoped_lift _)

theorem scoped_avroField (ai : Str) : Scoped (avroField ai) :=
  scoped_guard_bind scoped_list guard_list fun _ => scopedOn_autoListEnter fun _ =>
  scoped_guard_bind (scoped_autoNext (scoped_getString _)) (guard_autoNext (guard_getString _)) fun _ =>
  scopedOn_bind (scopedOn_avroType _) fun _ => (scoped_pure _).on

theorem scoped_avroComposite {base : Str → Prog Str} (hb : ∀ ai, ScopedOn (base ai)) (ai : Str) :
    Scoped (avroComposite base ai) :=
  scoped_guard_bind scoped_list guard_list fun _ => scopedOn_autoEnter <|
  scoped_bind (scoped_attestString _) fun _ =>
  scoped_guard_bind (scoped_readString _) (guard_readString _) fun _ =>
  scopedOn_bind (scoped_lift _).on fun _ => scopedOn_bind (scoped_lift _).on fun _ =>
  scopedOn_bind (scoped_attestString _).on fun _ => scopedOn_bind scoped_next.on fun _ =>
  scopedOn_bind scoped_list.on fun _ => scopedOn_bind scoped_next.on fun _ =>
  scopedOn_bind scoped_described.on fun _ =>
  scopedOn_bind (scoped_autoNext (scoped_byType (hb _))).on fun _ =>
  scopedOn_bind (scopedOn_autoListEnter fun _ => scoped_forNext fun _ =>
    (scoped_bind (scoped_byType (hb _)) fun _ => scoped_pure _).on) fun _ => (scoped_pure _).on

theorem scoped_avroSchema {base : Str → Prog Str} (hb : ∀ ai, ScopedOn (base ai)) (ai : Str) :
    Scoped (avroSchema base ai) := by
  refine scoped_guard_bind scoped_list guard_list fun _ => ?_
  intro c hc
  refine scopedAt_autoListEnter hc ?_
  by_cases h1 : c.getList = 1
  · simp only [h1, if_true]
    refine (scopedOn_autoListEnter fun _ => scoped_forNext fun _ =>
      (scoped_bind (scoped_byType (hb _)) fun _ => scoped_pure _).on) _ ?_
    obtain ⟨p, cu, r, u⟩ := c
    cases cu with
    | none => simp at hc
    | some n =>
      cases n with
      | mk v ks =>
        cases v <;> simp [Cursor.getList] at h1
        match ks, h1 with
        | [k], _ => rfl
  · simp only [h1, if_false]
    exact scoped_ub _ _

theorem scoped_avroEnvelope {base : Str → Prog Str} (hb : ∀ ai, ScopedOn (base ai)) (ai : Str) :
    Scoped (avroEnvelope base ai) :=
  scoped_guard_bind scoped_list guard_list fun _ => scopedOn_autoEnter <| scoped_autoNext (scoped_byType (hb _))

theorem scopedOn_avroFor {base : Str → Prog Str} (hb : ∀ ai, ScopedOn (base ai)) (key : Nat) (ai : Str) :
    ScopedOn (avroFor base key ai) := by
  unfold avroFor
  exact scopedOn_ite (hb _) <| scopedOn_ite (scoped_avroEnvelope hb _).on <| scopedOn_ite (scoped_avroSchema hb _).on <|
    scopedOn_ite (scoped_avroObject _).on <| scopedOn_ite (scoped_avroField _).on <|
    scopedOn_ite (scoped_avroComposite hb _).on <| scopedOn_ite (scoped_pure _).on <|
    scopedOn_ite (hb _) <| scopedOn_ite (hb _) <| scopedOn_ite (hb _) <| scopedOn_ite (hb _) <| scopedOn_ite (hb _) <|
    (scoped_ub _).on

theorem scoped_avroBody {base : Str → Prog Str} (hb : ∀ ai, ScopedOn (base ai)) (ai : Str) :
    Scoped (avroBody base ai) :=
  scoped_bind (scoped_look _) fun _ => scoped_ite
    (scoped_bind scoped_readUint64 fun _ => scoped_guard_bind scoped_list guard_list fun _ => scopedOn_avroFor hb _ _)
    (scoped_ite (scoped_bind (scoped_look _) fun _ => scoped_pure _) (scoped_throw _))

theorem scopedOn_avroBase (fuel : Nat) (ai : Str) : ScopedOn (avroBase fuel ai) := by
  induction fuel generalizing ai with
  | zero => exact (scoped_ub _).on
  | succ fuel ih => exact scopedOn_autoEnter (scoped_avroBody ih ai)

/-! ### What is written depends on the node -/

/-- What the raw dump of a node is. -/
def rawNode (fuel : Nat) (ai : Str) (n : Node) : Res Str := (rawBase fuel ai (Cursor.root n)).1

/-- What the Avro dump of a node is. -/
def avroNode (fuel : Nat) (ai : Str) (n : Node) : Res Str := (avroBase fuel ai (Cursor.root n)).1

theorem autoEnter_at {α : Type} {p : Prog α} (hp : Scoped p) {c : Cursor} {n : Node} (h : c.cur = some n) :
    autoEnter p false c = ((autoEnter p false (Cursor.root n)).1, c) := by
  rw [autoEnter_eq hp (by simp [h]), autoEnter_eq hp (by simp [Cursor.root])]
  simp only [Prod.mk.injEq, and_true, Bool.false_eq_true, if_false]
  obtain ⟨p', cu, r, u⟩ := c
  simp only at h
  subst h
  cases n with
  | mk v ks =>
    have : (Cursor.enter ⟨p', some (.mk v ks), r, u⟩).next.2
        = ((Cursor.root (.mk v ks)).enter.next.2).under ((p', v, r) :: u) := by
      cases ks <;> rfl
    rw [this, (hp _).2]

theorem autoListEnter_at {α : Type} {p : Nat → Prog α} (hp : ∀ n, Scoped (p n)) {c : Cursor} {n : Node} (h : c.cur = some n) :
    autoListEnter p false c = ((autoListEnter p false (Cursor.root n)).1, c) := by
  rw [autoListEnter_eq hp (by simp [h]), autoListEnter_eq hp (by simp [Cursor.root])]
  simp only [Prod.mk.injEq, and_true, Bool.false_eq_true, if_false]
  obtain ⟨p', cu, r, u⟩ := c
  simp only at h
  subst h
  cases n with
  | mk v ks =>
    have : Cursor.enter ⟨p', some (.mk v ks), r, u⟩ = ((Cursor.root (.mk v ks)).enter).under ((p', v, r) :: u) := rfl
    have hg : Cursor.getList ⟨p', some (.mk v ks), r, u⟩ = (Cursor.root (.mk v ks)).getList := rfl
    rw [this, hg, (hp _ _).2]

/-- The same after checking that there is a list. -/
theorem listBody_at {α : Type} {p : Nat → Prog α} (hp : ∀ n, Scoped (p n)) {c : Cursor} {n : Node} (h : c.cur = some n) :
    (attestList >>= fun _ => autoListEnter p false) c
      = (((attestList >>= fun _ => autoListEnter p false) (Cursor.root n)).1, c) := by
  have ht : c.type = n.val.type := by simp [Cursor.type, h]
  have ht' : (Cursor.root n).type = n.val.type := rfl
  by_cases hl : n.val.type = .list
  · rw [bind_of_ok (show attestList c = (.ok (), c) by simp [attestList, attest, ht, hl]),
      bind_of_ok (show attestList (Cursor.root n) = (.ok (), Cursor.root n) by simp [attestList, attest, ht', hl])]
    exact autoListEnter_at hp h
  · rw [bind_of_throw (show attestList c = (.throw "Expected a List", c) by simp [attestList, attest, ht, hl]),
      bind_of_throw (show attestList (Cursor.root n) = (.throw "Expected a List", Cursor.root n) by
        simp [attestList, attest, ht', hl])]

theorem rawBase_at (fuel : Nat) (ai : Str) {c : Cursor} {n : Node} (h : c.cur = some n) :
    rawBase fuel ai c = (rawNode fuel ai n, c) := by
  cases fuel with
  | zero => rfl
  | succ fuel => exact autoEnter_at (scoped_rawBody (scopedOn_rawBase fuel) ai) h

theorem avroBase_at (fuel : Nat) (ai : Str) {c : Cursor} {n : Node} (h : c.cur = some n) :
    avroBase fuel ai c = (avroNode fuel ai n, c) := by
  cases fuel with
  | zero => rfl
  | succ fuel => exact autoEnter_at (scoped_avroBody (scopedOn_avroBase fuel) ai) h

/-- Apply a numbered reading to all elements in order, joining the texts; the first failure counts. -/
def joinRes (g : Nat → Node → Res Str) : Nat → List Node → Res Str
  | _, [] => .ok []
  | i, n :: ns => do
    let a ← g i n
    let as ← joinRes g (i + 1) ns
    pure (a ++ as)

theorem forNextGo_join {body : Nat → Prog Str} {g : Nat → Node → Res Str}
    (hb : ∀ i c n, c.cur = some n → body i c = (g i n, c)) (fuel i : Nat) (c : Cursor) (hf : c.rest.length < fuel) :
    (forNextGo body fuel i c).1 = joinRes g i c.rest := by
  induction fuel generalizing c i with
  | zero => omega
  | succ fuel ih =>
    obtain ⟨p, cu, r, u⟩ := c
    cases r with
    | nil => rfl
    | cons n ns =>
      unfold forNextGo
      rw [bind_of_ok (next_cons p cu n ns u)]
      simp only [if_true]
      have h1 := hb i ⟨cu.toList ++ p, some n, ns, u⟩ n rfl
      have ih := ih (i + 1) ⟨cu.toList ++ p, some n, ns, u⟩ (by simp at hf ⊢; omega)
      simp only [joinRes]
      cases hg : g i n with
      | throw m => rw [hg] at h1; rw [bind_of_throw h1]; rfl
      | ub m => rw [hg] at h1; rw [bind_of_ub h1]; rfl
      | ok a =>
        rw [hg] at h1
        rw [bind_of_ok h1, bind_def]
        rcases hw : forNextGo body fuel (i + 1) ⟨cu.toList ++ p, some n, ns, u⟩ with ⟨r, c'⟩
        rw [hw] at ih
        simp only at ih
        simp only [← ih]
        cases r <;> rfl

theorem forNext_join {body : Nat → Prog Str} {g : Nat → Node → Res Str}
    (hb : ∀ i c n, c.cur = some n → body i c = (g i n, c)) (c : Cursor) :
    (forNext body c).1 = joinRes g 1 c.rest := forNextGo_join hb _ 1 c (Nat.lt_succ_self _)

/-- A list whose elements are written in turn. -/
theorem listEnter_join {body : Nat → Nat → Prog Str} {g : Nat → Nat → Node → Res Str} (hs : ∀ n i, ScopedOn (body n i))
    (hb : ∀ n i c k, c.cur = some k → body n i c = (g n i k, c)) (p r : List Node) (ks : List Node)
    (u : List (List Node × Atom × List Node)) :
    autoListEnter (fun n => forNext (body n)) false ⟨p, some (.mk .list ks), r, u⟩
      = (joinRes (g ks.length) 1 ks, ⟨p, some (.mk .list ks), r, u⟩) := by
  rw [autoListEnter_eq (fun n => scoped_forNext (hs n)) rfl]
  simp only [Bool.false_eq_true, if_false, Cursor.getList]
  rw [forNext_join (hb _)]
  rfl

theorem joinRes_ok {α : Type} {g : Nat → Node → Res Str} {f : Nat → α → Str} {tr : α → Node} {as : List α}
    (h : ∀ i a, a ∈ as → g i (tr a) = .ok (f i a)) (i : Nat) :
    joinRes g i (as.map tr) = .ok ((as.zipIdx i).flatMap fun x => f x.2 x.1) := by
  induction as generalizing i with
  | nil => rfl
  | cons a as ih =>
    simp only [List.map_cons, joinRes, h i a (by simp), ih (fun i b hb => h i b (by simp [hb])) (i + 1)]
    rfl

end Corda
