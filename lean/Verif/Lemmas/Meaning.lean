import Verif.Lemmas.Factory
import Verif.Spec.Meaning

/-
What a reader object does at any position: the text of `Spec.textAs`.
-/

namespace Corda
open Prog Spec

/-! ### Programs with a known outcome -/

/-- From a position where `P` holds, the outcome seen through `f` is `r`, and if there is one, `Q` holds afterwards. -/
def Is {α β : Type} (P : Cursor → Prop) (p : Prog α) (f : α → β) (r : Res β) (Q : Cursor → Prop) : Prop :=
  ∀ c, P c → (f <$> (p c).1) = r ∧ ∀ a, (p c).1 = .ok a → Q (p c).2

theorem is_bind {α β γ δ : Type} {P Q R : Cursor → Prop} {p : Prog α} {f : α → β} {r : Res β} {k : α → Prog γ} {g : γ → δ}
    {h : β → Res δ} (hp : Is P p f r Q) (hk : ∀ a, r = .ok (f a) → Is Q (k a) g (h (f a)) R) :
    Is P (p >>= k) g (r >>= h) R := by
  intro c hc
  obtain ⟨h1, h2⟩ := hp c hc
  rw [Prog.bind_def]
  rcases hpc : p c with ⟨x, c'⟩
  rw [hpc] at h1 h2
  subst h1
  cases x with
  | ok a => exact hk a rfl c' (h2 a rfl)
  | throw m => exact ⟨rfl, fun a h => by cases h⟩
  | ub m => exact ⟨rfl, fun a h => by cases h⟩

theorem is_pure {α β : Type} {P : Cursor → Prop} (f : α → β) (a : α) : Is P (pure a) f (.ok (f a)) P :=
  fun _ hc => ⟨rfl, fun _ _ => hc⟩
theorem is_throw {α β : Type} {P Q : Cursor → Prop} (f : α → β) (m : String) : Is P (Prog.throw m) f (.throw m) Q :=
  fun _ _ => ⟨rfl, fun _ h => by cases h⟩
theorem is_ub {α β : Type} {P Q : Cursor → Prop} (f : α → β) (m : String) : Is P (Prog.ub m) f (.ub m) Q :=
  fun _ _ => ⟨rfl, fun _ h => by cases h⟩
theorem is_lift {α : Type} {P : Cursor → Prop} (r : Res α) : Is P (Prog.lift r) id r P :=
  fun _ hc => ⟨by cases r <;> rfl, fun _ _ => hc⟩

theorem Is.post {α β : Type} {P Q R : Cursor → Prop} {p : Prog α} {f : α → β} {r : Res β} (h : Is P p f r Q)
    (hq : ∀ c, Q c → R c) : Is P p f r R := fun c hc => ⟨(h c hc).1, fun a ha => hq _ ((h c hc).2 a ha)⟩

theorem Is.eq {α β : Type} {P Q : Cursor → Prop} {p : Prog α} {f : α → β} {r r' : Res β} (h : Is P p f r Q) (e : r = r') :
    Is P p f r' Q := e ▸ h

/-- Look at the outcome through another pair of glasses. -/
theorem Is.map {α β γ : Type} {P Q : Cursor → Prop} {p : Prog α} {f : α → β} {r : Res β} (h : Is P p f r Q) (g : β → γ) :
    Is P p (fun a => g (f a)) (g <$> r) Q := by
  intro c hc
  obtain ⟨h1, h2⟩ := h c hc
  refine ⟨?_, h2⟩
  rw [← h1]
  cases (p c).1 <;> rfl

theorem is_autoNext {α β : Type} {ps : List Node} {i : Nat} {p : Prog α} {f : α → β} {r : Res β}
    (h : Is (Pos ps i) p f r (Pos ps i)) : Is (Pos ps i) (autoNext p) f r (Pos ps (i + 1)) :=
  fun c hc => ⟨(h c hc).1, fun a ha => ((h c hc).2 a ha).next⟩

theorem is_next {ps : List Node} {i : Nat} : Is (Pos ps i) Prog.next (fun _ => ()) (.ok ()) (Pos ps (i + 1)) :=
  fun _ hc => ⟨rfl, fun _ _ => hc.next⟩

theorem Pos.type {ps : List Node} {i : Nat} {c : Cursor} (h : Pos ps i c) :
    c.type = match valueOf (nth ps i) with | some a => a.type | none => .invalid := by
  unfold Cursor.type valueOf
  rw [h.1]
  cases nth ps i <;> rfl

theorem Pos.val {ps : List Node} {i : Nat} {c : Cursor} (h : Pos ps i c) : c.val = valueOf (nth ps i) := by
  unfold Cursor.val valueOf; rw [h.1]

/-- A check of the type. -/
theorem is_attest {β : Type} {ps : List Node} {i : Nat} (t : PnType) (m : String) (ht : t ≠ .invalid) (b : β) (r : Res β)
    (h1 : ∀ a, valueOf (nth ps i) = some a → a.type = t → r = .ok b)
    (h2 : (∀ a, valueOf (nth ps i) = some a → a.type ≠ t) → r = .throw m) :
    Is (Pos ps i) (attest t m) (fun _ => b) r (Pos ps i) := by
  intro c hc
  have hty := hc.type
  by_cases he : c.type = t
  · rw [attest_ok he]
    refine ⟨?_, fun _ _ => hc⟩
    cases hv : valueOf (nth ps i) with
    | none => rw [hv] at hty; exact absurd (he.symm.trans hty) ht
    | some a => rw [hv] at hty; exact (h1 a hv (hty.symm.trans he)).symm
  · rw [attest_no he]
    refine ⟨(h2 fun a ha h => he ?_).symm, fun _ h => by cases h⟩
    rw [ha] at hty
    exact hty.trans h

theorem is_attestDescribed {ps : List Node} {i : Nat} :
    Is (Pos ps i) attestDescribed (fun _ => kidsOf (nth ps i)) (describedParts (nth ps i)) (Pos ps i) := by
  refine is_attest _ _ (by simp) _ _ (fun a ha hm => ?_) (fun h => ?_)
  · unfold describedParts; rw [ha]; cases a <;> simp_all [Atom.type]
  · unfold describedParts
    cases hv : valueOf (nth ps i) with
    | none => rfl
    | some a => have := h a hv; cases a <;> simp_all [Atom.type]

theorem is_attestList {ps : List Node} {i : Nat} :
    Is (Pos ps i) attestList (fun _ => kidsOf (nth ps i)) (listParts (nth ps i)) (Pos ps i) := by
  refine is_attest _ _ (by simp) _ _ (fun a ha hm => ?_) (fun h => ?_)
  · unfold listParts; rw [ha]; cases a <;> simp_all [Atom.type]
  · unfold listParts
    cases hv : valueOf (nth ps i) with
    | none => rfl
    | some a => have := h a hv; cases a <;> simp_all [Atom.type]

theorem described_some {n : Option Node} {ks : List Node} (h : describedParts n = .ok ks) :
    n = some (.mk .described ks) := by
  unfold describedParts at h
  cases n with
  | none => simp [valueOf] at h
  | some m =>
    cases m with
    | mk a ls => cases a <;> simp_all [valueOf, kidsOf, Node.val, Node.kids]

theorem list_some {n : Option Node} {ks : List Node} (h : listParts n = .ok ks) : n = some (.mk .list ks) := by
  unfold listParts at h
  cases n with
  | none => simp [valueOf] at h
  | some m =>
    cases m with
    | mk a ls => cases a <;> simp_all [valueOf, kidsOf, Node.val, Node.kids]

theorem is_readString {ps : List Node} {i : Nat} :
    Is (Pos ps i) (Prog.readString false) id (textOf (nth ps i)) (Pos ps (i + 1)) := by
  apply is_autoNext
  intro c hc
  simp only [hc.val]
  unfold textOf
  cases hv : valueOf (nth ps i) with
  | none => exact ⟨rfl, fun _ h => by cases h⟩
  | some a => cases a <;> exact ⟨rfl, fun _ _ => hc⟩

theorem is_getSymbol {ps : List Node} {i : Nat} : Is (Pos ps i) getSymbol id (symbolOf (nth ps i)) (Pos ps i) := by
  intro c hc
  have ht := hc.type
  have hvv := hc.val
  unfold getSymbol symbolOf
  cases hv : valueOf (nth ps i) with
  | none =>
    rw [hv] at ht
    rw [bind_of_throw (show isSymbol c = _ from attest_no (by rw [ht]; simp))]
    exact ⟨rfl, fun _ h => by cases h⟩
  | some a =>
    rw [hv] at ht hvv
    by_cases hs : ∃ s, a = .symbol s
    · obtain ⟨s, rfl⟩ := hs
      rw [bind_of_ok (show isSymbol c = _ from attest_ok (by rw [ht]; rfl))]
      exact ⟨by simp [look, getSymbolRaw, hvv], fun _ _ => hc⟩
    · rw [bind_of_throw (show isSymbol c = _ from attest_no (by
        rw [ht]
        cases a <;> simp_all [Atom.type]))]
      refine ⟨?_, fun _ h => by cases h⟩
      cases a <;> simp_all

theorem pos_enter {c : Cursor} {n : Node} (h : c.cur = some n) : Pos n.kids 0 c.enter.next.2 := by
  obtain ⟨u, hu⟩ := enter_next_start c n h
  rw [hu]
  exact pos_start _

theorem is_enter {α β : Type} {ps : List Node} {i : Nat} {n : Node} (hn : nth ps i = some n) {p : Prog α} {f : α → β}
    {r : Res β} {Q : Cursor → Prop} (hp : Scoped p) (h : Is (Pos n.kids 0) p f r Q) :
    Is (Pos ps i) (autoEnter p) f r (Pos ps i) := by
  intro c hc
  have hcur : c.cur = some n := hc.1.trans hn
  rw [autoEnter_eq hp (by rw [hcur]; rfl)]
  exact ⟨(h _ (pos_enter hcur)).1, fun _ _ => hc⟩

theorem getList_eq {c : Cursor} {ps : List Node} {i : Nat} (hc : Pos ps i c) : c.getList = (listElements (nth ps i)).length := by
  unfold Cursor.getList listElements
  rw [hc.1]
  cases nth ps i with
  | none => rfl
  | some m => cases m with | mk a ks => cases a <;> rfl

theorem getMap_eq {c : Cursor} {ps : List Node} {i : Nat} (hc : Pos ps i c) : c.getMap = (mapParts (nth ps i)).length := by
  unfold Cursor.getMap mapParts
  rw [hc.1]
  cases nth ps i with
  | none => rfl
  | some m => cases m with | mk a ks => cases a <;> rfl

theorem is_listEnter {α β : Type} {ps : List Node} {i : Nat} {n : Node} (hn : nth ps i = some n) {p : Nat → Prog α}
    {f : α → β} {r : Res β} {Q : Cursor → Prop} (hp : ∀ k, Scoped (p k))
    (h : Is (Pos n.kids 0) (p (listElements (some n)).length) f r Q) :
    Is (Pos ps i) (autoListEnter p true) f r (Pos ps i) := by
  intro c hc
  have hcur : c.cur = some n := hc.1.trans hn
  rw [autoListEnter_eq hp (by rw [hcur]; rfl), getList_eq hc, hn]
  exact ⟨(h _ (pos_enter hcur)).1, fun _ _ => hc⟩

theorem is_mapEnter {α β : Type} {ps : List Node} {i : Nat} {n : Node} (hn : nth ps i = some n) {p : Nat → Prog α}
    {f : α → β} {r : Res β} {Q : Cursor → Prop} (hp : ∀ k, Scoped (p k))
    (h : Is (Pos n.kids 0) (p (mapParts (some n)).length) f r Q) :
    Is (Pos ps i) (autoMapEnter p true) f r (Pos ps i) := by
  intro c hc
  have hcur : c.cur = some n := hc.1.trans hn
  rw [autoMapEnter_eq hp (by rw [hcur]; rfl), getMap_eq hc, hn]
  exact ⟨(h _ (pos_enter hcur)).1, fun _ _ => hc⟩

/-- Again and again, each time going `k` parts on. -/
theorem is_times {α β : Type} {p : Prog α} {f : α → β} {ps : List Node} {k : Nat} {m : Nat → Res β}
    (h : ∀ i, Is (Pos ps i) p f (m i) (Pos ps (i + k))) (n i : Nat) :
    Is (Pos ps i) (times p n) (List.map f) (all ((List.range n).map fun j => m (i + k * j))) (fun _ => True) := by
  induction n generalizing i with
  | zero => exact (is_pure (List.map f) []).post fun _ _ => trivial
  | succ n ih =>
    rw [times, List.range_succ_eq_map, List.map_cons, List.map_map, all]
    refine is_bind (f := f) ((h i).eq (by simp)) fun a _ => ?_
    refine is_bind (f := List.map f) ((ih (i + k)).eq ?_) fun as _ => ?_
    · congr 1
      apply List.map_congr_left
      intro j _
      simp only [Function.comp]
      congr 1
      rw [Nat.mul_succ]; omega
    · exact (is_pure (List.map f) (a :: as)).post fun _ _ => trivial

/-! ### Stay in their level -/

theorem scoped_propertyText (p : PrimReader) : Scoped (propertyText p) := by
  cases p
  case float => exact scoped_throw _
  case string => exact scoped_bind (scoped_readString _) fun _ => scoped_pure _
  all_goals exact scoped_bind (scoped_autoNext (scoped_look _)) fun _ => scoped_pure _

theorem scoped_times {α : Type} {p : Prog α} (hp : Scoped p) (n : Nat) : Scoped (times p n) := by
  induction n with
  | zero => exact scoped_pure _
  | succ n ih => exact scoped_bind hp fun _ => scoped_bind ih fun _ => scoped_pure _

theorem scoped_useReader {F : Factory} {rec : Nat → Option Str → Prog Val} (hr : ∀ i n, Scoped (rec i n)) (i : Nat) :
    Scoped (useReader F rec i) := by
  unfold useReader
  split
  · exact scoped_ub _
  · exact hr _ _

theorem scoped_dumpFields {F : Factory} {rec : Nat → Option Str → Prog Val} (hr : ∀ i n, Scoped (rec i n))
    (fs : List (Field × Nat)) : Scoped (dumpFields F rec fs) := by
  induction fs with
  | nil => exact scoped_pure _
  | cons x fs ih =>
    obtain ⟨f, i⟩ := x
    simp only [dumpFields]
    split
    · exact scoped_throw _
    · exact scoped_bind (hr _ _) fun _ => scoped_bind ih fun _ => scoped_pure _

theorem guard_attestDescribed : Guard attestDescribed := guard_attest _ _ (by simp)

theorem scoped_objectBody {F : Factory} {rec : Nat → Option Str → Prog Val} (hr : ∀ i n, Scoped (rec i n))
    (subs : List Nat) (t : TypeNotation) : Scoped (match t with
    | .restr _ => Prog.throw "std::bad_cast"
    | .comp c =>
      if c.fields.length = subs.length then do
        let _ ← Prog.next
        attestList
        autoEnter (dumpFields F rec (c.fields.zip subs))
      else Prog.ub "assert" : Prog (List Val)) := by
  cases t with
  | restr r => exact scoped_throw _
  | comp c =>
    dsimp only
    split
    · exact scoped_bind scoped_next fun _ => scoped_guard_bind (scoped_attest _ _) (guard_attest _ _ (by simp))
        fun _ => scopedOn_autoEnter (scoped_dumpFields hr _)
    · exact scoped_ub _

theorem scoped_compositeInner {F : Factory} {s : Schema} {rec : Nat → Option Str → Prog Val} (hr : ∀ i n, Scoped (rec i n))
    (subs : List Nat) : Scoped (do
    let d ← getSymbol
    let t ← Prog.lift (s.fromDescriptor d)
    match t with
    | .restr _ => Prog.throw "std::bad_cast"
    | .comp c =>
      if c.fields.length = subs.length then do
        let _ ← Prog.next
        attestList
        autoEnter (dumpFields F rec (c.fields.zip subs))
      else Prog.ub "assert" : Prog (List Val)) :=
  scoped_bind scoped_getSymbol fun _ => scoped_bind (scoped_lift _) fun t => scoped_objectBody hr subs t

theorem scoped_compositeDump {F : Factory} {s : Schema} {rec : Nat → Option Str → Prog Val} (hr : ∀ i n, Scoped (rec i n))
    (subs : List Nat) : Scoped (compositeDump F s rec subs) :=
  scoped_guard_bind (scoped_attest _ _) guard_attestDescribed fun _ => scopedOn_autoEnter (scoped_compositeInner hr subs)

theorem scoped_listItems {F : Factory} {rec : Nat → Option Str → Prog Val} (hr : ∀ i n, Scoped (rec i n))
    (subs : List Nat) (n : Nat) : Scoped (match subs with
      | [] => Prog.ub "serialisers()[0]"
      | i :: _ => times (useReader F rec i) n : Prog (List Val)) := by
  cases subs with
  | nil => exact scoped_ub _
  | cons i is => exact scoped_times (scoped_useReader hr i) n

theorem scoped_listInner {F : Factory} {s : Schema} {rec : Nat → Option Str → Prog Val} (hr : ∀ i n, Scoped (rec i n))
    (subs : List Nat) : Scoped (do
    let d ← Prog.readString
    let _ ← Prog.lift (s.fromDescriptor d)
    autoListEnter (fun n =>
      match subs with
      | [] => Prog.ub "serialisers()[0]"
      | i :: _ => times (useReader F rec i) n) true : Prog (List Val)) :=
  scoped_guard_bind (scoped_readString _) (guard_readString _) fun _ =>
    scopedOn_bind (scoped_lift _).on fun _ => scopedOn_autoListEnter (scoped_listItems hr subs)

theorem scoped_listDump {F : Factory} {s : Schema} {rec : Nat → Option Str → Prog Val} (hr : ∀ i n, Scoped (rec i n))
    (subs : List Nat) : Scoped (listDump F s rec subs) :=
  scoped_guard_bind (scoped_attest _ _) guard_attestDescribed fun _ => scopedOn_autoEnter (scoped_listInner hr subs)

theorem scoped_mapEntry {lf : Bool} {k v : Prog Val} (hk : Scoped k) (hv : Scoped v) : Scoped (mapEntry lf k v) := by
  unfold mapEntry
  split
  · exact scoped_bind hk fun _ => scoped_bind hv fun _ => scoped_pure _
  · exact scoped_bind hv fun _ => scoped_bind hk fun _ => scoped_pure _

theorem scoped_mapItems {lf : Bool} {F : Factory} {rec : Nat → Option Str → Prog Val} (hr : ∀ i n, Scoped (rec i n))
    (subs : List Nat) (n : Nat) : Scoped (match subs with
      | [k, v] => times (mapEntry lf (useReader F rec k) (useReader F rec v)) ((n + 1) / 2)
      | _ => Prog.ub "assert" : Prog (List Val)) := by
  split
  · exact scoped_times (scoped_mapEntry (scoped_useReader hr _) (scoped_useReader hr _)) _
  · exact scoped_ub _

theorem scoped_mapInner {lf : Bool} {F : Factory} {s : Schema} {rec : Nat → Option Str → Prog Val}
    (hr : ∀ i n, Scoped (rec i n)) (subs : List Nat) : Scoped (do
    let d ← Prog.readString
    let _ ← Prog.lift (s.fromDescriptor d)
    autoMapEnter (fun n =>
      match subs with
      | [k, v] => times (mapEntry lf (useReader F rec k) (useReader F rec v)) ((n + 1) / 2)
      | _ => Prog.ub "assert") true : Prog (List Val)) :=
  scoped_guard_bind (scoped_readString _) (guard_readString _) fun _ =>
    scopedOn_bind (scoped_lift _).on fun _ => scopedOn_autoMapEnter (scoped_mapItems hr subs)

theorem scoped_mapDump {lf : Bool} {F : Factory} {s : Schema} {rec : Nat → Option Str → Prog Val}
    (hr : ∀ i n, Scoped (rec i n)) (subs : List Nat) : Scoped (mapDump lf F s rec subs) :=
  scoped_guard_bind (scoped_attest _ _) guard_attestDescribed fun _ => scopedOn_autoEnter (scoped_mapInner hr subs)

theorem scoped_enumInner : Scoped (do
    let t ← look Cursor.type
    let id ← look getUlong
    if t = .ulong ∧ stripCorda id = REFERENCED_OBJECT then Prog.throw "Currently don't support referenced objects"
    else do
      let _ ← Prog.readString
      autoListEnter (fun _ => Prog.readString) true : Prog Str) :=
  scoped_bind (scoped_look _) fun _ => scoped_bind (scoped_look _) fun _ => scoped_ite (scoped_throw _)
    (scoped_guard_bind (scoped_readString _) (guard_readString _) fun _ =>
      scopedOn_autoListEnter fun _ => scoped_readString _)

theorem scoped_enumValue : Scoped enumValue :=
  scoped_guard_bind (scoped_attest _ _) guard_attestDescribed fun _ => scopedOn_autoEnter scoped_enumInner

theorem scoped_publicKeyInner (n : Str) : Scoped (do
        let _ ← Prog.next
        attestBinary
        let _ ← readBinary
        pure (.pair n publicKeyText) : Prog Val) :=
  scoped_bind scoped_next fun _ => scoped_bind (scoped_attest _ _) fun _ =>
    scoped_bind (scoped_autoNext (scoped_look _)) fun _ => scoped_pure _

theorem scoped_publicKeyDump (n : Option Str) : Scoped (publicKeyDump n) := by
  cases n with
  | none => exact scoped_throw _
  | some n =>
    exact scoped_autoNext (scoped_guard_bind (scoped_attest _ _) guard_attestDescribed fun _ =>
      scopedOn_autoEnter (scoped_publicKeyInner n))

theorem scoped_dumpWith {cu : Customs} (hcu : ∀ k s n, Scoped (cu k s n)) {lf : Bool} {F : Factory} {s : Schema}
    {rec : Nat → Option Str → Prog Val} (hr : ∀ i n, Scoped (rec i n)) (o : Ser) (name : Option Str) :
    Scoped (dumpWith cu lf F s rec o name) := by
  unfold dumpWith
  split
  · exact scoped_bind (scoped_propertyText _) fun _ => scoped_pure _
  · exact scoped_autoNext (scoped_bind (scoped_attest _ _) fun _ => scoped_bind scoped_enumValue fun _ => scoped_pure _)
  · exact scoped_autoNext (scoped_bind (scoped_look _) fun _ => scoped_ite (scoped_pure _)
      (scoped_bind (scoped_compositeDump hr _) fun _ => scoped_pure _))
  · exact scoped_autoNext (scoped_bind (scoped_listDump hr _) fun _ => scoped_pure _)
  · exact scoped_autoNext (scoped_bind (scoped_listDump hr _) fun _ => scoped_pure _)
  · exact scoped_autoNext (scoped_bind (scoped_mapDump hr _) fun _ => scoped_pure _)
  · exact hcu _ _ _

theorem scoped_dump {cu : Customs} (hcu : ∀ k s n, Scoped (cu k s n)) {lf : Bool} {F : Factory} {s : Schema} (fuel : Nat) :
    ∀ i n, Scoped (dump cu lf F s fuel i n) := by
  induction fuel with
  | zero => intro i n; exact scoped_ub _
  | succ fuel ih =>
    intro i n
    simp only [dump]
    split
    · exact scoped_ub _
    · exact scoped_dumpWith hcu ih _ _

/-! ### What the readers show -/

theorem is_look {ps : List Node} {i : Nat} {α : Type} (g : Cursor → α) (h : Option Node → α)
    (hg : ∀ c, Pos ps i c → g c = h (nth ps i)) : Is (Pos ps i) (look g) id (.ok (h (nth ps i))) (Pos ps i) :=
  fun c hc => ⟨by simp [look, hg c hc], fun _ _ => hc⟩

theorem is_read {α : Type} {ps : List Node} {i : Nat} (g : Cursor → α) (h : Option Node → α) (txt : α → Str)
    (hg : ∀ c, Pos ps i c → g c = h (nth ps i)) :
    Is (Pos ps i) (do let n ← autoNext (look g); pure (txt n) : Prog Str) id (.ok (txt (h (nth ps i)))) (Pos ps (i + 1)) :=
  is_bind (f := id) (h := fun a => .ok (txt a)) (is_autoNext (is_look g h hg)) fun a _ => is_pure id (txt a)

theorem is_property (p : PrimReader) {ps : List Node} {i : Nat} :
    Is (Pos ps i) (propertyText p) id (primText p (nth ps i)) (Pos ps (i + 1)) := by
  cases p with
  | float => exact is_throw _ _
  | int =>
    refine (is_read getInt (fun n => match valueOf n with | some (.int k) => k | _ => 0) intStr fun c hc => ?_).eq ?_
    · unfold getInt; rw [hc.val]
      cases valueOf (nth ps i) with
      | none => rfl
      | some a => cases a <;> rfl
    · rw [intStr_eq]
      unfold primText
      cases valueOf (nth ps i) with
      | none => rfl
      | some a => cases a <;> rfl
  | long =>
    refine (is_read getLong (fun n => match valueOf n with | some (.long k) => k | _ => 0) intStr fun c hc => ?_).eq ?_
    · unfold getLong; rw [hc.val]
      cases valueOf (nth ps i) with
      | none => rfl
      | some a => cases a <;> rfl
    · rw [intStr_eq]
      unfold primText
      cases valueOf (nth ps i) with
      | none => rfl
      | some a => cases a <;> rfl
  | double =>
    refine (is_read getDouble (fun n => match valueOf n with | some (.double k) => k | _ => 0) doubleStr fun c hc => ?_).eq ?_
    · unfold getDouble; rw [hc.val]
      cases valueOf (nth ps i) with
      | none => rfl
      | some a => cases a <;> rfl
    · unfold primText
      cases valueOf (nth ps i) with
      | none => rfl
      | some a => cases a <;> rfl
  | boolean =>
    refine (is_read getBool (fun n => match valueOf n with | some (.bool k) => k | _ => false) boolStr fun c hc => ?_).eq ?_
    · unfold getBool; rw [hc.val]
      cases valueOf (nth ps i) with
      | none => rfl
      | some a => cases a <;> rfl
    · have : ∀ a, boolStr a = boolText a := by intro a; cases a <;> rfl
      rw [this]
      unfold primText
      cases valueOf (nth ps i) with
      | none => rfl
      | some a => cases a <;> rfl
  | binary =>
    refine (is_read getBinary (fun n => match valueOf n with | some (.binary k) => k | _ => [])
      (fun s => binaryOpen ++ natStr s.length ++ binaryClose) fun c hc => ?_).eq ?_
    · unfold getBinary; rw [hc.val]
      cases valueOf (nth ps i) with
      | none => rfl
      | some a => cases a <;> rfl
    · simp only [natStr_eq]
      unfold primText
      cases valueOf (nth ps i) with
      | none => rfl
      | some a => cases a <;> rfl
  | string =>
    refine (is_bind (f := id) (h := fun s => .ok (quoted s)) (g := id) (R := Pos ps (i + 1)) is_readString
      fun a ha => ?_).eq ?_
    · exact is_pure id _
    · unfold primText textOf
      cases hv : valueOf (nth ps i) with
      | none => rfl
      | some a => cases a <;> rfl

theorem text_some {n : Option Node} {s : Str} (h : textOf n = .ok s) : ∃ m, n = some m := by
  cases n with
  | none => simp [textOf, valueOf] at h
  | some m => exact ⟨m, rfl⟩

theorem symbol_some {n : Option Node} {s : Str} (h : symbolOf n = .ok s) : ∃ m, n = some m := by
  cases n with
  | none => simp [symbolOf, valueOf] at h
  | some m => exact ⟨m, rfl⟩

theorem nth_some_any {ps : List Node} {i j : Nat} {m : Node} (h : nth ps i = some m) : ∃ m', nth ps j = some m' :=
  nth_isSome j (nth_ne_nil h)

/-- The text of an enumeration constant. -/
theorem is_enumValue {ps : List Node} {i : Nat} : Is (Pos ps i) enumValue id (enumText (nth ps i)) (Pos ps i) := by
  unfold enumValue enumText
  refine is_bind is_attestDescribed fun _ hd => ?_
  have hn := described_some hd
  generalize kidsOf (nth ps i) = ks at hn
  refine is_enter (Q := Pos ks 1) hn scoped_enumInner ?_
  simp only [Node.kids]
  refine (is_bind (f := id) (r := .ok (match valueOf (nth ks 0) with | some a => a.type | none => .invalid))
    (h := fun t => if t = .ulong ∧ stripCorda (match valueOf (nth ks 0) with | some (.ulong k) => k | _ => 0) = REFERENCED_OBJECT
      then .throw "Currently don't support referenced objects"
      else textOf (nth ks 0) >>= fun _ => textOf (nth (kidsOf (nth ks 1)) 0))
    (is_look (ps := ks) (i := 0) Cursor.type (fun n => match valueOf n with | some a => a.type | none => .invalid)
      fun c hc => hc.type) fun t _ => ?_).eq ?_
  · refine is_bind (f := id) (r := .ok (match valueOf (nth ks 0) with | some (.ulong k) => k | _ => 0))
      (h := fun id => if t = .ulong ∧ stripCorda id = REFERENCED_OBJECT
      then .throw "Currently don't support referenced objects"
      else textOf (nth ks 0) >>= fun _ => textOf (nth (kidsOf (nth ks 1)) 0))
      (is_look (ps := ks) (i := 0) getUlong (fun n => match valueOf n with | some (.ulong k) => k | _ => 0)
      fun c hc => by
        unfold getUlong; rw [hc.val]
        cases valueOf (nth ks 0) with
        | none => rfl
        | some a => cases a <;> rfl) fun id _ => ?_
    simp only [_root_.id]
    split
    · exact is_throw _ _
    · refine is_bind (f := _root_.id) is_readString fun s hs => ?_
      obtain ⟨m, hm⟩ := text_some hs
      obtain ⟨m', hm'⟩ := nth_some_any (j := 1) hm
      refine is_listEnter (Q := fun _ => True) hm' (fun _ => scoped_readString _) ?_
      rw [hm']
      exact is_readString.post fun _ _ => trivial
  · simp only [Res.bind_eq, Res.bind]
    cases hv : valueOf (nth ks 0) with
    | none => simp [Atom.type]
    | some a =>
      cases a <;> simp [Atom.type]
      rename_i k
      have : stripCorda k = k % 4294967296 := by
        unfold stripCorda
        exact Nat.and_two_pow_sub_one_eq_mod k 32
      rw [this]
      split
      · rfl
      · simp [textOf, hv]

/-- The factory has the readers for these types. -/
structure Stocked (F : Factory) (s : Schema) (ts : List TypeNotation) : Prop where
  ready : Ready F ts
  only : ∀ k i, ReaderFor F k i → k = keyType ∨ k ∈ readable ∨ ∃ u ∈ ts, u.name = k
  key : ∀ i, ReaderFor F keyType i → ∃ o n, F.objs[i]? = some o ∧ o.kind = .custom n
  names : ∀ u ∈ ts, ∀ v ∈ ts, u.name = v.name → u = v
  apart : ∀ u ∈ ts, u.name ≠ keyType ∧ u.name ∉ readable
  found : ∀ d, s.fromDescriptor d = typeWith ts d

theorem Stocked.lock {F : Factory} {s : Schema} {ts : List TypeNotation} (h : Stocked F s ts) {k : Str} {i : Nat}
    (hi : ReaderFor F k i) : ∃ o, F.objs[i]? = some o ∧ F.lock i = some o := by
  have : ∃ o, F.objs[i]? = some o := by
    rcases h.only k i hi with rfl | hk | ⟨u, hu, rfl⟩
    · obtain ⟨o, n, h1, -⟩ := h.key i hi
      exact ⟨o, h1⟩
    · rcases makeProperty_cases k with ⟨-, p, hp, -⟩ | ⟨hn, -⟩
      · obtain ⟨o, ho, -⟩ := h.ready.prims k p i hp hi
        exact ⟨o, ho⟩
      · exact absurd hk hn
    · obtain ⟨j, o, hj, ho, -⟩ := h.ready.types u hu
      have : i = j := by have := hi.symm.trans hj; simpa using this
      exact ⟨o, this ▸ ho⟩
  obtain ⟨o, ho⟩ := this
  exact ⟨o, ho, hi.lock ho⟩

/-- Every reader that is entered is alive, and descriptors are looked up among these types. -/
structure Locked (F : Factory) (s : Schema) (ts : List TypeNotation) : Prop where
  lock : ∀ {k : Str} {i : Nat}, ReaderFor F k i → ∃ o, F.objs[i]? = some o ∧ F.lock i = some o
  found : ∀ d, s.fromDescriptor d = typeWith ts d

theorem Stocked.locked {F : Factory} {s : Schema} {ts : List TypeNotation} (h : Stocked F s ts) : Locked F s ts :=
  ⟨fun hi => h.lock hi, h.found⟩

/-- The readers inside show what they should. -/
def Inner (F : Factory) (rec : Nat → Option Str → Prog Val) (texts : Texts) : Prop :=
  ∀ k j name ps i, ReaderFor F k j →
    Is (Pos ps i) (rec j name) Val.dump ((labelled name) <$> texts name.isSome k (nth ps i)) (Pos ps (i + 1))

theorem labelled_none_map (r : Res Str) : (labelled none <$> r) = r := by cases r <;> rfl

theorem is_useReader {F : Factory} {s : Schema} {ts : List TypeNotation} (h : Locked F s ts)
    {rec : Nat → Option Str → Prog Val} {texts : Texts} (hin : Inner F rec texts) {k : Str} {j : Nat} (hj : ReaderFor F k j)
    {ps : List Node} {i : Nat} :
    Is (Pos ps i) (useReader F rec j) Val.dump (texts false k (nth ps i)) (Pos ps (i + 1)) := by
  obtain ⟨o, -, ho⟩ := h.lock hj
  unfold useReader
  rw [ho]
  exact (hin k j none ps i hj).eq (labelled_none_map _)

theorem nth_lt {ps : List Node} {i : Nat} (h : i < ps.length) : nth ps i = ps[i]? := by
  unfold nth
  rw [Nat.min_eq_left (by omega)]

theorem range_map_get {α β : Type} (l : List α) (g : Option α → β) :
    (List.range l.length).map (fun i => g l[i]?) = l.map fun a => g (some a) := by
  apply List.ext_getElem
  · simp
  · intro i h1 h2
    simp only [List.length_map] at h2
    simp [List.getElem?_eq_getElem h2]

theorem listElements_kids {n : Node} (h : listElements (some n) ≠ []) : listElements (some n) = n.kids := by
  cases n with
  | mk a ks => cases a <;> simp_all [listElements, valueOf, kidsOf, Node.val, Node.kids]

theorem mapParts_kids {n : Node} (h : mapParts (some n) ≠ []) : mapParts (some n) = n.kids := by
  cases n with
  | mk a ks => cases a <;> simp_all [mapParts, valueOf, kidsOf, Node.val, Node.kids]

theorem is_listDump {F : Factory} {s : Schema} {ts : List TypeNotation} (h : Locked F s ts)
    {rec : Nat → Option Str → Prog Val} (hr : ∀ i n, Scoped (rec i n)) {texts : Texts} (hin : Inner F rec texts) {l : Str}
    {j : Nat} (hj : ReaderFor F l j) {ps : List Node} {i : Nat} :
    Is (Pos ps i) (listDump F s rec [j]) (List.map Val.dump) (listTexts ts texts l (nth ps i)) (Pos ps i) := by
  unfold listDump
  refine (is_bind (f := fun _ => kidsOf (nth ps i)) (g := List.map Val.dump) (R := Pos ps i)
    (h := fun ks => textOf (nth ks 0) >>= fun d => typeWith ts d >>= fun _ =>
      all ((listElements (nth ks 1)).map fun e => texts false l (some e))) is_attestDescribed fun _ hd => ?_).eq ?_
  · have hn := described_some hd
    generalize kidsOf (nth ps i) = ks at hn
    refine is_enter (Q := Pos ks 1) hn (scoped_listInner hr [j]) ?_
    simp only [Node.kids]
    refine is_bind (f := id) is_readString fun d hs => ?_
    obtain ⟨m, hm⟩ := text_some hs
    obtain ⟨m', hm'⟩ := nth_some_any (j := 1) hm
    refine is_bind (f := id) ((is_lift _).eq (h.found d)) fun _ _ => ?_
    refine is_listEnter (Q := fun _ => True) hm' (fun n => scoped_listItems hr [j] n) ?_
    have ht := is_times (fun i => is_useReader h hin hj (ps := m'.kids) (i := i)) (listElements (some m')).length 0
    refine ht.eq ?_
    rw [hm']
    by_cases he : listElements (some m') = []
    · rw [he]; rfl
    · congr 1
      rw [← range_map_get (listElements (some m')) (texts false l)]
      apply List.map_congr_left
      intro i hi
      rw [List.mem_range] at hi
      rw [listElements_kids he] at hi ⊢
      rw [← nth_lt hi]
      simp
  · unfold listTexts body
    cases describedParts (nth ps i) with
    | throw m => rfl
    | ub m => rfl
    | ok ks =>
      simp only [Res.bind_eq, Res.bind]
      cases textOf (nth ks 0) with
      | throw m => rfl
      | ub m => rfl
      | ok d =>
        simp only [Res.bind]
        cases typeWith ts d <;> rfl

theorem is_mapEntry {lf : Bool} {p q : Prog Val} {a b : Option Node → Res Str} {ps : List Node}
    (hp : ∀ i, Is (Pos ps i) p Val.dump (a (nth ps i)) (Pos ps (i + 1)))
    (hq : ∀ i, Is (Pos ps i) q Val.dump (b (nth ps i)) (Pos ps (i + 1))) (i : Nat) :
    Is (Pos ps i) (mapEntry lf p q) Val.dump
      (if lf then do
        let x ← a (nth ps i)
        let y ← b (nth ps (i + 1))
        pure (colon x y)
      else do
        let y ← b (nth ps i)
        let x ← a (nth ps (i + 1))
        pure (colon x y)) (Pos ps (i + 2)) := by
  have hcolon : ∀ x y : Val, colon x.dump y.dump = (Val.valuePair x y).dump := by
    intro x y; rw [Val.dump]; rfl
  cases lf
  · simp only [mapEntry, Bool.false_eq_true, if_false]
    refine is_bind (hq i) fun y _ => is_bind (hp (i + 1)) fun x _ => ?_
    rw [hcolon]
    exact is_pure Val.dump _
  · simp only [mapEntry, if_true]
    refine is_bind (hp i) fun x _ => is_bind (hq (i + 1)) fun y _ => ?_
    rw [hcolon]
    exact is_pure Val.dump _

theorem is_mapDump {lf : Bool} {F : Factory} {s : Schema} {ts : List TypeNotation} (h : Locked F s ts)
    {rec : Nat → Option Str → Prog Val} (hr : ∀ i n, Scoped (rec i n)) {texts : Texts} (hin : Inner F rec texts)
    {k v : Str} {j j' : Nat} (hj : ReaderFor F k j) (hj' : ReaderFor F v j') {ps : List Node} {i : Nat} :
    Is (Pos ps i) (mapDump lf F s rec [j, j']) (List.map Val.dump) (mapTexts lf ts texts k v (nth ps i)) (Pos ps i) := by
  unfold mapDump
  refine (is_bind (f := fun _ => kidsOf (nth ps i)) (g := List.map Val.dump) (R := Pos ps i)
    (h := fun ks => textOf (nth ks 0) >>= fun d => typeWith ts d >>= fun _ =>
      all ((List.range (((mapParts (nth ks 1)).length + 1) / 2)).map fun i =>
        if lf then do
          let a ← texts false k (nth (mapParts (nth ks 1)) (2 * i))
          let b ← texts false v (nth (mapParts (nth ks 1)) (2 * i + 1))
          pure (colon a b)
        else do
          let b ← texts false v (nth (mapParts (nth ks 1)) (2 * i))
          let a ← texts false k (nth (mapParts (nth ks 1)) (2 * i + 1))
          pure (colon a b))) is_attestDescribed fun _ hd => ?_).eq ?_
  · have hn := described_some hd
    generalize kidsOf (nth ps i) = ks at hn
    refine is_enter (Q := Pos ks 1) hn (scoped_mapInner hr [j, j']) ?_
    simp only [Node.kids]
    refine is_bind (f := id) is_readString fun d hs => ?_
    obtain ⟨m, hm⟩ := text_some hs
    obtain ⟨m', hm'⟩ := nth_some_any (j := 1) hm
    refine is_bind (f := id) ((is_lift _).eq (h.found d)) fun _ _ => ?_
    refine is_mapEnter (Q := fun _ => True) hm' (fun n => scoped_mapItems hr [j, j'] n) ?_
    have ht := is_times (k := 2) (is_mapEntry (lf := lf) (fun i => is_useReader h hin hj (ps := m'.kids) (i := i))
      (fun i => is_useReader h hin hj' (ps := m'.kids) (i := i))) (((mapParts (some m')).length + 1) / 2) 0
    refine ht.eq ?_
    rw [hm']
    by_cases he : mapParts (some m') = []
    · rw [he]; rfl
    · rw [mapParts_kids he]
      simp only [Nat.zero_add]
  · unfold mapTexts body
    cases describedParts (nth ps i) with
    | throw m => rfl
    | ub m => rfl
    | ok ks =>
      simp only [Res.bind_eq, Res.bind]
      cases textOf (nth ks 0) with
      | throw m => rfl
      | ub m => rfl
      | ok d =>
        simp only [Res.bind]
        cases typeWith ts d <;> rfl

theorem is_dumpFields {F : Factory} {s : Schema} {ts : List TypeNotation} (h : Locked F s ts)
    {rec : Nat → Option Str → Prog Val} {texts : Texts} (hin : Inner F rec texts) {ns : List Node}
    (fs gs : List Field) (subs : List Nat) (hl : fs.length = gs.length) (hs : subs.length = gs.length)
    (hg : ∀ g j, (g, j) ∈ gs.zip subs → ∃ t, g.resolvedType = .ok t ∧ ReaderFor F t j) (i : Nat) :
    Is (Pos ns i) (dumpFields F rec (fs.zip subs)) (List.map Val.dump)
      (all (((fs.zip gs).zipIdx i).map fun x =>
        match fieldTypeName x.1.2 with
        | some t => (colon x.1.1.name) <$> texts true t (nth ns x.2)
        | none => .ub "no type")) (fun _ => True) := by
  induction fs generalizing gs subs i with
  | nil =>
    cases subs <;> exact (is_pure (List.map Val.dump) []).post fun _ _ => trivial
  | cons f fs ih =>
    cases gs with
    | nil => simp at hl
    | cons g gs =>
      cases subs with
      | nil => simp at hs
      | cons j subs =>
        obtain ⟨t, ht, hj⟩ := hg g j (by simp)
        obtain ⟨o, -, ho⟩ := h.lock hj
        rw [List.zip_cons_cons, List.zip_cons_cons, List.zipIdx_cons, List.map_cons, all]
        simp only [dumpFields, ho, resolved_of_named.mpr ht]
        refine is_bind (hin t j (some f.name) ns i hj) fun v _ => ?_
        refine is_bind (ih gs subs (by simpa using hl) (by simpa using hs) (fun g j hm => hg g j (by
          rw [List.zip_cons_cons]; exact List.mem_cons_of_mem _ hm)) (i + 1)) fun vs _ => ?_
        exact is_pure (List.map Val.dump) (v :: vs)

theorem is_compositeDump {F : Factory} {s : Schema} {ts : List TypeNotation} (h : Locked F s ts)
    {rec : Nat → Option Str → Prog Val} (hr : ∀ i n, Scoped (rec i n)) {texts : Texts} (hin : Inner F rec texts)
    (c : Composite) (subs : List Nat) (hs : subs.length = c.fields.length)
    (hg : ∀ g j, (g, j) ∈ c.fields.zip subs → ∃ t, g.resolvedType = .ok t ∧ ReaderFor F t j) {ps : List Node} {i : Nat} :
    Is (Pos ps i) (compositeDump F s rec subs) (List.map Val.dump) (objectTexts ts texts c (nth ps i)) (Pos ps i) := by
  unfold compositeDump objectTexts
  refine is_bind is_attestDescribed fun _ hd => ?_
  have hn := described_some hd
  generalize kidsOf (nth ps i) = ks at hn
  refine is_enter (Q := fun _ => True) hn (scoped_compositeInner hr subs) ?_
  simp only [Node.kids]
  refine is_bind (f := id) is_getSymbol fun d hsym => ?_
  refine is_bind (f := id) ((is_lift _).eq (h.found d)) fun t _ => ?_
  cases t with
  | restr r => exact is_throw _ _
  | comp c' =>
    dsimp only [id]
    rw [hs]
    by_cases hl : c'.fields.length = c.fields.length
    · rw [if_pos hl, if_pos hl]
      refine (is_bind (r := .ok ()) (h := fun _ => _) is_next fun _ _ => ?_)
      refine is_bind is_attestList fun _ hls => ?_
      have hb := list_some hls
      generalize kidsOf (nth ks 1) = ns at hb
      exact (is_enter hb (scoped_dumpFields hr _) (is_dumpFields h hin c'.fields c.fields subs hl hs hg 0)).post
        fun _ _ => trivial
    · rw [if_neg hl, if_neg hl]
      exact is_ub _ _

/-- A public key. -/
theorem is_publicKey (name : Option Str) {ps : List Node} {i : Nat} :
    Is (Pos ps i) (publicKeyDump name) Val.dump ((labelled name) <$> keyText name.isSome (nth ps i)) (Pos ps (i + 1)) := by
  cases name with
  | none => exact is_throw _ _
  | some n =>
    refine is_autoNext ((is_bind (f := fun _ => kidsOf (nth ps i)) (g := Val.dump) (R := Pos ps i)
      (h := fun ks => match valueOf (nth ks 1) with
        | some (.binary _) => .ok (labelled (some n) "<<<Public Key>>>".toList)
        | _ => .throw "Expected a binary type") is_attestDescribed fun _ hd => ?_).eq ?_)
    · have hn := described_some hd
      generalize kidsOf (nth ps i) = ks at hn
      refine is_enter (Q := fun _ => True) hn (scoped_publicKeyInner n) ?_
      simp only [Node.kids]
      refine (is_bind (r := .ok ()) (h := fun _ => _) is_next fun _ _ => ?_)
      refine (is_bind (β := Unit) (f := fun _ => ()) (g := Val.dump) (R := fun _ => True)
        (h := fun _ => .ok (labelled (some n) "<<<Public Key>>>".toList))
        (is_attest (ps := ks) (i := 1) .binary "Expected a binary type" (by simp) ()
          (match valueOf (nth ks 1) with
            | some (.binary _) => .ok ()
            | _ => .throw "Expected a binary type") (fun a ha ht => ?_) fun hno => ?_) fun _ _ => ?_).eq ?_
      · rw [ha]; cases a <;> simp_all [Atom.type]
      · cases hv : valueOf (nth ks 1) with
        | none => rfl
        | some a => have := hno a hv; cases a <;> simp_all [Atom.type]
      · refine is_bind (r := .ok ()) (f := fun _ => ()) (Q := fun _ => True)
          (h := fun _ => .ok (labelled (some n) "<<<Public Key>>>".toList))
          (fun c hc => ⟨rfl, fun _ _ => trivial⟩) fun _ _ => ?_
        exact (is_pure Val.dump (.pair n publicKeyText)).eq (by rw [← text_dump]; rfl)
      · cases valueOf (nth ks 1) with
        | none => rfl
        | some a => cases a <;> rfl
    · unfold keyText
      simp only [Option.isSome_some, if_true]
      cases describedParts (nth ps i) with
      | throw m => rfl
      | ub m => rfl
      | ok ks =>
        simp only [Res.bind_eq, Res.bind, Res.map_eq]
        cases valueOf (nth ks 1) with
        | none => rfl
        | some a => cases a <;> rfl

theorem primNamed_eq (k : Str) :
    (∀ p, primNamed k = some p ↔ makePropertyReader k = .ok p) ∧ (primNamed k = none ↔ k ∉ readable) := by
  by_cases h : k ∈ readable
  · have : ∀ k ∈ readable, ∃ p ∈ [PrimReader.int, .long, .double, .boolean, .string, .float, .binary],
        makePropertyReader k = .ok p ∧ primNamed k = some p := by decide +kernel
    obtain ⟨p, -, h1, h2⟩ := this k h
    refine ⟨fun q => ?_, ?_⟩
    · rw [h1, h2]; simp
    · rw [h2]; simp [h]
  · obtain ⟨m, hm⟩ := ((makeProperty_cases k).resolve_left (fun x => h x.1)).2
    have hp : primNamed k = none := by
      have h' := h
      simp only [readable, List.map_cons, List.map_nil, List.mem_cons, List.not_mem_nil, or_false, not_or] at h'
      obtain ⟨h1, h2, h3, h4, h5, h6, h7⟩ := h'
      unfold primNamed
      rw [if_neg h1, if_neg h2, if_neg h3, if_neg h4, if_neg h5, if_neg h6, if_neg h7]
    refine ⟨fun q => ?_, ?_⟩
    · rw [hm, hp]; simp
    · rw [hp]; simp [h]

theorem typeNamed_eq {ts : List TypeNotation} (hu : ∀ u ∈ ts, ∀ v ∈ ts, u.name = v.name → u = v) {u : TypeNotation}
    (h : u ∈ ts) : typeNamed ts u.name = some u := by
  unfold typeNamed
  cases hf : ts.find? (fun v => v.name == u.name) with
  | none =>
    have := List.find?_eq_none.mp hf u h
    simp at this
  | some v =>
    have h1 := List.mem_of_find?_eq_some hf
    have h2 : v.name = u.name := by have := List.find?_some hf; simpa using this
    rw [hu v h1 u h h2]

theorem readable_not_key : keyType ∉ readable := by decide +kernel

theorem map_map_res {α β γ : Type} (f : β → γ) (g : α → β) (r : Res α) :
    (f <$> (g <$> r)) = (fun a => f (g a)) <$> r := by cases r <;> rfl

/-- **The main lemma.** Every reader object, at any position, does what `textAs` says. -/
theorem dump_is {lf : Bool} {F : Factory} {s : Schema} {ts : List TypeNotation} (h : Stocked F s ts) (fuel : Nat) :
    Inner F (dump (fun _ _ => publicKeyDump) lf F s fuel) (textAs lf ts fuel) := by
  have hcu : ∀ (k : Nat) (s : Schema) n, Scoped ((fun _ _ => publicKeyDump : Customs) k s n) := fun _ _ => scoped_publicKeyDump
  have step : ∀ fuel rec texts, (∀ i n, Scoped (rec i n)) → rec = dump (fun _ _ => publicKeyDump) lf F s fuel →
      texts = textAs lf ts fuel → Inner F rec texts →
      Inner F (dump (fun _ _ => publicKeyDump) lf F s (fuel + 1)) (textAs lf ts (fuel + 1)) := by
    rintro fuel rec texts hr rfl rfl hin k j name ps i hj
    rw [textAs]
    simp only [dump]
    rcases h.only k j hj with rfl | hk | ⟨u, hu, rfl⟩
    · obtain ⟨o, n, ho, hkind⟩ := h.key j hj
      rw [if_pos rfl]
      simp only [ho, dumpWith, hkind]
      exact is_publicKey name
    · have hne : k ≠ keyType := fun e => readable_not_key (e ▸ hk)
      rw [if_neg hne]
      rcases makeProperty_cases k with ⟨-, p, hp, -⟩ | ⟨hn, -⟩
      · obtain ⟨o, ho, hkind⟩ := h.ready.prims k p j hp hj
        simp only [ho, dumpWith, hkind, ((primNamed_eq k).1 p).mpr hp]
        refine (is_bind (f := id) (h := fun t => .ok (labelled name t)) (is_property p) fun t _ => ?_).eq ?_
        · rw [id, ← text_dump]; exact is_pure Val.dump _
        · simp
      · exact absurd hk hn
    · obtain ⟨hne, hnr⟩ := h.apart u hu
      rw [if_neg hne, (primNamed_eq u.name).2.mpr hnr, typeNamed_eq h.names hu]
      obtain ⟨j', o, hj', ho, hb⟩ := h.ready.types u hu
      have : j = j' := by have := hj.symm.trans hj'; simpa using this
      subst this
      simp only [ho, dumpWith]
      cases u with
      | comp c =>
        obtain ⟨hkind, hlen, hg⟩ := hb
        simp only [hkind]
        refine is_autoNext ((is_bind (f := id) (r := .ok (decide (valueOf (nth ps i) = some .null)))
          (h := fun b : Bool => if b then .ok (labelled name absent) else
            (fun l => labelled name (braces l)) <$> objectTexts ts (textAs lf ts fuel) c (nth ps i))
          (is_look (fun c => decide (c.type = .null)) (fun n => decide (valueOf n = some .null)) fun c hc => ?_)
          fun b _ => ?_).eq ?_)
        · rw [hc.type]
          cases valueOf (nth ps i) with
          | none => rfl
          | some a => cases a <;> simp [Atom.type]
        · cases b
          · simp only [Bool.false_eq_true, if_false, id]
            refine (is_bind (h := fun l => .ok (labelled name (braces l))) (is_compositeDump h.locked hr hin c o.subs hlen hg)
              fun vs _ => ?_).eq (by simp)
            rw [← pairVec_dump]
            exact is_pure Val.dump _
          · simp only [if_true, id]
            rw [← null_dump]
            exact is_pure Val.dump _
        · simp only [Res.bind_eq, Res.bind, decide_eq_true_eq]
          split
          · rfl
          · rw [map_map_res]
      | restr r =>
        simp only [Built] at hb
        cases hk : r.kind with
        | list l =>
          simp only [hk] at hb
          obtain ⟨hkind, j1, hs, hj1⟩ := hb
          simp only [hkind, hs, hk]
          rw [map_map_res]
          refine is_autoNext ((is_bind (h := fun x => .ok (labelled name (brackets x))) (is_listDump h.locked hr hin hj1)
            fun vs _ => ?_).eq (by simp))
          rw [← pairList_dump]
          exact is_pure Val.dump _
        | array l =>
          simp only [hk] at hb
          obtain ⟨hkind, j1, hs, hj1⟩ := hb
          simp only [hkind, hs, hk]
          rw [map_map_res]
          refine is_autoNext ((is_bind (h := fun x => .ok (labelled name (brackets x))) (is_listDump h.locked hr hin hj1)
            fun vs _ => ?_).eq (by simp))
          rw [← pairList_dump]
          exact is_pure Val.dump _
        | map a b =>
          simp only [hk] at hb
          obtain ⟨hkind, j1, j2, hs, hj1, hj2⟩ := hb
          simp only [hkind, hs, hk]
          rw [map_map_res]
          refine is_autoNext ((is_bind (h := fun x => .ok (labelled name (braces x))) (is_mapDump h.locked hr hin hj1 hj2)
            fun vs _ => ?_).eq (by simp))
          rw [← pairVec_dump]
          exact is_pure Val.dump _
        | enum cs =>
          simp only [hk] at hb
          simp only [hb, hk]
          refine is_autoNext ((is_bind (h := fun _ => (labelled name) <$> enumText (nth ps i)) is_attestDescribed fun _ _ =>
            (is_bind (f := id) (h := fun t => .ok (labelled name t)) is_enumValue fun t _ => ?_).eq (by simp)).eq ?_)
          · rw [id, ← text_dump]; exact is_pure Val.dump _
          · unfold enumText
            cases describedParts (nth ps i) <;> rfl
  induction fuel with
  | zero => intro k j name ps i _; exact is_ub _ _
  | succ fuel ih => exact step fuel _ _ (scoped_dump hcu _) rfl rfl ih

/-! ### The bound on the depth does not matter -/

theorem depth_pos (n : Option Node) : 1 ≤ depthOf n := by
  cases n with
  | none => exact Nat.le_refl _
  | some m => exact height_pos m

/-- A part of a part is less deep. -/
theorem depth_nth {a : Atom} {ks : List Node} (i : Nat) : depthOf (nth ks i) ≤ (Node.mk a ks).height := by
  cases h : nth ks i with
  | none => exact height_pos _
  | some m => have := height_kids (v := a) (nth_mem h); simp only [depthOf]; omega

theorem depth_part {a : Atom} {ks ls : List Node} {b : Atom} {i j : Nat} (h : nth ks i = some (.mk b ls)) :
    depthOf (nth ls j) + 1 ≤ (Node.mk a ks).height := by
  have h1 := height_kids (v := a) (nth_mem h)
  have h2 := depth_nth (a := b) (ks := ls) j
  omega

theorem all_congr {α β : Type} {l : List α} {f g : α → Res β} (h : ∀ a ∈ l, f a = g a) : all (l.map f) = all (l.map g) := by
  rw [List.map_congr_left h]

theorem objectTexts_congr {ts : List TypeNotation} {f g : Texts} {c : Composite} {n : Option Node}
    (h : ∀ b t m, depthOf m + 1 ≤ depthOf n → f b t m = g b t m) : objectTexts ts f c n = objectTexts ts g c n := by
  unfold objectTexts
  cases hd : describedParts n with
  | throw m => rfl
  | ub m => rfl
  | ok ks =>
    have hn := described_some hd
    simp only [Res.bind_eq, Res.bind]
    cases symbolOf (nth ks 0) with
    | throw m => rfl
    | ub m => rfl
    | ok d =>
      simp only
      cases typeWith ts d with
      | throw m => rfl
      | ub m => rfl
      | ok u =>
        cases u with
        | restr r => rfl
        | comp c' =>
          simp only
          split
          · cases hl : listParts (nth ks 1) with
            | throw m => rfl
            | ub m => rfl
            | ok ns =>
              simp only
              refine all_congr fun x _ => ?_
              cases fieldTypeName x.1.2 with
              | none => rfl
              | some t =>
                simp only
                rw [h true t (nth ns x.2) (by rw [hn]; exact depth_part (a := .described) (list_some hl))]
          · rfl

theorem body_some {ts : List TypeNotation} {n b : Option Node} (h : body ts n = .ok b) :
    ∃ ks, n = some (.mk .described ks) ∧ b = nth ks 1 := by
  unfold body at h
  cases hd : describedParts n with
  | throw m => rw [hd] at h; cases h
  | ub m => rw [hd] at h; cases h
  | ok ks =>
    rw [hd] at h
    refine ⟨ks, described_some hd, ?_⟩
    simp only [Res.bind_eq, Res.bind] at h
    cases ht : textOf (nth ks 0) with
    | throw m => rw [ht] at h; cases h
    | ub m => rw [ht] at h; cases h
    | ok d =>
      rw [ht] at h
      simp only at h
      cases hw : typeWith ts d with
      | throw m => rw [hw] at h; cases h
      | ub m => rw [hw] at h; cases h
      | ok u => rw [hw] at h; exact (Res.ok.inj h).symm

theorem listTexts_congr {ts : List TypeNotation} {f g : Texts} {l : Str} {n : Option Node}
    (h : ∀ b t m, depthOf m + 1 ≤ depthOf n → f b t m = g b t m) : listTexts ts f l n = listTexts ts g l n := by
  unfold listTexts
  cases hb : body ts n with
  | throw m => rfl
  | ub m => rfl
  | ok b =>
    obtain ⟨ks, rfl, rfl⟩ := body_some hb
    simp only [Res.bind_eq, Res.bind]
    refine all_congr fun e he => h false l (some e) ?_
    cases hn : nth ks 1 with
    | none => rw [hn] at he; simp [listElements, valueOf] at he
    | some m =>
      rw [hn] at he
      have := listElements_kids (n := m) (List.ne_nil_of_mem he)
      rw [this] at he
      cases m with
      | mk a ls =>
        have h1 := height_kids (v := a) (ks := ls) he
        have h2 := height_kids (v := .described) (nth_mem hn)
        simp only [depthOf]
        omega

theorem mapTexts_congr {lf : Bool} {ts : List TypeNotation} {f g : Texts} {k v : Str} {n : Option Node}
    (h : ∀ b t m, depthOf m + 1 ≤ depthOf n → f b t m = g b t m) : mapTexts lf ts f k v n = mapTexts lf ts g k v n := by
  unfold mapTexts
  cases hb : body ts n with
  | throw m => rfl
  | ub m => rfl
  | ok b =>
    obtain ⟨ks, rfl, rfl⟩ := body_some hb
    simp only [Res.bind_eq, Res.bind]
    by_cases he : mapParts (nth ks 1) = []
    · rw [he]; rfl
    · have hd : ∀ i, depthOf (nth (mapParts (nth ks 1)) i) + 1 ≤ depthOf (some (.mk .described ks)) := by
        intro i
        cases hn : nth ks 1 with
        | none => rw [hn] at he; simp [mapParts, valueOf] at he
        | some m =>
          rw [hn] at he
          rw [mapParts_kids he]
          cases m with
          | mk a ls => exact depth_part (a := .described) hn
      refine all_congr fun i _ => ?_
      rw [h false k _ (hd (2 * i)), h false k _ (hd (2 * i + 1)), h false v _ (hd (2 * i)), h false v _ (hd (2 * i + 1))]

/-- Whatever bound is given, if it is large enough, the text is the same. -/
theorem textAs_depth {lf : Bool} {ts : List TypeNotation} : ∀ (k k' : Nat) (named : Bool) (t : Str) (n : Option Node),
    depthOf n ≤ k → depthOf n ≤ k' → textAs lf ts k named t n = textAs lf ts k' named t n := by
  intro k
  induction k with
  | zero => intro k' named t n h; have := depth_pos n; omega
  | succ k ih =>
    intro k' named t n h h'
    cases k' with
    | zero => have := depth_pos n; omega
    | succ k' =>
      have hin : ∀ b t m, depthOf m + 1 ≤ depthOf n → textAs lf ts k b t m = textAs lf ts k' b t m :=
        fun b t m hm => ih k' b t m (by omega) (by omega)
      have h1 : ∀ c, objectTexts ts (textAs lf ts k) c n = objectTexts ts (textAs lf ts k') c n :=
        fun c => objectTexts_congr hin
      have h2 : ∀ l, listTexts ts (textAs lf ts k) l n = listTexts ts (textAs lf ts k') l n :=
        fun l => listTexts_congr hin
      have h3 : ∀ a b, mapTexts lf ts (textAs lf ts k) a b n = mapTexts lf ts (textAs lf ts k') a b n :=
        fun a b => mapTexts_congr hin
      rw [textAs, textAs]
      simp only [h1, h2, h3]

end Corda
