import Verif.Spec.AnySchemaDump
import Verif.Lemmas.Meaning
import Verif.Lemmas.Accepted
import Verif.Lemmas.DumpEval
import Verif.Lemmas.DumpSafe

/-
Reading any tree step by step: what each step gives at a given place among the parts of a node.
-/

namespace Corda
open Prog Spec

theorem is_step {α β : Type} {ps : List Node} {i : Nat} {q : Prog α} {f : α → β} {r : Res β} {Q : Cursor → Prop}
    (h : Is (Pos ps (i + 1)) q f r Q) : Is (Pos ps i) (Prog.next >>= fun _ => q) f r Q := by
  intro c hc
  rw [bind_of_ok (show Prog.next c = (.ok (c.next).1, c.next.2) from rfl)]
  exact h _ hc.next

theorem id_map {α : Type} (r : Res α) : id <$> r = r := by cases r <;> rfl

theorem is_here {α : Type} {ps : List Node} {i : Nat} {p : Prog α} {r : Res α}
    (h : ∀ c, c.cur = nth ps i → p c = (r, c)) : Is (Pos ps i) p id r (Pos ps i) := by
  intro c hc
  rw [h c hc.1]
  exact ⟨id_map r, fun _ _ => hc⟩

theorem val_at {c : Cursor} {n : Option Node} (h : c.cur = n) : c.val = valueOf n := by rw [Cursor.val, h]; rfl

theorem is_getString {ps : List Node} {i : Nat} (b : Bool) :
    Is (Pos ps i) (getString b) id (stringAt b (nth ps i)) (Pos ps i) := by
  refine is_here fun c hc => ?_
  unfold getString stringAt
  rw [val_at hc]
  cases valueOf (nth ps i) with
  | none => rfl
  | some a => cases a <;> first | rfl | (cases b <;> rfl)

theorem is_getBoolean {ps : List Node} {i : Nat} : Is (Pos ps i) getBoolean id (flagAt (nth ps i)) (Pos ps i) := by
  refine is_here fun c hc => ?_
  unfold getBoolean flagAt
  rw [val_at hc]
  cases valueOf (nth ps i) with
  | none => rfl
  | some a => cases a <;> rfl

theorem is_word {ps : List Node} {i : Nat} (b : Bool) :
    Is (Pos ps i) (Prog.readString b) id (wordAt b (nth ps i)) (Pos ps (i + 1)) := by
  unfold Prog.readString
  refine is_autoNext (is_here fun c hc => ?_)
  unfold wordAt
  rw [val_at hc]
  cases valueOf (nth ps i) with
  | none => rfl
  | some a => cases a <;> first | rfl | (cases b <;> rfl)

theorem string_here (c : Cursor) (n : Node) (h : c.cur = some n) :
    getString false c = (stringAt false (some n), c) := by
  unfold getString stringAt
  rw [val_at h]
  cases n with
  | mk a ks => cases a <;> rfl

theorem string_ne {ps : List Node} {i : Nat} {b : Bool} {s : Str} (h : stringAt b (nth ps i) = .ok s) : ps ≠ [] := by
  rintro rfl; cases h

theorem word_ne {ps : List Node} {i : Nat} {b : Bool} {s : Str} (h : wordAt b (nth ps i) = .ok s) : ps ≠ [] := by
  rintro rfl; cases h

theorem entered_rest (c : Cursor) (n : Node) (hc : c.cur = some n) : c.enter.rest = n.kids := by
  obtain ⟨p, cu, r, u⟩ := c
  simp only at hc
  subst hc
  cases n
  rfl

/-- One step after the other; the outcome of the whole is seen through `g`. -/
theorem is_then {α β γ δ : Type} {P Q R : Cursor → Prop} {p : Prog α} {f : α → β} {r : Res β} {k : α → Prog γ}
    {g : δ → γ} {h : β → Res δ} (hp : Is P p f r Q) (hk : ∀ a, r = .ok (f a) → Is Q (k a) id (g <$> h (f a)) R) :
    Is P (p >>= k) id (g <$> (r >>= h)) R := by
  refine (is_bind (h := fun b => g <$> h b) hp hk).eq ?_
  cases r <;> rfl

/-- The same where the first outcome is seen through `f`. -/
theorem is_after {α β γ δ : Type} {P Q R : Cursor → Prop} {p : Prog α} {f : β → α} {r : Res β} {k : α → Prog γ}
    {g : δ → γ} {h : β → Res δ} (hp : Is P p id (f <$> r) Q) (hk : ∀ b, r = .ok b → Is Q (k (f b)) id (g <$> h b) R) :
    Is P (p >>= k) id (g <$> (r >>= h)) R := by
  cases r with
  | ok b =>
    refine is_bind (r := .ok (f b)) (h := fun _ => g <$> h b) hp fun a ha => ?_
    rw [show a = f b from (Res.ok.inj ha).symm]
    exact hk b rfl
  | throw m => exact is_bind (r := .throw m) (h := fun _ => (.throw m : Res γ)) hp fun a ha => (by cases ha)
  | ub m => exact is_bind (r := .ub m) (h := fun _ => (.ub m : Res γ)) hp fun a ha => by cases ha

/-- A step whose outcome is known. -/
theorem is_known {α β γ : Type} {P : Cursor → Prop} {Q : Cursor → Prop} {p : Prog α} {a : α} {k : α → Prog β} {f : β → γ}
    {r : Res γ} (hp : ∀ c, P c → p c = (.ok a, c)) (hk : Is P (k a) f r Q) : Is P (p >>= k) f r Q := by
  intro c hc
  rw [bind_of_ok (hp c hc)]
  exact hk c hc

theorem is_done {β γ : Type} {P : Cursor → Prop} {g : β → γ} {a : γ} {b : β} (h : a = g b) :
    Is P (pure a) id (g <$> (pure b : Res β)) P := by
  subst h; exact is_pure id _

theorem joinRes_all {β : Type} (g : β → Str) (f : Nat → Option Node → Res β) (ns : List Node) (i : Nat) :
    joinRes (fun i n => g <$> f i (some n)) i ns
      = (fun bs => bs.flatMap g) <$> all ((ns.zipIdx i).map fun x => f x.2 (some x.1)) := by
  induction ns generalizing i with
  | nil => rfl
  | cons n ns ih =>
    rw [joinRes, List.zipIdx_cons, List.map_cons, all, ih]
    simp only
    cases f i (some n) with
    | ok a => cases all ((ns.zipIdx (i + 1)).map fun x => f x.2 (some x.1)) <;> rfl
    | throw m => rfl
    | ub m => rfl

theorem getList_at {c : Cursor} {n : Node} (h : c.cur = some n) : c.getList = (listElements (some n)).length := by
  unfold Cursor.getList listElements
  rw [h]
  cases n with | mk a ks => cases a <;> rfl

/-- Numbered writing of everything inside the current node. -/
theorem forNext_at {β : Type} {body : Nat → Nat → Prog Str} {g : β → Str} {f : Nat → Nat → Option Node → Res β}
    (hs : ∀ n i, ScopedOn (body n i)) (hb : ∀ n i c m, c.cur = some m → body n i c = (g <$> f n i (some m), c))
    {c : Cursor} {m : Node} (hc : c.cur = some m) :
    autoListEnter (fun n => forNext (body n)) false c
      = ((fun bs => bs.flatMap g) <$> numberedOf (f (listElements (some m)).length) (some m), c) := by
  rw [autoListEnter_eq (fun n => scoped_forNext (hs n)) (by rw [hc]; rfl)]
  simp only [Bool.false_eq_true, if_false]
  rw [forNext_join (hb _), entered_rest c m hc, joinRes_all, getList_at hc]
  rfl

/-- The same with something around. -/
theorem forNext_around {β : Type} {body : Nat → Nat → Prog Str} {g : β → Str} {f : Nat → Nat → Option Node → Res β}
    {w : Nat → Str → Str}
    (hs : ∀ n i, ScopedOn (body n i)) (hb : ∀ n i c m, c.cur = some m → body n i c = (g <$> f n i (some m), c))
    {c : Cursor} {m : Node} (hc : c.cur = some m) :
    autoListEnter (fun n => forNext (body n) >>= fun t => pure (w n t)) false c
      = ((fun bs => w (listElements (some m)).length (bs.flatMap g)) <$>
          numberedOf (f (listElements (some m)).length) (some m), c) := by
  have h := forNext_at hs hb hc
  rw [autoListEnter_eq (fun n => scoped_forNext (hs n)) (by rw [hc]; rfl)] at h
  rw [autoListEnter_eq (fun n => scoped_bind (scoped_forNext (hs n)) fun _ => scoped_pure _) (by rw [hc]; rfl)]
  simp only [Bool.false_eq_true, if_false, Prod.mk.injEq, and_true] at h ⊢
  rw [getList_at hc] at h ⊢
  rw [bind_def]
  rcases hx : forNext (body (listElements (some m)).length) c.enter with ⟨x, c'⟩
  rw [hx] at h
  simp only at h
  subst h
  cases numberedOf (f (listElements (some m)).length) (some m) <;> rfl

theorem is_forNext {β : Type} {ps : List Node} {i : Nat} (hne : ps ≠ []) {body : Nat → Nat → Prog Str} {g : β → Str}
    {f : Nat → Nat → Option Node → Res β} (hs : ∀ n i, ScopedOn (body n i))
    (hb : ∀ n i c m, c.cur = some m → body n i c = (g <$> f n i (some m), c)) :
    Is (Pos ps i) (autoListEnter (fun n => forNext (body n))) id
      ((fun bs => bs.flatMap g) <$> numberedOf (f (listElements (nth ps i)).length) (nth ps i)) (Pos ps i) := by
  refine is_here fun c hc => ?_
  obtain ⟨n, hn⟩ := nth_isSome i hne
  rw [hn] at hc ⊢
  exact forNext_at hs hb hc

theorem numberedOf_const {α : Type} (f : Option Node → Res α) (n : Option Node) : numberedOf (fun _ => f) n = eachOf f n := by
  unfold numberedOf eachOf
  generalize kidsOf n = ks
  congr 1
  have : ∀ i, ((ks.zipIdx i).map fun x => f (some x.1)) = ks.map fun m => f (some m) := by
    induction ks with
    | nil => intro i; rfl
    | cons k ks ih => intro i; rw [List.zipIdx_cons, List.map_cons, List.map_cons, ih]
  exact this 1

theorem numberedOf_congr {α : Type} {f g : Nat → Option Node → Res α} {n : Option Node}
    (h : ∀ i, ∀ m ∈ kidsOf n, f i (some m) = g i (some m)) : numberedOf f n = numberedOf g n := by
  unfold numberedOf
  congr 1
  refine List.map_congr_left fun x hx => h _ _ ?_
  obtain ⟨-, -, h3⟩ := List.mem_zipIdx hx
  rw [h3]
  exact List.getElem_mem _

theorem kids_height {n : Option Node} {h : Nat} (hn : ∀ m, n = some m → m.height ≤ h) {m : Node} (hm : m ∈ kidsOf n) :
    m.height < h := by
  cases n with
  | none => cases hm
  | some x => exact Nat.lt_of_lt_of_le (node_height_lt hm) (hn x rfl)

theorem page_flatten (ls : List (List Line)) : page ls.flatten = ls.flatMap page := by
  induction ls with
  | nil => rfl
  | cons l ls ih => rw [List.flatten_cons, page_append, List.flatMap_cons, ih]

end Corda
