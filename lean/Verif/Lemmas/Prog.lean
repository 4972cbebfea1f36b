import Verif.Model.Wrapper

/-
Cursor programs that stay inside their level and do not change data.
-/

namespace Corda

/-- `(p c)` keeps the level and the parents. -/
def Keeps (c c' : Cursor) : Prop := c'.level = c.level ∧ c'.up = c.up ∧ (c.cur.isSome = true → c'.cur.isSome = true)

theorem Keeps.refl (c : Cursor) : Keeps c c := ⟨rfl, rfl, id⟩
theorem Keeps.trans {a b c : Cursor} (h : Keeps a b) (h' : Keeps b c) : Keeps a c :=
  ⟨h'.1.trans h.1, h'.2.1.trans h.2.1, fun x => h'.2.2 (h.2.2 x)⟩

theorem Keeps.forest {a b : Cursor} (h : Keeps a b) : b.forest = a.forest := by
  simp only [Cursor.forest, h.1, h.2.1]

theorem Cursor.next_keeps (c : Cursor) : Keeps c c.next.2 := by
  unfold Cursor.next
  split
  · exact Keeps.refl c
  · rename_i n ns h
    refine ⟨?_, rfl, fun _ => rfl⟩
    cases hc : c.cur <;> simp [Cursor.level, h, hc]

theorem Cursor.next_some_of_true (c : Cursor) (h : c.next.1 = true) : c.next.2.cur.isSome = true := by
  unfold Cursor.next at h ⊢
  split at h <;> simp_all

theorem Cursor.exit_of_keeps {c c' : Cursor} (hc : c.cur.isSome = true) (h : Keeps c.enter c') : c'.exit = c := by
  obtain ⟨p, cu, r, u⟩ := c
  cases cu with
  | none => simp at hc
  | some n =>
    cases n with
    | mk v ks =>
      obtain ⟨h1, h2, -⟩ := h
      simp only [Cursor.enter] at h1 h2
      simp only [Cursor.exit, h2, h1]
      simp [Cursor.level]

/-- The same position under other parents. -/
def Cursor.under (c : Cursor) (u : List (List Node × Atom × List Node)) : Cursor := ⟨c.prev, c.cur, c.rest, u⟩

/-- The program stays in its level and takes no notice of what is above. -/
def ScopedAt {α : Type} (p : Prog α) (c : Cursor) : Prop :=
  Keeps c (p c).2 ∧ ∀ u, p (c.under u) = ((p c).1, (p c).2.under u)

/-- From every position, the program stays in its level and takes no notice of what is above. -/
def Scoped {α : Type} (p : Prog α) : Prop := ∀ c, ScopedAt p c

/-- From every position on a node, the program stays in its level and takes no notice of what is above. -/
def ScopedOn {α : Type} (p : Prog α) : Prop := ∀ c, c.cur.isSome = true → ScopedAt p c

/-- The program only returns when on a node. -/
def Guard {α : Type} (p : Prog α) : Prop := ∀ c a, (p c).1 = .ok a → (p c).2.cur.isSome = true

theorem Scoped.on {α : Type} {p : Prog α} (h : Scoped p) : ScopedOn p := fun c _ => h c

namespace Prog

theorem bind_def {α β : Type} (p : Prog α) (f : α → Prog β) (c : Cursor) :
    (p >>= f) c = match p c with
      | (.ok a, c') => f a c'
      | (.throw m, c') => (.throw m, c')
      | (.ub w, c') => (.ub w, c') := rfl

theorem pure_def {α : Type} (a : α) (c : Cursor) : (pure a : Prog α) c = (.ok a, c) := rfl

theorem bind_of_ok {α β : Type} {p : Prog α} {f : α → Prog β} {c c' : Cursor} {a : α} (h : p c = (.ok a, c')) :
    (p >>= f) c = f a c' := by rw [bind_def, h]

theorem bind_of_throw {α β : Type} {p : Prog α} {f : α → Prog β} {c c' : Cursor} {m : String}
    (h : p c = (.throw m, c')) : (p >>= f) c = (.throw m, c') := by rw [bind_def, h]

theorem bind_of_ub {α β : Type} {p : Prog α} {f : α → Prog β} {c c' : Cursor} {m : String}
    (h : p c = (.ub m, c')) : (p >>= f) c = (.ub m, c') := by rw [bind_def, h]

end Prog

open Prog

theorem Cursor.under_up (c : Cursor) : c.under c.up = c := rfl

theorem Cursor.next_under (c : Cursor) (u : List (List Node × Atom × List Node)) :
    (c.under u).next = (c.next.1, c.next.2.under u) := by
  obtain ⟨p, cu, r, up⟩ := c
  cases r <;> rfl

theorem scoped_pure {α : Type} (a : α) : Scoped (pure a : Prog α) := fun c => ⟨Keeps.refl c, fun _ => rfl⟩
theorem scoped_throw {α : Type} (m : String) : Scoped (Prog.throw m : Prog α) :=
  fun c => ⟨Keeps.refl c, fun _ => rfl⟩
theorem scoped_ub {α : Type} (m : String) : Scoped (Prog.ub m : Prog α) := fun c => ⟨Keeps.refl c, fun _ => rfl⟩
theorem scoped_lift {α : Type} (r : Res α) : Scoped (Prog.lift r) := fun c => ⟨Keeps.refl c, fun _ => rfl⟩
theorem scoped_look {α : Type} (f : Cursor → α) (hf : ∀ c u, f (Cursor.under c u) = f c := by intros; rfl) :
    Scoped (Prog.look f) := fun c => ⟨Keeps.refl c, fun u => by simp only [Prog.look, hf]⟩
theorem scoped_lookR {α : Type} (f : Cursor → Res α) (hf : ∀ c u, f (Cursor.under c u) = f c := by intros; rfl) :
    Scoped (Prog.lookR f) := fun c => ⟨Keeps.refl c, fun u => by simp only [Prog.lookR, hf]⟩
theorem scoped_next : Scoped Prog.next :=
  fun c => ⟨c.next_keeps, fun u => by simp only [Prog.next, Cursor.next_under]⟩

theorem scopedAt_bind {α β : Type} {p : Prog α} {f : α → Prog β} {c : Cursor} (hp : ScopedAt p c)
    (hf : ∀ a, (p c).1 = .ok a → ScopedAt (f a) (p c).2) : ScopedAt (p >>= f) c := by
  obtain ⟨h, hu⟩ := hp
  unfold ScopedAt
  simp only [bind_def, hu]
  rcases hc : p c with ⟨r, c'⟩
  rw [hc] at h hf
  cases r with
  | ok a =>
    have := hf a rfl
    exact ⟨h.trans this.1, this.2⟩
  | throw m => exact ⟨h, fun _ => rfl⟩
  | ub m => exact ⟨h, fun _ => rfl⟩

theorem scoped_bind {α β : Type} {p : Prog α} {f : α → Prog β} (hp : Scoped p) (hf : ∀ a, Scoped (f a)) :
    Scoped (p >>= f) := fun c => scopedAt_bind (hp c) fun a _ => hf a _

theorem scopedOn_bind {α β : Type} {p : Prog α} {f : α → Prog β} (hp : ScopedOn p) (hf : ∀ a, ScopedOn (f a)) :
    ScopedOn (p >>= f) :=
  fun c hs => scopedAt_bind (hp c hs) fun a _ => hf a _ ((hp c hs).1.2.2 hs)

theorem scoped_guard_bind {α β : Type} {p : Prog α} {f : α → Prog β} (hp : Scoped p) (hg : Guard p)
    (hf : ∀ a, ScopedOn (f a)) : Scoped (p >>= f) :=
  fun c => scopedAt_bind (hp c) fun a h => hf a _ (hg c a h)

theorem scoped_ite {α : Type} {b : Prop} [Decidable b] {p q : Prog α} (hp : Scoped p) (hq : Scoped q) :
    Scoped (if b then p else q) := by split <;> assumption

theorem scopedOn_ite {α : Type} {b : Prop} [Decidable b] {p q : Prog α} (hp : ScopedOn p) (hq : ScopedOn q) :
    ScopedOn (if b then p else q) := by split <;> assumption

theorem scopedAt_autoNext {α : Type} {p : Prog α} {c : Cursor} (hp : ScopedAt p c) : ScopedAt (autoNext p) c :=
  ⟨hp.1.trans (Cursor.next_keeps _), fun u => by simp only [autoNext, hp.2, Cursor.next_under]⟩

theorem scoped_autoNext {α : Type} {p : Prog α} (hp : Scoped p) : Scoped (autoNext p) :=
  fun c => scopedAt_autoNext (hp c)

theorem scopedOn_autoNext {α : Type} {p : Prog α} (hp : ScopedOn p) : ScopedOn (autoNext p) :=
  fun c hc => scopedAt_autoNext (hp c hc)

/-- Entering, doing something inside and exiting leaves the cursor exactly where it was. -/
theorem autoEnter_eq {α : Type} {p : Prog α} {nx : Bool} (hp : Scoped p) {c : Cursor} (hc : c.cur.isSome = true) :
    autoEnter p nx c = ((p (if nx then c.enter.next.2.next.2 else c.enter.next.2)).1, c) := by
  unfold autoEnter scope
  simp only [Prod.mk.injEq, true_and]
  apply Cursor.exit_of_keeps hc
  cases nx
  · exact (Cursor.next_keeps _).trans (hp _).1
  · exact (Cursor.next_keeps _).trans ((Cursor.next_keeps _).trans (hp _).1)

/-- The same when the body relies on being on a node and the entered node has children. -/
theorem autoEnter_eq_on {α : Type} {p : Prog α} {nx : Bool} (hp : ScopedOn p) {c : Cursor}
    (hc : c.cur.isSome = true) (hk : c.enter.next.1 = true) :
    autoEnter p nx c = ((p (if nx then c.enter.next.2.next.2 else c.enter.next.2)).1, c) := by
  unfold autoEnter scope
  simp only [Prod.mk.injEq, true_and]
  apply Cursor.exit_of_keeps hc
  have h1 := Cursor.next_some_of_true _ hk
  cases nx
  · exact (Cursor.next_keeps _).trans (hp _ h1).1
  · exact (Cursor.next_keeps _).trans ((Cursor.next_keeps _).trans (hp _ ((Cursor.next_keeps _).2.2 h1)).1)

theorem autoListEnter_eq {α : Type} {p : Nat → Prog α} {nx : Bool} (hp : ∀ n, Scoped (p n)) {c : Cursor}
    (hc : c.cur.isSome = true) :
    autoListEnter p nx c = ((p c.getList (if nx then c.enter.next.2 else c.enter)).1, c) := by
  unfold autoListEnter scope
  simp only [Prod.mk.injEq, true_and]
  apply Cursor.exit_of_keeps hc
  cases nx
  · exact (hp _ _).1
  · exact (Cursor.next_keeps _).trans (hp _ _).1

theorem autoMapEnter_eq {α : Type} {p : Nat → Prog α} {nx : Bool} (hp : ∀ n, Scoped (p n)) {c : Cursor}
    (hc : c.cur.isSome = true) :
    autoMapEnter p nx c = ((p c.getMap (if nx then c.enter.next.2 else c.enter)).1, c) := by
  unfold autoMapEnter scope
  simp only [Prod.mk.injEq, true_and]
  apply Cursor.exit_of_keeps hc
  cases nx
  · exact (hp _ _).1
  · exact (Cursor.next_keeps _).trans (hp _ _).1

theorem Cursor.enter_under {c : Cursor} (hc : c.cur.isSome = true) (u : List (List Node × Atom × List Node)) :
    ∃ u', (c.under u).enter = c.enter.under u' := by
  obtain ⟨p, cu, r, up⟩ := c
  cases cu with
  | none => simp at hc
  | some n => cases n with | mk v ks => exact ⟨_, rfl⟩

theorem scopedOn_autoEnter {α : Type} {p : Prog α} {nx : Bool} (hp : Scoped p) : ScopedOn (autoEnter p nx) := by
  intro c hc
  refine ⟨?_, fun u => ?_⟩
  · rw [autoEnter_eq hp hc]
    exact Keeps.refl c
  · rw [autoEnter_eq hp hc, autoEnter_eq hp (c := c.under u) hc]
    obtain ⟨u', hu⟩ := Cursor.enter_under hc u
    cases nx <;> simp only [hu, Cursor.next_under, (hp _).2, if_true, Bool.false_eq_true, if_false]

theorem scopedOn_autoListEnter {α : Type} {p : Nat → Prog α} {nx : Bool} (hp : ∀ n, Scoped (p n)) :
    ScopedOn (autoListEnter p nx) := by
  intro c hc
  refine ⟨?_, fun u => ?_⟩
  · rw [autoListEnter_eq hp hc]
    exact Keeps.refl c
  · rw [autoListEnter_eq hp hc, autoListEnter_eq hp (c := c.under u) hc]
    obtain ⟨u', hu⟩ := Cursor.enter_under hc u
    cases nx <;> simp only [hu, Cursor.next_under, (hp _ _).2, if_true, Bool.false_eq_true, if_false] <;> rfl

theorem scopedOn_autoMapEnter {α : Type} {p : Nat → Prog α} {nx : Bool} (hp : ∀ n, Scoped (p n)) :
    ScopedOn (autoMapEnter p nx) := by
  intro c hc
  refine ⟨?_, fun u => ?_⟩
  · rw [autoMapEnter_eq hp hc]
    exact Keeps.refl c
  · rw [autoMapEnter_eq hp hc, autoMapEnter_eq hp (c := c.under u) hc]
    obtain ⟨u', hu⟩ := Cursor.enter_under hc u
    cases nx <;> simp only [hu, Cursor.next_under, (hp _ _).2, if_true, Bool.false_eq_true, if_false] <;> rfl

theorem scoped_next_bind {α : Type} {f : Bool → Prog α} (h1 : ScopedOn (f true)) (h2 : Scoped (f false)) :
    Scoped (Prog.next >>= f) := by
  intro c
  refine scopedAt_bind (scoped_next c) fun a ha => ?_
  simp only [Prog.next, Res.ok.injEq] at ha ⊢
  cases a
  · exact h2 _
  · exact h1 _ (c.next_some_of_true ha)

theorem scoped_whileNextGo {α : Type} {p : Prog α} (hp : ScopedOn p) (fuel : Nat) :
    Scoped (whileNextGo p fuel) := by
  induction fuel with
  | zero => exact scoped_ub _
  | succ fuel ih =>
    exact scoped_next_bind (scopedOn_bind hp fun a => (scoped_bind ih fun as => scoped_pure _).on) (scoped_pure _)

theorem scoped_whileNext {α : Type} {p : Prog α} (hp : ScopedOn p) : Scoped (whileNext p) :=
  fun c => ⟨(scoped_whileNextGo hp _ c).1, fun u => (scoped_whileNextGo hp _ c).2 u⟩

theorem Cursor.under_type (c : Cursor) (u : List (List Node × Atom × List Node)) : (c.under u).type = c.type := rfl
theorem Cursor.under_val (c : Cursor) (u : List (List Node × Atom × List Node)) : (c.under u).val = c.val := rfl

theorem scoped_attest (t : PnType) (m : String) : Scoped (attest t m) := by
  intro c
  refine ⟨?_, fun u => ?_⟩
  · unfold attest; split <;> exact Keeps.refl c
  · simp only [attest, Cursor.under_type]; by_cases h : c.type = t <;> simp [h]

theorem guard_attest (t : PnType) (m : String) (ht : t ≠ .invalid) : Guard (attest t m) := by
  intro c a h
  unfold attest at h ⊢
  split at h
  · rename_i e
    simp only [e, if_true]
    unfold Cursor.type at e
    cases hc : c.cur with
    | none => rw [hc] at e; exact absurd e.symm ht
    | some n => rfl
  · simp at h

theorem scoped_getString (b : Bool) : Scoped (getString b) := by
  intro c
  refine ⟨?_, fun u => ?_⟩
  · unfold getString; split <;> (try split) <;> exact Keeps.refl c
  · simp only [getString, Cursor.under_val]; split <;> (try split) <;> rfl

theorem guard_getString (b : Bool) : Guard (getString b) := by
  intro c a h
  unfold getString at h ⊢
  cases hc : c.cur with
  | none => simp [Cursor.val, hc] at h
  | some n => split <;> (try split) <;> simp [hc]

theorem scoped_getBoolean : Scoped getBoolean := by
  intro c
  refine ⟨?_, fun u => ?_⟩
  · unfold getBoolean; split <;> exact Keeps.refl c
  · simp only [getBoolean, Cursor.under_val]; split <;> rfl

theorem guard_getBoolean : Guard getBoolean := by
  intro c a h
  unfold getBoolean at h ⊢
  cases hc : c.cur with
  | none => simp [Cursor.val, hc] at h
  | some n => split <;> simp [hc]

theorem scoped_getSymbol : Scoped getSymbol := scoped_bind (scoped_attest _ _) (fun _ => scoped_look _)

theorem guard_getSymbol : Guard getSymbol := by
  intro c a h
  cases hc : c.cur with
  | none =>
    have : isSymbol c = (.throw "Expected an unsigned long", c) := by
      simp [isSymbol, attest, Cursor.type, hc]
    unfold getSymbol at h
    rw [bind_of_throw this] at h
    simp at h
  | some n => exact (scoped_getSymbol c).1.2.2 (by simp [hc])

theorem scoped_readString (b : Bool) : Scoped (readString b) := by
  apply scoped_autoNext
  intro c
  refine ⟨?_, fun u => ?_⟩
  · dsimp only
    split <;> (try split) <;> exact Keeps.refl c
  · simp only [Cursor.under_val]; split <;> (try split) <;> rfl

theorem guard_readString (b : Bool) : Guard (readString b) := by
  intro c a h
  cases hc : c.cur with
  | none => simp [readString, autoNext, Cursor.val, hc] at h
  | some n => exact (scoped_readString b c).1.2.2 (by simp [hc])

theorem scoped_attestString (b : Bool) : Scoped (attestString b) := by
  intro c
  refine ⟨?_, fun u => ?_⟩
  · unfold attestString; split <;> (try split) <;> exact Keeps.refl c
  · simp only [attestString, Cursor.under_type]
    by_cases h : c.type = .string <;> by_cases h' : c.type = .null <;> cases b <;> simp [h, h']

end Corda
