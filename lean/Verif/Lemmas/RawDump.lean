import Verif.Model.RawDump
import Verif.Lemmas.Readers

/-
The dump of the payload without the schema: it stays in its level and has no undefined behaviour of its own.
-/

namespace Corda
open Prog Spec

theorem on_of_type {c : Cursor} (h : c.type ≠ .invalid) : c.cur.isSome = true := by
  unfold Cursor.type at h
  cases hc : c.cur with
  | none => simp [hc] at h
  | some n => rfl

theorem scoped_rawPrimitive : Scoped rawPrimitive := by
  unfold rawPrimitive
  refine scoped_bind (scoped_look _) fun t => ?_
  cases t <;> dsimp only <;> first
    | exact scoped_pure _
    | exact scoped_bind (scoped_look _) fun _ => scoped_pure _
    | exact scoped_bind (scoped_getString _) fun _ => scoped_pure _

theorem scopedOn_rawElem {rec : PnType → Prog Val} (h : ∀ t, ScopedOn (rec t)) :
    ScopedOn (do let t ← look Cursor.type; rec t : Prog Val) :=
  scopedOn_bind (scoped_look _).on h

theorem scoped_rawList {rec : PnType → Prog Val} (h : ∀ t, ScopedOn (rec t)) : Scoped (rawList rec) := by
  unfold rawList
  refine scoped_guard_bind (scoped_attest _ _) (guard_attest _ _ (by simp)) fun _ => ?_
  refine scopedOn_autoListEnter fun _ => ?_
  intro c
  refine scopedAt_bind ((scoped_look (α := PnType) Cursor.type (by intros; rfl)) c) fun t ht => ?_
  simp only [look, Res.ok.injEq] at ht ⊢
  by_cases hi : t = .invalid
  · rw [if_pos hi]; exact scoped_pure _ c
  · rw [if_neg hi]
    have hs : c.cur.isSome = true := on_of_type (ht ▸ hi)
    exact (scopedOn_bind (scopedOn_rawElem h) fun v => (scoped_bind (scoped_whileNext (scopedOn_rawElem h))
      fun vs => scoped_pure _).on) c hs

theorem scopedOn_times {α : Type} {p : Prog α} (h : ScopedOn p) : (n : Nat) → ScopedOn (times p n)
  | 0 => (scoped_pure _).on
  | n + 1 => scopedOn_bind h fun _ => scopedOn_bind (scopedOn_times h n) fun _ => (scoped_pure _).on

theorem scopedOn_rawStep {rec : PnType → Prog Val} (h : ∀ t, ScopedOn (rec t)) : ScopedOn (rawStep rec) :=
  scopedOn_bind (scoped_autoNext (scoped_look _)).on h

theorem scopedOn_rawPair {rec : PnType → Prog Val} (h : ∀ t, ScopedOn (rec t)) : ScopedOn (rawPair rec) :=
  scopedOn_bind (scopedOn_rawStep h) fun _ => scopedOn_bind (scopedOn_rawStep h) fun _ =>
    scopedOn_bind scoped_next.on fun _ => (scoped_pure _).on

theorem scoped_rawMap {rec : PnType → Prog Val} (h : ∀ t, ScopedOn (rec t)) : Scoped (rawMap rec) := by
  unfold rawMap
  refine scoped_guard_bind (scoped_attest _ _) (guard_attest _ _ (by simp)) fun _ => ?_
  refine scopedOn_autoMapEnter fun n => ?_
  intro c
  refine scopedAt_bind ((scoped_look (α := PnType) Cursor.type (by intros; rfl)) c) fun t ht => ?_
  simp only [look, Res.ok.injEq] at ht ⊢
  by_cases hi : t = .invalid
  · rw [if_pos hi]; exact scoped_pure _ c
  · rw [if_neg hi]
    exact scopedOn_times (scopedOn_rawPair h) _ c (on_of_type (ht ▸ hi))

theorem scopedOn_rawDescribed {rec : PnType → Prog Val} (h : ∀ t, ScopedOn (rec t)) : ScopedOn (rawDescribed rec) := by
  unfold rawDescribed
  refine scopedOn_autoEnter ?_
  refine scoped_bind (scoped_readString _) fun fp => scoped_bind (scoped_look _) fun t => ?_
  refine scoped_ite (scoped_bind (scoped_rawList h) fun _ => scoped_pure _) ?_
  exact scoped_ite (scoped_bind (scoped_rawMap h) fun _ => scoped_pure _) (scoped_throw _)

theorem scopedOn_rawAs_succ {fuel : Nat} (ih : ∀ t, ScopedOn (rawAs fuel t)) (t : PnType) : ScopedOn (rawAs (fuel + 1) t) := by
  have hp := scoped_rawPrimitive.on
  cases t
  case list => exact (scoped_bind (scoped_rawList ih) fun _ => scoped_pure _).on
  case map => exact (scoped_bind (scoped_rawMap ih) fun _ => scoped_pure _).on
  case described => exact scopedOn_rawDescribed ih
  all_goals exact hp

theorem scopedOn_rawAs (fuel : Nat) : ∀ t : PnType, ScopedOn (rawAs fuel t) := by
  induction fuel with
  | zero => exact fun _ => (scoped_ub _).on
  | succ fuel ih => exact scopedOn_rawAs_succ ih

/-- Dumping a node leaves the cursor on it. -/
def Still {α : Type} (p : Prog α) : Prop := ∀ c, c.cur.isSome = true → (p c).2 = c

theorem still_bind {α β : Type} {p : Prog α} {f : α → Prog β} (hp : Still p) (hf : ∀ a, Still (f a)) :
    Still (p >>= f) := by
  intro c hc
  have h1 := hp c hc
  rw [bind_def]
  rcases hpc : p c with ⟨r, c'⟩
  rw [hpc] at h1
  simp only at h1
  subst h1
  cases r with
  | ok a => exact hf a _ hc
  | throw m => rfl
  | ub m => rfl

theorem still_pure {α : Type} (a : α) : Still (pure a : Prog α) := fun _ _ => rfl
theorem still_look {α : Type} (f : Cursor → α) : Still (look f) := fun _ _ => rfl
theorem still_attest (t : PnType) (m : String) : Still (attest t m) := by
  intro c _
  unfold attest
  split <;> rfl
theorem still_getString (b : Bool) : Still (getString b) := by
  intro c _
  unfold getString
  split <;> (try split) <;> rfl

theorem still_rawPrimitive : Still rawPrimitive := by
  unfold rawPrimitive
  refine still_bind (still_look _) fun t => ?_
  cases t <;> dsimp only <;> first
    | exact still_pure _
    | exact still_bind (still_look _) fun _ => still_pure _
    | exact still_bind (still_getString _) fun _ => still_pure _

theorem still_autoEnter {α : Type} {p : Prog α} {nx : Bool} (hp : Scoped p) : Still (autoEnter p nx) := by
  intro c hc
  rw [autoEnter_eq hp hc]

theorem scoped_listBody {rec : PnType → Prog Val} (h : ∀ t, ScopedOn (rec t)) : Scoped (do
    let t ← look Cursor.type
    if t = .invalid then pure [.single emptyListText]
    else do
      let elem : Prog Val := do
        let t ← look Cursor.type
        rec t
      let v ← elem
      let vs ← whileNext elem
      pure (v :: vs) : Prog (List Val)) := by
  intro c
  refine scopedAt_bind ((scoped_look (α := PnType) Cursor.type (by intros; rfl)) c) fun t ht => ?_
  simp only [look, Res.ok.injEq] at ht ⊢
  by_cases hi : t = .invalid
  · rw [if_pos hi]; exact scoped_pure _ c
  · rw [if_neg hi]
    have hs : c.cur.isSome = true := on_of_type (ht ▸ hi)
    exact (scopedOn_bind (scopedOn_rawElem h) fun v => (scoped_bind (scoped_whileNext (scopedOn_rawElem h))
      fun vs => scoped_pure _).on) c hs

theorem scoped_mapBody {rec : PnType → Prog Val} (h : ∀ t, ScopedOn (rec t)) (n : Nat) : Scoped (do
    let t ← look Cursor.type
    if t = .invalid then pure [.single emptyMapText]
    else times (rawPair rec) ((n + 1) / 2) : Prog (List Val)) := by
  intro c
  refine scopedAt_bind ((scoped_look (α := PnType) Cursor.type (by intros; rfl)) c) fun t ht => ?_
  simp only [look, Res.ok.injEq] at ht ⊢
  by_cases hi : t = .invalid
  · rw [if_pos hi]; exact scoped_pure _ c
  · rw [if_neg hi]
    exact scopedOn_times (scopedOn_rawPair h) _ c (on_of_type (ht ▸ hi))

theorem still_rawList {rec : PnType → Prog Val} (h : ∀ t, ScopedOn (rec t)) : Still (rawList rec) :=
  still_bind (still_attest _ _) fun _ c hc => by rw [autoListEnter_eq (fun _ => scoped_listBody h) hc]

theorem still_rawMap {rec : PnType → Prog Val} (h : ∀ t, ScopedOn (rec t)) : Still (rawMap rec) :=
  still_bind (still_attest _ _) fun _ c hc => by rw [autoMapEnter_eq (scoped_mapBody h) hc]

theorem scoped_describedBody {rec : PnType → Prog Val} (h : ∀ t, ScopedOn (rec t)) : Scoped (do
    let fp ← Prog.readString
    let t ← look Cursor.type
    if t = .list then do
      let vs ← rawList rec
      pure (.pairList fp vs)
    else if t = .map then do
      let vs ← rawMap rec
      pure (.pairList fp vs)
    else throw "Described data must be either a list or map" : Prog Val) := by
  refine scoped_bind (scoped_readString _) fun fp => scoped_bind (scoped_look _) fun t => ?_
  refine scoped_ite (scoped_bind (scoped_rawList h) fun _ => scoped_pure _) ?_
  exact scoped_ite (scoped_bind (scoped_rawMap h) fun _ => scoped_pure _) (scoped_throw _)

theorem still_rawDescribed {rec : PnType → Prog Val} (h : ∀ t, ScopedOn (rec t)) : Still (rawDescribed rec) :=
  still_autoEnter (scoped_describedBody h)

theorem still_rawAs (fuel : Nat) (t : PnType) : Still (rawAs fuel t) := by
  cases fuel with
  | zero => exact fun _ _ => rfl
  | succ fuel =>
    have hs := scopedOn_rawAs fuel
    have hp := still_rawPrimitive
    cases t
    case list => exact still_bind (still_rawList hs) fun _ => still_pure _
    case map => exact still_bind (still_rawMap hs) fun _ => still_pure _
    case described => exact still_rawDescribed hs
    all_goals exact hp

/-! ### No undefined behaviour -/

/-- On a node of a level of at most that height there is no undefined behaviour. -/
def Mild {α : Type} (h : Nat) (p : Prog α) : Prop := ∀ c, c.cur.isSome = true → Low h c → (p c).1.Defined

/-- The same for every position. -/
def MildAll {α : Type} (h : Nat) (p : Prog α) : Prop := ∀ c, Low h c → (p c).1.Defined

theorem mild_bind {α β : Type} {h : Nat} {p : Prog α} {f : α → Prog β} (hp : Mild h p) (hs : ScopedOn p)
    (hf : ∀ a, Mild h (f a)) : Mild h (p >>= f) := by
  intro c hc hl
  have h1 := hp c hc hl
  have h2 := (hs c hc).1
  rw [bind_def]
  rcases hpc : p c with ⟨r, c'⟩
  rw [hpc] at h1 h2
  cases r with
  | ok a => exact hf a c' (h2.2.2 hc) (hl.keeps h2)
  | throw m => trivial
  | ub m => exact h1

theorem mild_look {α : Type} {h : Nat} (f : Cursor → α) : MildAll h (look f) := fun _ _ => trivial
theorem mild_pure {α : Type} {h : Nat} (a : α) : MildAll h (pure a : Prog α) := fun _ _ => trivial
theorem mild_throw {α : Type} {h : Nat} (m : String) : MildAll h (Prog.throw m : Prog α) := fun _ _ => trivial
theorem MildAll.on {α : Type} {h : Nat} {p : Prog α} (hp : MildAll h p) : Mild h p := fun c _ hl => hp c hl

theorem mildAll_bind {α β : Type} {h : Nat} {p : Prog α} {f : α → Prog β} (hp : MildAll h p) (hs : Scoped p)
    (hf : ∀ a, MildAll h (f a)) : MildAll h (p >>= f) := by
  intro c hl
  have h1 := hp c hl
  have h2 := (hs c).1
  rw [bind_def]
  rcases hpc : p c with ⟨r, c'⟩
  rw [hpc] at h1 h2
  cases r with
  | ok a => exact hf a c' (hl.keeps h2)
  | throw m => trivial
  | ub m => exact h1

theorem mildAll_guard {α β : Type} {h : Nat} {p : Prog α} {f : α → Prog β} (hp : MildAll h p) (hs : Scoped p)
    (hg : Guard p) (hf : ∀ a, Mild h (f a)) : MildAll h (p >>= f) := by
  intro c hl
  have h1 := hp c hl
  have h2 := (hs c).1
  have h3 := hg c
  rw [bind_def]
  rcases hpc : p c with ⟨r, c'⟩
  rw [hpc] at h1 h2 h3
  cases r with
  | ok a => exact hf a c' (h3 a rfl) (hl.keeps h2)
  | throw m => trivial
  | ub m => exact h1

theorem mild_attest {h : Nat} (t : PnType) (m : String) : MildAll h (attest t m) := by
  intro c _
  unfold attest
  split <;> trivial

theorem mild_getString {h : Nat} (b : Bool) : MildAll h (getString b) := by
  intro c _
  unfold getString
  split <;> (try split) <;> trivial

theorem mild_readString {h : Nat} (b : Bool) : MildAll h (Prog.readString b) := by
  intro c _
  unfold Prog.readString autoNext
  dsimp only
  split <;> (try split) <;> trivial

theorem mild_rawPrimitive {h : Nat} : MildAll h rawPrimitive := by
  unfold rawPrimitive
  refine mildAll_bind (mild_look _) (scoped_look _) fun t => ?_
  cases t <;> dsimp only <;> first
    | exact mild_pure _
    | exact mildAll_bind (mild_look _) (scoped_look _) fun _ => mild_pure _
    | exact mildAll_bind (mild_getString _) (scoped_getString _) fun _ => mild_pure _

theorem mild_whileNext {α : Type} {h : Nat} {p : Prog α} (hp : Mild h p) (hs : Still p) : MildAll h (whileNext p) := by
  intro c hl
  unfold whileNext
  have : ∀ fuel c, Low h c → c.rest.length < fuel → (whileNextGo p fuel c).1.Defined := by
    intro fuel
    induction fuel with
    | zero => intro c _ hf; omega
    | succ fuel ih =>
      intro c hl hf
      obtain ⟨pr, cu, re, up⟩ := c
      cases re with
      | nil => trivial
      | cons n ns =>
        unfold whileNextGo
        rw [bind_of_ok (next_cons pr cu n ns up)]
        simp only [if_true]
        have hl1 : Low h ⟨cu.toList ++ pr, some n, ns, up⟩ := hl.keeps (Cursor.next_keeps ⟨pr, cu, n :: ns, up⟩)
        have h1 := hp ⟨cu.toList ++ pr, some n, ns, up⟩ rfl hl1
        have h2 := hs ⟨cu.toList ++ pr, some n, ns, up⟩ rfl
        rw [bind_def]
        rcases hpc : p ⟨cu.toList ++ pr, some n, ns, up⟩ with ⟨r, c'⟩
        rw [hpc] at h1 h2
        cases r with
        | throw m => trivial
        | ub m => exact h1
        | ok a =>
          simp only at h2
          subst h2
          have := ih _ hl1 (by simp only [List.length_cons] at hf ⊢; omega)
          simp only
          rw [bind_def]
          rcases hw : whileNextGo p fuel ⟨cu.toList ++ pr, some n, ns, up⟩ with ⟨r', c''⟩
          rw [hw] at this
          cases r' with
          | ok as => trivial
          | throw m => trivial
          | ub m => exact this
  exact this _ c hl (Nat.lt_succ_self _)

/-- Entering a list costs one level. -/
theorem mild_autoListEnter {α : Type} {h : Nat} {p : Nat → Prog α} {nx : Bool} (hp : ∀ n, MildAll h (p n)) :
    Mild (h + 1) (autoListEnter p nx) := by
  intro c hc hl
  unfold autoListEnter scope
  have := hl.enter hc
  cases nx
  · exact hp _ _ this
  · exact hp _ _ (this.keeps (Cursor.next_keeps _))

theorem mild_autoMapEnter {α : Type} {h : Nat} {p : Nat → Prog α} {nx : Bool} (hp : ∀ n, MildAll h (p n)) :
    Mild (h + 1) (autoMapEnter p nx) := by
  intro c hc hl
  unfold autoMapEnter scope
  have := hl.enter hc
  cases nx
  · exact hp _ _ this
  · exact hp _ _ (this.keeps (Cursor.next_keeps _))

theorem mild_autoEnter {α : Type} {h : Nat} {p : Prog α} {nx : Bool} (hp : MildAll h p) :
    Mild (h + 1) (autoEnter p nx) := by
  intro c hc hl
  unfold autoEnter scope
  have := hl.enter hc
  cases nx
  · exact hp _ (this.keeps (Cursor.next_keeps _))
  · exact hp _ ((this.keeps (Cursor.next_keeps _)).keeps (Cursor.next_keeps _))

theorem Mild.mono {α : Type} {h h' : Nat} {p : Prog α} (hp : Mild h' p) (hl : h ≤ h') : Mild h p :=
  fun c hc hw => hp c hc (hw.mono hl)

theorem mild_times {α : Type} {h : Nat} {p : Prog α} (hp : Mild h p) (hs : ScopedOn p) : (n : Nat) → Mild h (times p n)
  | 0 => (mild_pure _).on
  | n + 1 => mild_bind hp hs fun _ => mild_bind (mild_times hp hs n) (scopedOn_times hs n) fun _ => (mild_pure _).on

section
variable {h : Nat} {rec : PnType → Prog Val} (hs : ∀ t, ScopedOn (rec t)) (hk : ∀ t, Still (rec t))
  (hm : ∀ t, Mild h (rec t))
include hs hm

theorem mild_rawMap : MildAll (h + 1) (rawMap rec) := by
  unfold rawMap
  refine mildAll_guard (mild_attest _ _) (scoped_attest _ _) (guard_attest _ _ (by simp)) fun _ => ?_
  refine mild_autoMapEnter fun n => ?_
  intro c hl
  rw [bind_def]
  simp only [look]
  by_cases hi : c.type = .invalid
  · rw [if_pos hi]; trivial
  · rw [if_neg hi]
    have hstep : Mild h (rawStep rec) :=
      mild_bind (fun _ _ _ => trivial) (scoped_autoNext (scoped_look _)).on hm
    have hpair : Mild h (rawPair rec) :=
      mild_bind hstep (scopedOn_rawStep hs) fun _ => mild_bind hstep (scopedOn_rawStep hs) fun _ =>
        mild_bind (fun _ _ _ => trivial) scoped_next.on fun _ => (mild_pure _).on
    exact mild_times hpair (scopedOn_rawPair hs) _ c (on_of_type hi) hl

include hk

theorem mild_rawList : MildAll (h + 1) (rawList rec) := by
  unfold rawList
  refine mildAll_guard (mild_attest _ _) (scoped_attest _ _) (guard_attest _ _ (by simp)) fun _ => ?_
  refine mild_autoListEnter fun n => ?_
  intro c hl
  rw [bind_def]
  simp only [look]
  by_cases hi : c.type = .invalid
  · rw [if_pos hi]; trivial
  · rw [if_neg hi]
    have he : Mild h (do let t ← look Cursor.type; rec t : Prog Val) :=
      mild_bind (mild_look _).on (scoped_look _).on hm
    have hk' : Still (do let t ← look Cursor.type; rec t : Prog Val) := still_bind (still_look _) hk
    exact mild_bind he (scopedOn_rawElem hs) (fun v => (mildAll_bind (mild_whileNext he hk')
      (scoped_whileNext (scopedOn_rawElem hs)) fun vs => mild_pure _).on) c (on_of_type hi) hl

theorem mild_rawDescribed : Mild (h + 2) (rawDescribed rec) := by
  unfold rawDescribed
  refine mild_autoEnter ?_
  refine mildAll_bind (mild_readString _) (scoped_readString _) fun fp => ?_
  refine mildAll_bind (mild_look _) (scoped_look _) fun t => ?_
  split
  · exact mildAll_bind (mild_rawList hs hk hm) (scoped_rawList hs) fun _ => mild_pure _
  split
  · exact mildAll_bind (mild_rawMap hs hm) (scoped_rawMap hs) fun _ => mild_pure _
  · exact mild_throw _

end

theorem mild_zero {α : Type} (p : Prog α) : Mild 0 p := by
  intro c hc hl
  obtain ⟨n, hn⟩ := Option.isSome_iff_exists.mp hc
  have h1 := hl n (by simp [Cursor.level, hn])
  have := height_pos n
  omega

theorem mild_rawAs (fuel : Nat) : ∀ t, Mild fuel (rawAs fuel t) := by
  induction fuel with
  | zero => exact fun t => mild_zero _
  | succ fuel ih =>
    intro t
    have hs := scopedOn_rawAs fuel
    have hk := still_rawAs fuel
    have hp := (mild_rawPrimitive (h := fuel + 1)).on
    cases t
    case list => exact (mildAll_bind (mild_rawList hs hk ih) (scoped_rawList hs) fun _ => mild_pure _).on
    case map => exact (mildAll_bind (mild_rawMap hs ih) (scoped_rawMap hs) fun _ => mild_pure _).on
    case described => exact (mild_rawDescribed hs hk ih).mono (by omega)
    all_goals exact hp

end Corda
