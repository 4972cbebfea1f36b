import Verif.Lemmas.Safe
import Verif.Lemmas.SchemaDump
import Verif.Lemmas.Avro
import Verif.Spec.Showable

/-
Stepping lemmas for the absence of undefined behaviour in the schema dumps.
-/

namespace Corda
open Prog Spec

/-- No undefined behaviour. -/
abbrev Fine {α : Type} (r : Res α) : Prop := r.Sat (fun _ => True)

theorem Fine.of_defined {α : Type} {r : Res α} (h : r.Defined) : Fine r := by
  cases r <;> first | trivial | exact h

theorem safe_true {α : Type} {P : Cursor → Prop} {Q : α → Cursor → Prop} {p : Prog α} (h : Safe P p Q) :
    Safe P p (fun _ _ => True) := fun c hc => (h c hc).mono fun _ _ => trivial

theorem safe_autoNext {α : Type} {ps : List Node} {i : Nat} {p : Prog α} {Q : α → Prop}
    (h : Safe (Pos ps i) p (fun a c => Pos ps i c ∧ Q a)) :
    Safe (Pos ps i) (autoNext p) (fun a c => Pos ps (i + 1) c ∧ Q a) :=
  fun c hc => (h c hc).mono fun _ ⟨h1, h2⟩ => ⟨h1.next, h2⟩

theorem safe_attest {ps : List Node} {i : Nat} (t : PnType) (s : String) :
    Safe (Pos ps i) (attest t s) (fun _ c => Pos ps i c ∧ (t ≠ .invalid → ∃ m, nth ps i = some m ∧ m.val.type = t)) := by
  intro c hc
  unfold attest
  by_cases h : c.type = t
  · rw [if_pos h]
    refine ⟨hc, fun hi => ?_⟩
    unfold Cursor.type at h
    cases hn : c.cur with
    | none => rw [hn] at h; exact absurd h.symm hi
    | some m => rw [hn] at h; exact ⟨m, by rw [← hc.1, hn], h⟩
  · rw [if_neg h]; trivial

theorem safe_attestString {ps : List Node} {i : Nat} (b : Bool) :
    Safe (Pos ps i) (attestString b) (fun _ c => Pos ps i c) := by
  intro c hc
  unfold attestString
  split
  · split <;> first | trivial | exact hc
  · exact hc

theorem safe_getSymbol {ps : List Node} {i : Nat} : Safe (Pos ps i) getSymbol (fun _ c => Pos ps i c ∧ True) := by
  unfold getSymbol isSymbol
  exact safe_bind (safe_attest _ _) fun _ => fun c hc => ⟨hc.1, trivial⟩

/-- A loop whose body has no undefined behaviour on any of the elements. -/
theorem forNextGo_fine {body : Nat → Prog Str} {P : Node → Prop}
    (h : ∀ i c n, c.cur = some n → P n → (body i c).2 = c ∧ Fine (body i c).1) (fuel i : Nat) (c : Cursor)
    (hf : c.rest.length < fuel) (hc : ∀ n ∈ c.rest, P n) : Fine (forNextGo body fuel i c).1 := by
  induction fuel generalizing c i with
  | zero => omega
  | succ fuel ih =>
    obtain ⟨p, cu, r, u⟩ := c
    cases r with
    | nil => trivial
    | cons n ns =>
      unfold forNextGo
      rw [bind_of_ok (next_cons p cu n ns u)]
      simp only [if_true]
      obtain ⟨h1, h2⟩ := h i ⟨cu.toList ++ p, some n, ns, u⟩ n rfl (hc n (by simp))
      have ih := ih (i + 1) ⟨cu.toList ++ p, some n, ns, u⟩ (by simp at hf ⊢; omega) (fun m hm => hc m (by simp [hm]))
      rw [bind_def]
      rcases hb : body i ⟨cu.toList ++ p, some n, ns, u⟩ with ⟨r, c'⟩
      rw [hb] at h1 h2
      cases r with
      | throw m => trivial
      | ub m => exact h2
      | ok a =>
        simp only at h1
        subst h1
        simp only [bind_def]
        rcases hw : forNextGo body fuel (i + 1) ⟨cu.toList ++ p, some n, ns, u⟩ with ⟨r, c'⟩
        rw [hw] at ih
        cases r <;> first | trivial | exact ih

theorem forNext_fine {body : Nat → Prog Str} {P : Node → Prop}
    (h : ∀ i c n, c.cur = some n → P n → (body i c).2 = c ∧ Fine (body i c).1) (c : Cursor)
    (hc : ∀ n ∈ c.rest, P n) : Fine (forNext body c).1 := forNextGo_fine h _ _ c (Nat.lt_succ_self _) hc

theorem enter_rest {c : Cursor} {m : Node} (h : c.cur = some m) : c.enter.rest = m.kids := by
  obtain ⟨p, cu, r, u⟩ := c
  simp only at h
  subst h
  cases m; rfl

/-- Entering a part that exists: the position is kept. -/
theorem safe_listEnter {α : Type} {ps : List Node} {i : Nat} (hne : ps ≠ []) {p : Nat → Prog α} (hp : ∀ n, Scoped (p n))
    (h : ∀ m c, nth ps i = some m → c.rest = m.kids → ∀ k, Fine (p k c).1) :
    Safe (Pos ps i) (autoListEnter p) (fun _ c => Pos ps i c ∧ True) := by
  intro c hc
  obtain ⟨m, hm⟩ := nth_isSome i hne
  have hcur : c.cur = some m := by rw [hc.1, hm]
  rw [autoListEnter_eq hp (by simp [hcur])]
  simp only [Bool.false_eq_true, if_false]
  exact (h m _ hm (enter_rest hcur) _).mono fun _ _ => ⟨hc, trivial⟩

/-- The same, starting at the first element. -/
theorem safe_listEnterNext {ps : List Node} {i : Nat} {p : Nat → Prog Str} (hp : ∀ n, Scoped (p n)) (hne : ps ≠ [])
    (h : ∀ m k, nth ps i = some m → (k = if m.val = .list then m.kids.length else 0) →
      Safe (Pos m.kids 0) (p k) (fun _ _ => True)) :
    Safe (Pos ps i) (autoListEnter p true) (fun _ c => Pos ps i c ∧ True) := by
  intro c hc
  obtain ⟨m, hm⟩ := nth_isSome i hne
  have hcur : c.cur = some m := by rw [hc.1, hm]
  rw [autoListEnter_eq hp (by simp [hcur])]
  simp only [if_true]
  obtain ⟨u, hu⟩ := enter_next_start c m hcur
  rw [hu, (hp _ _).2]
  refine (h m _ hm ?_ _ (pos_start _)).mono fun _ _ => ⟨hc, trivial⟩
  unfold Cursor.getList
  rw [hcur]
  cases m with
  | mk v ks => cases v <;> simp [Node.val, Node.kids]

/-- Dispatching on a part. -/
theorem safe_byType {ps : List Node} {i : Nat} (hne : ps ≠ []) {base : Prog Str} {r : Node → Res Str}
    (hb : ∀ c n, c.cur = some n → base c = (r n, c)) (hd : ∀ m, nth ps i = some m → m.val = .described)
    (h : ∀ m, nth ps i = some m → Fine (r m)) : Safe (Pos ps i) (byType base) (fun _ c => Pos ps i c ∧ True) := by
  intro c hc
  obtain ⟨m, hm⟩ := nth_isSome i hne
  have hcur : c.cur = some m := by rw [hc.1, hm]
  unfold byType
  rw [bind_of_ok (show look Cursor.type c = (.ok c.type, c) from rfl)]
  rw [if_pos (show c.type = .described by simp [Cursor.type, hcur, hd m hm, Atom.type]), hb c m hcur]
  exact (h m hm).mono fun _ _ => ⟨hc, trivial⟩

/-- Dispatching on an element of a list. -/
theorem byType_fine {base : Prog Str} {r : Node → Res Str} (hb : ∀ c n, c.cur = some n → base c = (r n, c)) {c : Cursor}
    {n : Node} (hc : c.cur = some n) (hd : n.val = .described) (h : Fine (r n)) (f : Str → Str) :
    (((byType base >>= fun x => pure (f x)) : Prog Str) c).2 = c
      ∧ Fine (((byType base >>= fun x => pure (f x)) : Prog Str) c).1 := by
  have : byType base c = (r n, c) := by
    unfold byType
    rw [bind_of_ok (show look Cursor.type c = (.ok c.type, c) from rfl)]
    rw [if_pos (show c.type = .described by simp [Cursor.type, hc, hd, Atom.type]), hb c n hc]
  rw [bind_def, this]
  cases hr : r n with
  | ok a => exact ⟨rfl, trivial⟩
  | throw m => exact ⟨rfl, trivial⟩
  | ub m => rw [hr] at h; exact absurd h (by simp [Fine, Res.Sat])

/-- A list of strings. -/
theorem strings_fine (f : Str → Str) {c : Cursor} {n : Node} (hc : c.cur = some n) :
    (((getString >>= fun x => pure (f x)) : Prog Str) c).2 = c ∧ Fine (((getString >>= fun x => pure (f x)) : Prog Str) c).1 := by
  rw [bind_def, getString_at hc]
  cases n with
  | mk v ks => cases v <;> exact ⟨rfl, trivial⟩

/-- A body in an entered node. -/
theorem autoEnter_fine {p : Prog Str} (hp : Scoped p) {m : Node} {c : Cursor} (hc : c.cur = some m)
    (h : Safe (Pos m.kids 0) p (fun _ _ => True)) : Fine (autoEnter p false c).1 := by
  rw [autoEnter_eq hp (by simp [hc])]
  simp only [Bool.false_eq_true, if_false]
  obtain ⟨u, hu⟩ := enter_next_start c m hc
  rw [hu, (hp _).2]
  exact h _ (pos_start _)

/-- The part after an attested list. -/
theorem safe_attestList_enter {ps : List Node} {i : Nat} {p : Prog Str} (hp : Scoped p)
    (h : ∀ m, nth ps i = some m → m.val.type = .list → Safe (Pos m.kids 0) p (fun _ _ => True)) :
    Safe (Pos ps i) (attestList >>= fun _ => autoEnter p) (fun _ _ => True) := by
  refine safe_bind (safe_attest _ _) fun _ => ?_
  intro c ⟨hc, hm⟩
  obtain ⟨m, hm, ht⟩ := hm (by decide)
  exact autoEnter_fine hp (by rw [hc.1, hm]) (h m hm ht)

theorem node_height_lt {n m : Node} (h : m ∈ n.kids) : m.height < n.height := by
  cases n with
  | mk v ks =>
    simp only [Node.kids] at h
    simp only [Node.height]
    have : m.height ≤ Node.height.heights ks := by
      induction ks with
      | nil => simp at h
      | cons k ks ih =>
        simp only [Node.height.heights]
        rcases List.mem_cons.mp h with rfl | h
        · omega
        · have := ih h; omega
    omega

theorem nth_height {n m : Node} {i : Nat} (h : nth n.kids i = some m) : m.height < n.height := node_height_lt (nth_mem h)

theorem parts_height {n m : Node} (h : m ∈ parts n) : m.height + 1 < n.height := by
  unfold parts at h
  split at h
  · rename_i l hl
    have := node_height_lt h
    have := nth_height hl
    omega
  · simp at h

end Corda
