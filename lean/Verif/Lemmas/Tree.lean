import Verif.Lemmas.Fuel

/-
Evaluating cursor programs: reading is a function of the node under the cursor, writing appends nodes.
-/

namespace Corda
open Prog

theorem next_cons (p : List Node) (cu : Option Node) (n : Node) (ns : List Node)
    (u : List (List Node × Atom × List Node)) :
    Prog.next ⟨p, cu, n :: ns, u⟩ = (.ok true, ⟨cu.toList ++ p, some n, ns, u⟩) := rfl

theorem put_def (v : Atom) (c : Cursor) : put v c = (.ok (), c.put v) := rfl

/-! Reading. -/

/-- What `dispatchDescribed` makes of a node. -/
def readNode (fuel : Nat) (n : Node) : Res Element := (dispatch fuel (Cursor.root n)).1

theorem dispatch_at (fuel : Nat) {c : Cursor} {n : Node} (h : c.cur = some n) :
    dispatch fuel c = (readNode fuel n, c) := by
  unfold readNode
  cases fuel with
  | zero => rfl
  | succ fuel =>
    have hs := scoped_dispatchBody (scoped_dispatch fuel)
    unfold dispatch
    by_cases ht : n.val.type = .described
    · have h1 : attestDescribed c = (.ok (), c) := by
        simp [attestDescribed, attest, Cursor.type, h, ht]
      have h2 : attestDescribed (Cursor.root n) = (.ok (), Cursor.root n) := by
        simp [attestDescribed, attest, Cursor.type, Cursor.root, ht]
      rw [bind_of_ok h1, bind_of_ok h2, autoEnter_eq hs (by simp [h]), autoEnter_eq hs (by simp [Cursor.root])]
      simp only [Prod.mk.injEq, and_true, Bool.false_eq_true, if_false]
      obtain ⟨p, cu, r, u⟩ := c
      simp only at h
      subst h
      cases n with
      | mk v ks =>
        have : (Cursor.enter ⟨p, some (.mk v ks), r, u⟩).next.2
            = ((Cursor.root (.mk v ks)).enter.next.2).under ((p, v, r) :: u) := by
          cases ks <;> rfl
        rw [this, (hs _).2]
    · have h1 : attestDescribed c = (.throw "Expected a Described type", c) := by
        simp [attestDescribed, attest, Cursor.type, h, ht]
      have h2 : attestDescribed (Cursor.root n) = (.throw "Expected a Described type", Cursor.root n) := by
        simp [attestDescribed, attest, Cursor.type, Cursor.root, ht]
      rw [bind_of_throw h1, bind_of_throw h2]

/-- More fuel than the height changes nothing. -/
theorem readNode_fuel {n m : Nat} {k : Node} (hn : k.height ≤ n) (hm : k.height ≤ m) :
    readNode n k = readNode m k := by
  unfold readNode
  rw [dispatch_agree n m k.height hn hm (Cursor.root k) (by simp [Cursor.root])]
  intro x hx
  simp [Cursor.root, Cursor.level] at hx
  rw [hx]
  exact Nat.le_refl _

/-- Apply a reading to all elements in order; the first failure counts. -/
def mapRes {α : Type} (g : Node → Res α) : List Node → Res (List α)
  | [] => .ok []
  | n :: ns => do
    let a ← g n
    let as ← mapRes g ns
    pure (a :: as)

/-- Apply a reading to all elements in order, with a state. -/
def foldRes {σ : Type} (g : σ → Node → Res σ) : σ → List Node → Res σ
  | s, [] => .ok s
  | s, n :: ns => do
    let s' ← g s n
    foldRes g s' ns

/-- A loop over the siblings whose body reads the current node without moving. -/
theorem whileNextGo_map {α : Type} {body : Prog α} {g : Node → Res α}
    (hb : ∀ c n, c.cur = some n → body c = (g n, c)) (fuel : Nat) (c : Cursor) (hf : c.rest.length < fuel) :
    (whileNextGo body fuel c).1 = mapRes g c.rest := by
  induction fuel generalizing c with
  | zero => omega
  | succ fuel ih =>
    obtain ⟨p, cu, r, u⟩ := c
    cases r with
    | nil => rfl
    | cons n ns =>
      unfold whileNextGo
      rw [bind_of_ok (next_cons p cu n ns u)]
      simp only [if_true]
      have h1 := hb ⟨cu.toList ++ p, some n, ns, u⟩ n rfl
      have ih := ih ⟨cu.toList ++ p, some n, ns, u⟩ (by simp at hf ⊢; omega)
      simp only [mapRes]
      cases hg : g n with
      | throw m => rw [hg] at h1; rw [bind_of_throw h1]; rfl
      | ub m => rw [hg] at h1; rw [bind_of_ub h1]; rfl
      | ok a =>
        rw [hg] at h1
        rw [bind_of_ok h1, bind_def]
        rcases hw : whileNextGo body fuel ⟨cu.toList ++ p, some n, ns, u⟩ with ⟨r, c'⟩
        rw [hw] at ih
        simp only at ih
        simp only [← ih]
        cases r <;> rfl

theorem whileNext_map {α : Type} {body : Prog α} {g : Node → Res α}
    (hb : ∀ c n, c.cur = some n → body c = (g n, c)) (c : Cursor) :
    (whileNext body c).1 = mapRes g c.rest := whileNextGo_map hb _ c (Nat.lt_succ_self _)

theorem foldNextGo_fold {σ : Type} {body : σ → Prog σ} {g : σ → Node → Res σ}
    (hb : ∀ s c n, c.cur = some n → body s c = (g s n, c)) (fuel : Nat) (s : σ) (c : Cursor)
    (hf : c.rest.length < fuel) : (foldNextGo body fuel s c).1 = foldRes g s c.rest := by
  induction fuel generalizing c s with
  | zero => omega
  | succ fuel ih =>
    obtain ⟨p, cu, r, u⟩ := c
    cases r with
    | nil => rfl
    | cons n ns =>
      unfold foldNextGo
      rw [bind_of_ok (next_cons p cu n ns u)]
      simp only [if_true]
      have h1 := hb s ⟨cu.toList ++ p, some n, ns, u⟩ n rfl
      have ih := fun s => ih s ⟨cu.toList ++ p, some n, ns, u⟩ (by simp at hf ⊢; omega)
      simp only [foldRes]
      cases hg : g s n with
      | throw m => rw [hg] at h1; rw [bind_of_throw h1]; rfl
      | ub m => rw [hg] at h1; rw [bind_of_ub h1]; rfl
      | ok a =>
        rw [hg] at h1
        rw [bind_of_ok h1, ih]
        rfl

theorem foldNext_fold {σ : Type} {body : σ → Prog σ} {g : σ → Node → Res σ}
    (hb : ∀ s c n, c.cur = some n → body s c = (g s n, c)) (s : σ) (c : Cursor) :
    (foldNext body s c).1 = foldRes g s c.rest := foldNextGo_fold hb _ s c (Nat.lt_succ_self _)

/-- `get_string` on a node. -/
def stringOf (allowNull : Bool) : Node → Res Str
  | .mk (.string s) _ => .ok s
  | .mk .null _ => if allowNull then .ok [] else .throw "Expected a String"
  | _ => .throw "Expected a String"

theorem getString_at {b : Bool} {c : Cursor} {n : Node} (h : c.cur = some n) :
    getString b c = (stringOf b n, c) := by
  cases n with
  | mk v ks =>
    cases v <;> simp only [getString, Cursor.val, h, Option.map_some, Node.val, stringOf]
    split <;> rfl

theorem stringList_at {c : Cursor} {n : Node} (h : c.cur = some n) :
    stringList c = (mapRes (stringOf false) n.kids, c) := by
  unfold stringList
  rw [autoListEnter_eq (fun _ => scoped_whileNext (scoped_getString _).on) (by simp [h])]
  simp only [Bool.false_eq_true, if_false]
  rw [whileNext_map (fun c n hc => getString_at hc)]
  obtain ⟨p, cu, r, u⟩ := c
  simp only at h
  subst h
  cases n
  rfl

theorem mapRes_strings (ss : List Str) :
    mapRes (stringOf false) (ss.map fun s => .mk (.string s) []) = .ok ss := by
  induction ss with
  | nil => rfl
  | cons s ss ih => simp [mapRes, stringOf, ih]

/-! Writing. -/

/-- The program adds these nodes behind the current one. -/
def Writes (p : Prog Unit) (ns : List Node) : Prop := ∀ c, c.rest = [] → p c = (.ok (), c.append ns)

theorem Cursor.append_rest (ns : List Node) (c : Cursor) (h : c.rest = []) : (c.append ns).rest = [] := by
  unfold Cursor.append
  induction ns generalizing c with
  | nil => exact h
  | cons n ns ih => exact ih _ (by simp [h])

theorem Cursor.append_append (ns ms : List Node) (c : Cursor) :
    (c.append ns).append ms = c.append (ns ++ ms) := by
  simp [Cursor.append]

theorem Cursor.append_level (ns : List Node) (c : Cursor) (h : c.rest = []) :
    (c.append ns).level = c.level ++ ns := by
  induction ns generalizing c with
  | nil => simp [Cursor.append]
  | cons n ns ih =>
    have := ih { c with prev := c.cur.toList ++ c.prev, cur := some n, rest := c.rest.tail } (by simp [h])
    simp only [Cursor.append, List.foldl_cons] at this ⊢
    rw [this]
    cases hc : c.cur <;> simp [Cursor.level, h, hc]

theorem Cursor.append_up (ns : List Node) (c : Cursor) : (c.append ns).up = c.up := by
  unfold Cursor.append
  induction ns generalizing c with
  | nil => rfl
  | cons n ns ih => exact ih _

theorem writes_nil : Writes (pure ()) [] := fun _ _ => rfl

theorem writes_put (v : Atom) : Writes (put v) [.mk v []] := fun _ _ => rfl

theorem writes_append (ns : List Node) : Writes (append ns) ns := fun _ _ => rfl

theorem writes_bind {p q : Prog Unit} {ns ms : List Node} (hp : Writes p ns) (hq : Writes q ms) :
    Writes (do p; q) (ns ++ ms) := by
  intro c hc
  rw [bind_of_ok (hp c hc), hq _ (Cursor.append_rest _ _ hc), Cursor.append_append]

/-- Putting a compound value, entering it, writing inside and leaving. -/
theorem writes_node {p : Prog Unit} {ns : List Node} (v : Atom) (hp : Writes p ns) :
    Writes (do put v; autoEnter p) [.mk v ns] := by
  intro c hc
  rw [bind_of_ok (put_def v c)]
  obtain ⟨pr, cu, r, u⟩ := c
  simp only at hc
  subst hc
  unfold autoEnter scope
  simp only [Cursor.put, Cursor.enter, Cursor.next, List.tail_nil, Bool.false_eq_true, if_false]
  rw [hp _ rfl]
  simp only [Cursor.exit, Cursor.append_up]
  rw [Cursor.append_level _ _ rfl]
  simp [Cursor.level, Cursor.append]

theorem writes_node_bind {p q : Prog Unit} {ns ms : List Node} (v : Atom) (hp : Writes p ns) (hq : Writes q ms) :
    Writes (do put v; autoEnter p; q) (.mk v ns :: ms) := by
  have h := writes_bind (writes_node v hp) hq
  intro c hc
  have := h c hc
  rw [bind_def, bind_def] at this
  simp only [put_def] at this
  rw [bind_of_ok (put_def v c), bind_def]
  exact this

theorem writes_put_bind {q : Prog Unit} {ms : List Node} (v : Atom) (hq : Writes q ms) :
    Writes (do put v; q) (.mk v [] :: ms) := writes_bind (writes_put v) hq

theorem made_of_writes {p : Prog Unit} {ns : List Node} (h : Writes p ns) : made p = ns := by
  unfold made
  rw [h _ rfl]
  simp only [Cursor.forest, Cursor.append_up]
  rw [Cursor.append_level _ _ rfl]
  rfl

theorem writes_putStrings (ss : List Str) : Writes (putStrings ss) (ss.map fun s => .mk (.string s) []) := by
  induction ss with
  | nil => exact writes_nil
  | cons s ss ih => exact writes_put_bind _ ih

theorem writes_appendAll (ns : List (List Node)) : Writes (appendAll ns) ns.flatten := by
  induction ns with
  | nil => exact writes_nil
  | cons n ns ih => exact writes_bind (writes_append n) ih

end Corda
