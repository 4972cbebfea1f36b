import Verif.Lemmas.Ordering

/-
The ordering of a collection depends on the inserted types only through the answers they give.
-/

namespace Corda

variable {T U : Type}

theorem scanLevel_map (dep : T → T → Int) (f : U → T) (x : U) (here cur : Nat) (l : List U) :
    scanLevel dep (f x) here cur (l.map f) = scanLevel (fun i j => dep (f i) (f j)) x here cur l := by
  induction l generalizing cur with
  | nil => rfl
  | cons j js ih => simp only [List.map_cons, scanLevel, ih]

theorem findPos_map (dep : T → T → Int) (f : U → T) (x : U) (here cur : Nat) (ls : List (List U)) :
    findPos dep (f x) here cur (ls.map (List.map f))
      = findPos (fun i j => dep (f i) (f j)) x here cur ls := by
  induction ls generalizing here cur with
  | nil => rfl
  | cons l ls ih => simp only [List.map_cons, findPos, scanLevel_map, ih]

theorem shuffle_map (rec : T → List (List T) → Option (List (List T)))
    (rec' : U → List (List U) → Option (List (List U))) (dep : T → T → Int) (f : U → T)
    (hrec : ∀ e post, rec (f e) (post.map (List.map f)) = (rec' e post).map (List.map (List.map f)))
    (x : U) (l : List U) (post : List (List U)) :
    shuffle rec dep (f x) (l.map f) (post.map (List.map f))
      = (shuffle rec' (fun i j => dep (f i) (f j)) x l post).map
          (fun r => (r.1.map (List.map f), r.2.1.map f, r.2.2.map (List.map f))) := by
  induction l generalizing post with
  | nil => rfl
  | cons e es ih =>
    simp only [List.map_cons, shuffle]
    by_cases h1 : dep (f x) (f e) = 1
    · simp only [h1, if_true, hrec]
      cases rec' e post with
      | none => rfl
      | some p => simpa using ih p
    · simp only [h1, if_false]
      by_cases h2 : dep (f x) (f e) = 2
      · simp only [h2, if_true, ih]
        cases shuffle rec' (fun i j => dep (f i) (f j)) x es post <;> rfl
      · simp only [h2, if_false]
        by_cases h3 : dep (f x) (f e) > 0
        · simp only [h3, if_true, ih]
        · simp only [h3, if_false, ih]
          cases shuffle rec' (fun i j => dep (f i) (f j)) x es post <;> rfl

theorem insGo_map (dep : T → T → Int) (f : U → T) (fuel : Nat) (x : U) (ls : List (List U)) :
    insGo dep fuel (f x) (ls.map (List.map f))
      = (insGo (fun i j => dep (f i) (f j)) fuel x ls).map (List.map (List.map f)) := by
  induction fuel generalizing x ls with
  | zero => rfl
  | succ n ih =>
    simp only [insGo, findPos_map, ← List.map_drop, ← List.map_take]
    cases ls.drop (findPos (fun i j => dep (f i) (f j)) x 0 0 ls) with
    | nil => simp
    | cons lvl post =>
      simp only [List.map_cons]
      rw [shuffle_map _ _ dep f ih]
      cases shuffle (insGo (fun i j => dep (f i) (f j)) n) (fun i j => dep (f i) (f j)) x lvl post with
      | none => rfl
      | some r => simp

theorem insert_map (dep : T → T → Int) (f : U → T) (x : U) (ls : List (List U)) :
    insert dep (ls.map (List.map f)) (f x)
      = (insert (fun i j => dep (f i) (f j)) ls x).map (List.map (List.map f)) := by
  have e : (ls.map (List.map f)).flatten.length = ls.flatten.length := by
    rw [← List.map_flatten, List.length_map]
  rw [insert, insert, e, insGo_map]

/-- Naming the types by `f` and inserting the names is the same as inserting the types. -/
theorem insertAll_map (dep : T → T → Int) (f : U → T) (xs : List U) :
    insertAll dep (xs.map f)
      = (insertAll (fun i j => dep (f i) (f j)) xs).map (List.map (List.map f)) := by
  have key : ∀ (xs : List U) (ls : List (List U)),
      (xs.map f).foldlM (insert dep) (ls.map (List.map f))
        = (xs.foldlM (insert (fun i j => dep (f i) (f j))) ls).map (List.map (List.map f)) := by
    intro xs
    induction xs with
    | nil => intro ls; rfl
    | cons x xs ih =>
      intro ls
      simp only [List.map_cons, List.foldlM_cons, insert_map]
      cases insert (fun i j => dep (f i) (f j)) ls x with
      | none => rfl
      | some r => exact ih r
  exact key xs []

/-! Three types: every acyclic relation, whatever the order of insertion. -/

theorem inOrder_map (needs : T → T → Prop) (f : U → T) (ls : List (List U)) :
    InOrder needs (ls.map (List.map f)) ↔ InOrder (fun i j => needs (f i) (f j)) ls := by
  induction ls with
  | nil => simp [InOrder]
  | cons l ls ih =>
    simp only [List.map_cons, InOrder, ih, ← List.map_flatten, List.forall_mem_map]

instance decInOrder (needs : U → U → Prop) [∀ a b, Decidable (needs a b)] :
    ∀ ls, Decidable (InOrder needs ls)
  | [] => .isTrue trivial
  | l :: ls => by
    have := decInOrder needs ls
    unfold InOrder
    infer_instance

/-- A relation between three positions, given by its six entries off the diagonal. -/
def rel3 (a b c d e f : Bool) (i j : Fin 3) : Bool :=
  match i, j with
  | 0, 1 => a | 1, 0 => b | 0, 2 => c | 2, 0 => d | 1, 2 => e | 2, 1 => f | _, _ => false

/-- The answers that state a relation. -/
def answerOf (n : U → U → Bool) (i j : U) : Int := if n j i then 1 else if n i j then 2 else 0

/-- All relations between three positions. -/
theorem three_table : ∀ a b c d e f : Bool,
    ¬ (a && b) → ¬ (c && d) → ¬ (e && f) → ¬ (a && e && d) → ¬ (c && f && b) →
    ∀ k : Fin 4, (insertAll (answerOf (rel3 a b c d e f)) ([0, 1, 2].take k)).any
      (fun r => decide (InOrder (fun i j => rel3 a b c d e f i j = true) r)) = true := by
  decide +kernel

/-- The first three types of a list, by position. -/
def name3 (x : T) (xs : List T) : Fin 3 → T
  | 0 => x
  | 1 => xs.headD x
  | 2 => xs.tail.headD x

theorem name3_map (x : T) (xs : List T) (hl : (x :: xs).length ≤ 3) :
    x :: xs = (([0, 1, 2] : List (Fin 3)).take (xs.length + 1)).map (name3 x xs) := by
  match xs, hl with
  | [], _ => rfl
  | [_], _ => rfl
  | [_, _], _ => rfl
  | _ :: _ :: _ :: _, hl => simp at hl

theorem three_inOrder (dep : T → T → Int) (needs : T → T → Prop) (hc : Consistent dep needs)
    (ha : Answers dep) (h3 : ∀ a b c, needs a b → needs b c → ¬ needs c a) (xs : List T) (hl : xs.length ≤ 3)
    (r : List (List T)) (h : insertAll dep xs = some r) : InOrder needs r := by
  classical
  cases xs with
  | nil => cases h; trivial
  | cons x0 xs =>
    have hxs := name3_map x0 xs hl
    generalize name3 x0 xs = f at hxs
    let n : Fin 3 → Fin 3 → Bool := fun i j => decide (needs (f i) (f j))
    have hn : n = rel3 (n 0 1) (n 1 0) (n 0 2) (n 2 0) (n 1 2) (n 2 1) := by
      funext i j
      have hi : ∀ i, n i i = false := fun i => decide_eq_false (hc.irrefl (f i))
      match i, j with
      | 0, 0 => exact hi 0
      | 0, 1 => rfl
      | 0, 2 => rfl
      | 1, 0 => rfl
      | 1, 1 => exact hi 1
      | 1, 2 => rfl
      | 2, 0 => rfl
      | 2, 1 => rfl
      | 2, 2 => exact hi 2
    have hd : (fun i j => dep (f i) (f j)) = answerOf n := by
      funext i j
      simp only [answerOf, n, decide_eq_true_eq]
      have := hc (f i) (f j)
      by_cases h1 : needs (f j) (f i)
      · rw [if_pos h1]; exact this.1.mpr h1
      · rw [if_neg h1]
        by_cases h2 : needs (f i) (f j)
        · rw [if_pos h2]; exact this.2.mpr h2
        · rw [if_neg h2]
          rcases ha (f i) (f j) with h | h | h
          · exact h
          · exact absurd (this.1.mp h) h1
          · exact absurd (this.2.mp h) h2
    have anti : ∀ i j, ¬ (n i j && n j i) := by
      intro i j hij
      simp only [n, Bool.and_eq_true, decide_eq_true_eq] at hij
      have h1 := (hc (f i) (f j)).1.mpr hij.2
      have h2 := (hc (f i) (f j)).2.mpr hij.1
      omega
    have cyc : ∀ i j k, ¬ (n i j && n j k && n k i) := by
      intro i j k hij
      simp only [n, Bool.and_eq_true, decide_eq_true_eq] at hij
      exact h3 _ _ _ hij.1.1 hij.1.2 hij.2
    rw [hxs, insertAll_map, hd] at h
    have ht := three_table (n 0 1) (n 1 0) (n 0 2) (n 2 0) (n 1 2) (n 2 1) (anti 0 1) (anti 0 2) (anti 1 2)
      (cyc 0 1 2) (cyc 0 2 1) ⟨xs.length + 1, by simp at hl; omega⟩
    rw [← hn] at ht
    rw [Option.map_eq_some_iff] at h
    obtain ⟨r', hr', rfl⟩ := h
    simp only [hr', Option.any_some, decide_eq_true_eq] at ht
    rw [inOrder_map]
    simpa [n] using ht

end Corda
