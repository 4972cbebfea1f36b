import Verif.Lemmas.OrderingMap

/-
C11-C13: the ordered collection of schema types.
-/

namespace Corda.Props
open Corda

variable {T : Type}

private theorem foldlM_inv (dep : T → T → Int) (P : List T → List (List T) → Prop)
    (hstep : ∀ done ls x r, P done ls → insert dep ls x = some r → P (done ++ [x]) r)
    (xs done : List T) (ls r : List (List T)) (h0 : P done ls)
    (h : xs.foldlM (insert dep) ls = some r) : P (done ++ xs) r := by
  induction xs generalizing done ls with
  | nil => simp at h; subst h; simpa using h0
  | cons x xs ih =>
    simp only [List.foldlM_cons, Option.bind_eq_bind, Option.bind_eq_some_iff] at h
    obtain ⟨r1, h1, h2⟩ := h
    have := ih (done ++ [x]) r1 (hstep _ _ _ _ h0 h1) h2
    simpa using this

/-- **C11, termination.** Every insertion into every collection terminates, whatever the types answer
(including values other than 0, 1 and 2). -/
theorem C11_terminates (dep : T → T → Int) (ls : List (List T)) (x : T) : ∃ r, insert dep ls x = some r := by
  obtain ⟨r, h, -⟩ := insGo_terminates dep (ls.flatten.length + 1) x ls (Nat.lt_succ_self _)
  exact ⟨r, h⟩

/-- The recursion bound used in the model is immaterial: any larger bound gives the same collection. -/
theorem C11_bound_irrelevant (dep : T → T → Int) (ls r : List (List T)) (x : T) (k : Nat)
    (h : insert dep ls x = some r) : insGo dep (ls.flatten.length + 1 + k) x ls = some r :=
  insGo_mono dep _ x ls r h k

/-- **C11.** After any sequence of insertions, whatever answers 0, 1, 2 the types give (consistent or not,
cyclic or not), the collection holds exactly the inserted types, each as often as it was inserted. -/
theorem C11_permutation (dep : T → T → Int) (hd : Answers dep) (xs : List T) :
    ∃ r, insertAll dep xs = some r ∧ r.flatten.Perm xs := by
  have hex : ∀ (xs : List T) ls, ∃ r, xs.foldlM (insert dep) ls = some r := by
    intro xs
    induction xs with
    | nil => intro ls; exact ⟨ls, rfl⟩
    | cons x xs ih =>
      intro ls
      obtain ⟨r, h⟩ := C11_terminates dep ls x
      obtain ⟨r', h'⟩ := ih r
      exact ⟨r', by simp [List.foldlM_cons, h, h']⟩
  obtain ⟨r, h⟩ := hex xs []
  refine ⟨r, h, ?_⟩
  have := foldlM_inv dep (fun done ls => ls.flatten.Perm done)
    (by
      intro done ls x r hp hr
      exact (insGo_perm dep hd _ x ls r hr).trans ((hp.cons x).trans (by
        simpa using (List.perm_append_comm (l₁ := [x]) (l₂ := done)))))
    xs [] [] r (by simp) h
  simpa using this

/-- A cyclic and inconsistent relation: everybody answers 1 about everybody. -/
example : insertAll (fun _ _ : Nat => 1) [1, 2, 3, 2] = some [[1], [2], [3], [2]] := by decide
/-- An answer outside 0, 1, 2 loses an element, so the hypothesis is needed. -/
example : insertAll (fun _ _ : Nat => 3) [1, 2] = some [[2]] := by decide

/-- **C12.** No level is ever empty, and the collection is empty only if nothing was inserted. -/
theorem C12_no_empty_level (dep : T → T → Int) (xs : List T) (r : List (List T))
    (h : insertAll dep xs = some r) : (∀ l ∈ r, l ≠ []) ∧ (r = [] ↔ xs = []) := by
  have := foldlM_inv dep (fun done ls => (∀ l ∈ ls, l ≠ []) ∧ (ls = [] ↔ done = []))
    (by
      intro done ls x r hp hr
      have := insGo_nonempty dep _ x ls r hp.1 hr
      exact ⟨this.2, by simp [this.1]⟩)
    xs [] [] r (by simp) h
  simpa using this

/-- Specification: whenever `a` needs `b`, `b` is in a strictly earlier level. -/
def NeedsEarlier (needs : T → T → Prop) (levels : List (List T)) : Prop :=
  ∀ (i j : Nat) (Li Lj : List T), levels[i]? = some Li → levels[j]? = some Lj →
    ∀ a ∈ Li, ∀ b ∈ Lj, needs a b → j < i

/-- Specification: no type needs itself, directly or indirectly. -/
def Acyclic (needs : T → T → Prop) : Prop := ∃ rank : T → Nat, ∀ a b, needs a b → rank b < rank a

theorem inOrder_needsEarlier (needs : T → T → Prop) (levels : List (List T)) (h : InOrder needs levels) :
    NeedsEarlier needs levels := by
  induction levels with
  | nil => intro i j Li Lj hi; simp at hi
  | cons l ls ih =>
    obtain ⟨h1, h2, h3⟩ := h
    intro i j Li Lj hi hj a ha b hb hn
    cases i with
    | zero =>
      simp at hi; subst hi
      cases j with
      | zero => simp at hj; subst hj; exact absurd hn (h1 a ha b hb)
      | succ j =>
        simp at hj
        exact absurd hn (h2 a ha b (List.mem_flatten.mpr ⟨Lj, List.mem_of_getElem? hj, hb⟩))
    | succ i =>
      cases j with
      | zero => omega
      | succ j =>
        simp at hi hj
        have := ih h3 i j Li Lj hi hj a ha b hb hn
        omega

/-- **C13, what does hold, in general.** Suppose an answer 1 means that the other type needs this one and an answer 2 that this one needs the
other; answers 2 may be missing (`dep d x = 0` although `d` needs `x`), but not where `x` needs something or arrives after `d`.  And
suppose that at every insertion the new type `x` sits "transitively": a type already present that needs `x` also needs everything present
that `x` needs.  Then every type ends up in a strictly later level than everything it needs.  What is missing: other relations and insertion
orders, where the property is false (`C13_order_violated`). -/
theorem C13_seen_partial (dep : T → T → Int) (needs : T → T → Prop) (hc : Sees dep needs) (ha : Answers dep)
    (hleaf : ∀ d e n, needs d e → needs e n → dep d e = 2) (xs : List T)
    (ht : ∀ pre x post, xs = pre ++ x :: post → ∀ d ∈ pre, ∀ n ∈ pre, needs d x → needs x n → needs d n)
    (hb : ∀ pre x post, xs = pre ++ x :: post → ∀ d ∈ pre, needs d x → dep d x = 2)
    (r : List (List T)) (h : insertAll dep xs = some r) : NeedsEarlier needs r := by
  apply inOrder_needsEarlier
  have := foldlM_inv dep
    (fun done ls => (∃ rest, xs = done ++ rest) → ls.flatten.Perm done ∧ InOrder needs ls)
    (by
      intro done ls x r hp hr hrest
      obtain ⟨rest, hrest⟩ := hrest
      obtain ⟨h1, h2⟩ := hp ⟨x :: rest, by simp [hrest]⟩
      refine ⟨(insGo_perm dep ha _ x ls r hr).trans ((h1.cons x).trans (by
        simpa using (List.perm_append_comm (l₁ := [x]) (l₂ := done)))), ?_⟩
      refine insGo_ordered hc ha hleaf _ x ls r h2 ?_ ?_ hr
      · intro d hd n hn
        exact ht done x rest (by simp [hrest]) d (h1.mem_iff.mp hd) n (h1.mem_iff.mp hn)
      · intro d hd
        exact hb done x rest (by simp [hrest]) d (h1.mem_iff.mp hd))
    xs [] [] r (by intro _; simp [InOrder]) h
  exact (this ⟨[], by simp⟩).2

/-- **C13, what does hold.** Suppose the answers are consistent and at every insertion the new type `x` sits
"transitively": a type already present that needs `x` also directly needs everything present that `x` needs.
Then every type ends up in a strictly later level than everything it needs.  What is missing: relations
and insertion orders without that closure, where the property is false (`C13_order_violated`). -/
theorem C13_order_partial (dep : T → T → Int) (needs : T → T → Prop) (hc : Consistent dep needs)
    (ha : Answers dep) (xs : List T)
    (ht : ∀ pre x post, xs = pre ++ x :: post → ∀ d ∈ pre, ∀ n ∈ pre, needs d x → needs x n → needs d n)
    (r : List (List T)) (h : insertAll dep xs = some r) : NeedsEarlier needs r :=
  C13_seen_partial dep needs hc.sees ha (fun d e _ hde _ => (hc d e).2.mpr hde) xs ht (fun _ x _ _ d _ hdx => (hc d x).2.mpr hdx) r h

/-- Instance: a transitive relation, any insertion order. -/
theorem C13_transitive_partial (dep : T → T → Int) (needs : T → T → Prop) (hc : Consistent dep needs)
    (ha : Answers dep) (htr : ∀ a b c, needs a b → needs b c → needs a c) (xs : List T)
    (r : List (List T)) (h : insertAll dep xs = some r) : NeedsEarlier needs r :=
  C13_order_partial dep needs hc ha xs (fun _ x _ _ d _ n _ h1 h2 => htr d x n h1 h2) r h

/-- Instance: any relation, types inserted so that nothing inserted later is needed by something earlier. -/
theorem C13_needed_first_partial (dep : T → T → Int) (needs : T → T → Prop) (hc : Consistent dep needs)
    (ha : Answers dep) (xs : List T) (hord : ∀ pre x post, xs = pre ++ x :: post → ∀ d ∈ pre, ¬ needs d x)
    (r : List (List T)) (h : insertAll dep xs = some r) : NeedsEarlier needs r :=
  C13_order_partial dep needs hc ha xs
    (fun pre x post e d hd _ _ h1 _ => absurd h1 (hord pre x post e d hd)) r h

/-- Instance: any relation, types inserted so that nothing inserted later needs something earlier (the order in
which Corda writes schemas: outermost type first). -/
theorem C13_users_first_partial (dep : T → T → Int) (needs : T → T → Prop) (hc : Consistent dep needs)
    (ha : Answers dep) (xs : List T) (hord : ∀ pre x post, xs = pre ++ x :: post → ∀ n ∈ pre, ¬ needs x n)
    (r : List (List T)) (h : insertAll dep xs = some r) : NeedsEarlier needs r :=
  C13_order_partial dep needs hc ha xs
    (fun pre x post e _ _ n hn _ h2 => absurd h2 (hord pre x post e n hn)) r h

/-- Any relation without cycles and any order of insertion, for at most three types.  Four types are too many:
`C13_order_violated`. -/
theorem C13_three_partial (dep : T → T → Int) (needs : T → T → Prop) (hc : Consistent dep needs)
    (ha : Answers dep) (hac : Acyclic needs) (xs : List T) (hl : xs.length ≤ 3)
    (r : List (List T)) (h : insertAll dep xs = some r) : NeedsEarlier needs r := by
  obtain ⟨rank, hr⟩ := hac
  refine inOrder_needsEarlier _ _ (three_inOrder dep needs hc ha ?_ xs hl r h)
  intro a b c h1 h2 h3
  have := hr _ _ h1
  have := hr _ _ h2
  have := hr _ _ h3
  omega

/-- A four-type example: 1 needs 0, 2 needs 3, 3 needs 1. -/
def needs4 (a b : Fin 4) : Bool := decide ((a, b) ∈ [((1 : Fin 4), (0 : Fin 4)), (2, 3), (3, 1)])
/-- The consistent answers for `needs4`. -/
def dep4 (a b : Fin 4) : Int := if needs4 b a then 1 else if needs4 a b then 2 else 0

/-- **C13 fails as stated.** With the acyclic relation 2→3→1→0, answered consistently, inserting 0, 1, 2, 3
puts 3 into the first level although 1, which it needs, is in the second. -/
theorem C13_order_violated :
    Consistent dep4 (fun a b => needs4 a b = true) ∧ Answers dep4 ∧ Acyclic (fun a b => needs4 a b = true)
    ∧ insertAll dep4 [0, 1, 2, 3] = some [[3, 0], [2, 1]]
    ∧ ¬ NeedsEarlier (fun a b => needs4 a b = true) [[3, 0], [2, 1]] := by
  refine ⟨by unfold Consistent; decide, by unfold Answers; decide,
    ⟨fun a => if a = 0 then 0 else if a = 1 then 1 else if a = 3 then 2 else 3, by decide⟩, by decide, ?_⟩
  intro h
  exact absurd (h 0 1 [3, 0] [2, 1] rfl rfl 3 (by simp) 1 (by simp) (by decide)) (by decide)

/-- The same four types in the order 0, 1, 3, 2 come out right. -/
example : insertAll dep4 [0, 1, 3, 2] = some [[0], [1], [3], [2]] := by decide
example : insertAll dep4 [2, 3, 1, 0] = some [[0], [1], [3], [2]] := by decide

/-- Three types in a chain, 0 needs 1 needs 2, the used and the using one inserted before the one between. -/
example : insertAll (answerOf fun i j : Fin 3 => decide ((i, j) ∈ [((0 : Fin 3), (1 : Fin 3)), (1, 2)])) [0, 2, 1]
    = some [[2], [1], [0]] := by decide

/-! The repository's own tests of the collection (libs/amqp/src/test/OrderedTypeNotationTest.cxx).  There `a.dependsOn (b)` is 1
when a depends on b, so types come out before what they depend on. -/

/-- The answers of the tests' types, from who depends on whom. -/
def testAnswers (on : List (Char × Char)) (a b : Char) : Int :=
  if (a, b) ∈ on then 1 else if (b, a) ∈ on then 2 else 0

example : insertAll (testAnswers []) ['A'] = some [['A']] := by decide
example : insertAll (testAnswers []) ['A', 'B'] = some [['B', 'A']] := by decide
example : insertAll (testAnswers [('A', 'B')]) ['A', 'B'] = some [['A'], ['B']] := by decide
example : insertAll (testAnswers [('B', 'A')]) ['A', 'B'] = some [['B'], ['A']] := by decide
example : (insertAll (testAnswers [('B', 'A'), ('C', 'A')]) ['A', 'B', 'C']).map List.flatten
    = some ['B', 'C', 'A'] := by decide
example : ∀ l ∈ [['A', 'B', 'C'], ['C', 'A', 'B'], ['C', 'B', 'A'], ['B', 'C', 'A']],
    (insertAll (testAnswers [('A', 'B'), ('B', 'C')]) l).map List.flatten = some ['A', 'B', 'C'] := by decide

#print axioms C11_terminates
#print axioms C11_bound_irrelevant
#print axioms C11_permutation
#print axioms C12_no_empty_level
#print axioms C13_seen_partial
#print axioms C13_order_partial
#print axioms C13_transitive_partial
#print axioms C13_needed_first_partial
#print axioms C13_users_first_partial
#print axioms C13_three_partial
#print axioms C13_order_violated

end Corda.Props
