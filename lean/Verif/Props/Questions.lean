import Verif.Lemmas.Questions
import Verif.Props.Accepted

/-
C96: how often ordering types asks whether one depends on another.
-/

namespace Corda.Props
open Corda Corda.Prog Corda.Spec
variable {T : Type}

/-- The account of the questions does not change what is made. -/
theorem C96_same (dep : T → T → Res Int) (xs : List T) : (insertAllQ dep [] xs).1 = insertAllR dep xs := insertAllQ_fst dep [] xs

/-- **C96.** Inserting `n` elements one after another asks at most `n³ - n` questions, whatever the answers are; also if an answer is an
exception, and also if elements depend on each other. -/
theorem C96_bound (dep : T → T → Res Int) (ha : ∀ a b s, dep a b = .ok s → s = 0 ∨ s = 1 ∨ s = 2) (xs : List T) :
    (insertAllQ dep [] xs).2.length + xs.length ≤ xs.length ^ 3 := by
  cases xs with
  | nil => simp [insertAllQ, pure]
  | cons x xs =>
    obtain ⟨r, hr, -⟩ := insertAllR_of (S := fun _ => True) (dep := calm dep) (d := plain dep) (fun _ _ _ _ => rfl) (x :: xs)
      (fun _ _ => trivial)
    have hfst := C96_same (calm dep) (x :: xs)
    rw [hr] at hfst
    have ha' : ∀ a b s, calm dep a b = .ok s → s = 0 ∨ s = 1 ∨ s = 2 := by
      intro a b s h
      unfold calm plain at h
      cases hd : dep a b with
      | ok n => rw [hd] at h; cases h; exact ha a b _ hd
      | throw m => rw [hd] at h; cases h; exact .inl rfl
      | ub m => rw [hd] at h; cases h; exact .inl rfl
    obtain ⟨h1, h2, h3⟩ := insertAllQ_count (N := xs.length) ha' (ls := []) (r := r) (xs := x :: xs)
      (q := (insertAllQ (calm dep) [] (x :: xs)).2) (by simp [size_nil]) (by simp) (Prod.ext hfst rfl)
    have hle : (insertAllQ dep [] (x :: xs)).2.length ≤ (insertAllQ (calm dep) [] (x :: xs)).2.length := by
      rcases insertAllQ_shorter dep [] (x :: xs) with ⟨-, -, h⟩ | ⟨-, h⟩
      · rw [h]; exact Nat.le_refl _
      · exact h.length_le
    have h4 := depths_le r h2
    rw [h1, size_nil] at h4
    simp only [List.length_cons, Nat.zero_add] at h3 h4 ⊢
    simp only [depths, Nat.mul_zero, Nat.add_zero] at h3
    generalize xs.length = n at *
    have h5 : 2 * (depths r + (n + 1)) ≤ (n + 1) * (n + 1) + (n + 1) := by omega
    have h6 := Nat.mul_le_mul_left n h5
    have h7 : n * (2 * (depths r + (n + 1))) = 2 * n * (depths r + (n + 1)) := by
      rw [← Nat.mul_assoc, Nat.mul_comm n 2]
    have h8 : n * ((n + 1) * (n + 1) + (n + 1)) + (n + 1) = (n + 1) ^ 3 := by
      simp only [Nat.pow_succ, Nat.pow_zero, Nat.one_mul, Nat.mul_add, Nat.add_mul, Nat.mul_one, Nat.mul_assoc]
      omega
    omega

/-- **C96 for schema types**: whatever the types, of however many fields, ordering `n` of them calls `dependsOn` at most `n³ - n` times. -/
theorem C96_types (ts : List TypeNotation) : (insertAllQ TypeNotation.dependsOn [] ts).2.length + ts.length ≤ ts.length ^ 3 :=
  C96_bound _ dependsOn_answers ts

/-- **C96 for blobs**: whatever the tree, if the envelope reader accepts it, it has inserted the types of the schema in some order, and
for `n` types that has taken at most `n³ - n` calls of `dependsOn`. -/
theorem C96_opened (c : Cursor) (n : Node) (hc : c.cur = some n) (s : Schema) (o : Str) (h : (readEnvelope c).1 = .ok (s, o)) :
    ∃ ts, ts.Perm s.types.flatten ∧ (insertAllQ TypeNotation.dependsOn [] ts).1 = .ok s.types
      ∧ (insertAllQ TypeNotation.dependsOn [] ts).2.length + s.types.flatten.length ≤ s.types.flatten.length ^ 3 := by
  obtain ⟨ps, ts, ls, h1, h2, h3, rfl⟩ := (C82_accepted c n hc s o).mp h
  rw [schema_make_types]
  have hp := (C11_schema_types ts ls h3).1
  refine ⟨ts, hp.symm, by rw [C96_same, h3], ?_⟩
  rw [hp.length_eq]
  exact C96_types ts

/-- Answers about numbers of which some use others. -/
private def using_ (us : List (Nat × Nat)) (a b : Nat) : Res Int :=
  .ok (if us.contains (b, a) then 1 else if us.contains (a, b) then 2 else 0)

/-- Four classes each of which uses the next: 12 questions; the other way round 6; without any use 12; 60 are allowed. -/
example :
    (insertAllQ (using_ [(0, 1), (1, 2), (2, 3)]) [] [0, 1, 2, 3]).2.length = 12
    ∧ (insertAllQ (using_ [(1, 0), (2, 1), (3, 2)]) [] [0, 1, 2, 3]).2.length = 6
    ∧ (insertAllQ (using_ []) [] [0, 1, 2, 3]).2.length = 12 := by
  decide +kernel

/-- Where every class uses every other. -/
example :
    let us := (List.range 8).flatMap fun a => (List.range 8).filterMap fun b => if a = b then none else some (a, b)
    (insertAllQ (using_ us) [] (List.range 8)).2.length = 28 ∧ (insertAllQ (using_ us) [] (List.range 8)).1 = .ok ((List.range 8).map fun a => [a]) := by
  decide +kernel

/-- An exception ends the questions. -/
example :
    let p := insertAllQ (fun a b => if a = 1 ∧ b = 2 then .throw "no" else .ok 0) [] [0, 1, 2, 3]
    p.1 = .throw "no" ∧ p.2 = [(0, 1), (1, 0), (1, 2)] := by
  decide +kernel

#print axioms C96_same
#print axioms C96_bound
#print axioms C96_types
#print axioms C96_opened

end Corda.Props
