import Verif.Lemmas.Ordering

/-
The ordered collection with answers that may fail, related to the one with plain answers.
-/

namespace Corda
variable {T : Type}

/-- The plain answer behind an answer that may fail. -/
def plain (dep : T → T → Res Int) (a b : T) : Int :=
  match dep a b with
  | .ok n => n
  | _ => 0

theorem Res.bind_eq_ok {α β : Type} {x : Res α} {f : α → Res β} {b : β} :
    Res.bind x f = .ok b ↔ ∃ a, x = .ok a ∧ f a = .ok b := by
  cases x <;> simp [Res.bind]

theorem scanLevelR_ok {dep : T → T → Res Int} {x : T} {here cur : Nat} {l : List T} {r : Nat × Bool}
    (h : scanLevelR dep x here cur l = .ok r) : scanLevel (plain dep) x here cur l = r := by
  induction l generalizing cur with
  | nil => simpa [scanLevelR, scanLevel] using h
  | cons j js ih =>
    simp only [scanLevelR, Res.bind_eq, Res.bind_eq_ok] at h
    obtain ⟨s, hs, h⟩ := h
    have hp : plain dep j x = s := by simp [plain, hs]
    simp only [scanLevel, hp]
    split at h
    · rename_i e; simp only [e, if_true]; exact ih h
    · rename_i e; simp only [e, if_false]
      split at h
      · rename_i e'; simp only [e', if_true]; simpa using h
      · rename_i e'; simp only [e', if_false]; exact ih h

theorem findPosR_ok {dep : T → T → Res Int} {x : T} {here cur : Nat} {ls : List (List T)} {r : Nat}
    (h : findPosR dep x here cur ls = .ok r) : findPos (plain dep) x here cur ls = r := by
  induction ls generalizing here cur with
  | nil => simpa [findPosR, findPos] using h
  | cons l ls ih =>
    simp only [findPosR, Res.bind_eq, Res.bind_eq_ok] at h
    obtain ⟨p, hp, h⟩ := h
    simp only [findPos, scanLevelR_ok hp]
    split at h
    · rename_i e; simp only [e, if_true]; simpa using h
    · rename_i e; simp only [e]; exact ih h

theorem shuffleR_ok {recR : T → List (List T) → Res (List (List T))} {rec : T → List (List T) → Option (List (List T))}
    (hrec : ∀ x ls r, recR x ls = .ok r → rec x ls = some r)
    {dep : T → T → Res Int} {x : T} {es : List T} {post : List (List T)} {r : List (List T) × List T × List (List T)}
    (h : shuffleR recR dep x es post = .ok r) : shuffle rec (plain dep) x es post = some r := by
  induction es generalizing post r with
  | nil => simpa [shuffleR, shuffle] using h
  | cons e es ih =>
    simp only [shuffleR, Res.bind_eq, Res.bind_eq_ok] at h
    obtain ⟨s, hs, h⟩ := h
    have hp : plain dep x e = s := by simp [plain, hs]
    simp only [shuffle, hp]
    split at h
    · rename_i e1
      rw [if_pos e1]
      simp only [Res.bind_eq_ok] at h
      obtain ⟨p1, h1, h2⟩ := h
      simp [hrec _ _ _ h1, ih h2]
    · rename_i e1
      rw [if_neg e1]
      split at h
      · rename_i e2
        rw [if_pos e2]
        simp only [Res.bind_eq_ok, Res.pure_eq, Res.ok.injEq] at h
        obtain ⟨p1, h1, h2⟩ := h
        simp [ih h1, h2]
      · rename_i e2
        rw [if_neg e2]
        split at h
        · rename_i e3
          rw [if_pos e3]
          exact ih h
        · rename_i e3
          rw [if_neg e3]
          simp only [Res.bind_eq_ok, Res.pure_eq, Res.ok.injEq] at h
          obtain ⟨p1, h1, h2⟩ := h
          simp [ih h1, h2]

theorem insGoR_ok {dep : T → T → Res Int} (fuel : Nat) (x : T) (tail r : List (List T))
    (h : insGoR dep fuel x tail = .ok r) : insGo (plain dep) fuel x tail = some r := by
  induction fuel generalizing x tail r with
  | zero => simp [insGoR] at h
  | succ fuel ih =>
    simp only [insGoR, Res.bind_eq, Res.bind_eq_ok] at h
    obtain ⟨p, hp, h⟩ := h
    simp only [insGo, findPosR_ok hp]
    cases hd : tail.drop p with
    | nil => simp only [hd] at h ⊢; simpa using h
    | cons lvl post =>
      simp only [hd, Res.bind_eq_ok] at h ⊢
      obtain ⟨q, hq, h⟩ := h
      rw [shuffleR_ok ih hq]
      simpa using h

/-- If the insertions with real answers succeed, they do what the insertions with the plain answers do. -/
theorem insertAllR_ok {dep : T → T → Res Int} {xs : List T} {r : List (List T)}
    (h : insertAllR dep xs = .ok r) : insertAll (plain dep) xs = some r := by
  unfold insertAllR at h
  unfold insertAll
  generalize ([] : List (List T)) = l0 at h ⊢
  induction xs generalizing l0 with
  | nil => simpa using h
  | cons x xs ih =>
    simp only [List.foldlM_cons, Res.bind_eq, Res.bind_eq_ok] at h
    obtain ⟨l1, h1, h2⟩ := h
    simp only [List.foldlM_cons, insert, insGoR_ok _ _ _ _ h1]
    exact ih _ h2

/-! When all answers are defined. -/

theorem scanLevelR_of {dep : T → T → Res Int} {d : T → T → Int} {x : T} {here : Nat} {l : List T}
    (hd : ∀ j ∈ l, dep j x = .ok (d j x)) (cur : Nat) :
    scanLevelR dep x here cur l = .ok (scanLevel d x here cur l) := by
  induction l generalizing cur with
  | nil => rfl
  | cons j js ih =>
    have ih := ih (fun j hj => hd j (by simp [hj]))
    simp only [scanLevelR, scanLevel, hd j (by simp), Res.bind_eq, Res.bind]
    split
    · exact ih _
    · split
      · rfl
      · exact ih _

theorem findPosR_of {dep : T → T → Res Int} {d : T → T → Int} {x : T} {ls : List (List T)}
    (hd : ∀ l ∈ ls, ∀ j ∈ l, dep j x = .ok (d j x)) (here cur : Nat) :
    findPosR dep x here cur ls = .ok (findPos d x here cur ls) := by
  induction ls generalizing here cur with
  | nil => rfl
  | cons l ls ih =>
    simp only [findPosR, findPos, scanLevelR_of (hd l (by simp)), Res.bind_eq, Res.bind]
    split
    · rfl
    · exact ih (fun l hl => hd l (by simp [hl])) _ _

/-- All elements lie in `S`. -/
def Within (S : T → Prop) (ls : List (List T)) : Prop := ∀ l ∈ ls, ∀ a ∈ l, S a

theorem shuffleR_of {S : T → Prop} {recR : T → List (List T) → Res (List (List T))}
    {rec : T → List (List T) → Option (List (List T))}
    (hrec : ∀ x ls r, S x → Within S ls → rec x ls = some r → recR x ls = .ok r ∧ Within S r)
    {dep : T → T → Res Int} {d : T → T → Int} (hd : ∀ a b, S a → S b → dep a b = .ok (d a b))
    {x : T} (hx : S x) {es : List T} (hes : ∀ e ∈ es, S e) {post : List (List T)} (hpost : Within S post)
    {r : List (List T) × List T × List (List T)} (h : shuffle rec d x es post = some r) :
    shuffleR recR dep x es post = .ok r ∧ Within S r.1 ∧ (∀ e ∈ r.2.1, S e) ∧ Within S r.2.2 := by
  induction es generalizing post r with
  | nil =>
    simp [shuffle] at h
    subst h
    exact ⟨rfl, by simp [Within], by simp, hpost⟩
  | cons e es ih =>
    have he := hes e (by simp)
    have ih := @ih (fun e h => hes e (by simp [h]))
    simp only [shuffle] at h
    simp only [shuffleR, hd x e hx he, Res.bind_eq, Res.bind]
    split at h
    · rename_i e1
      rw [if_pos e1]
      simp only [Option.bind_eq_bind, Option.bind_eq_some_iff] at h
      obtain ⟨p1, h1, h2⟩ := h
      obtain ⟨q1, q2⟩ := hrec _ _ _ he hpost h1
      simp only [q1]
      exact ih q2 h2
    · rename_i e1
      rw [if_neg e1]
      split at h
      · rename_i e2
        rw [if_pos e2]
        simp only [Option.bind_eq_bind, Option.bind_eq_some_iff, Option.some.injEq] at h
        obtain ⟨p1, h1, h2⟩ := h
        obtain ⟨q1, q2, q3, q4⟩ := ih hpost h1
        subst h2
        refine ⟨by simp [q1], ?_, q3, q4⟩
        intro l hl a ha
        rcases List.mem_cons.mp hl with rfl | hl
        · simp at ha; exact ha ▸ he
        · exact q2 l hl a ha
      · rename_i e2
        rw [if_neg e2]
        split at h
        · rename_i e3
          rw [if_pos e3]
          exact ih hpost h
        · rename_i e3
          rw [if_neg e3]
          simp only [Option.bind_eq_bind, Option.bind_eq_some_iff, Option.some.injEq] at h
          obtain ⟨p1, h1, h2⟩ := h
          obtain ⟨q1, q2, q3, q4⟩ := ih hpost h1
          subst h2
          refine ⟨by simp [q1], q2, ?_, q4⟩
          intro a ha
          rcases List.mem_cons.mp ha with rfl | ha
          · exact he
          · exact q3 a ha

theorem insGoR_of {S : T → Prop} {dep : T → T → Res Int} {d : T → T → Int}
    (hd : ∀ a b, S a → S b → dep a b = .ok (d a b)) (fuel : Nat) (x : T) (tail r : List (List T))
    (hx : S x) (ht : Within S tail) (h : insGo d fuel x tail = some r) :
    insGoR dep fuel x tail = .ok r ∧ Within S r := by
  induction fuel generalizing x tail r with
  | zero => simp [insGo] at h
  | succ fuel ih =>
    simp only [insGo] at h
    simp only [insGoR, findPosR_of (fun l hl j hj => hd j x (ht l hl j hj) hx), Res.bind_eq, Res.bind]
    cases hq : tail.drop (findPos d x 0 0 tail) with
    | nil =>
      simp only [hq, Option.some.injEq] at h ⊢
      subst h
      refine ⟨rfl, ?_⟩
      intro l hl a ha
      rcases List.mem_append.mp hl with hl | hl
      · exact ht l hl a ha
      · simp at hl; subst hl; simp at ha; exact ha ▸ hx
    | cons lvl post =>
      simp only [hq, Option.bind_eq_bind, Option.bind_eq_some_iff, Option.some.injEq] at h ⊢
      obtain ⟨q, h1, h2⟩ := h
      have hmem : ∀ l ∈ lvl :: post, l ∈ tail := fun l hl => List.mem_of_mem_drop (hq ▸ hl)
      obtain ⟨q1, q2, q3, q4⟩ := shuffleR_of ih hd hx (fun e he => ht lvl (hmem lvl (by simp)) e he)
        (fun l hl => ht l (hmem l (by simp [hl]))) h1
      subst h2
      refine ⟨by simp [q1], ?_⟩
      intro l hl a ha
      simp only [List.append_assoc, List.mem_append, List.mem_cons] at hl
      rcases hl with hl | hl | hl | hl
      · exact ht l (List.mem_of_mem_take hl) a ha
      · exact q2 l hl a ha
      · subst hl
        rcases List.mem_cons.mp ha with rfl | ha
        · exact hx
        · exact q3 a ha
      · exact q4 l hl a ha

/-- If all answers among the inserted elements are defined, the insertions succeed and do what the insertions
with those answers do. -/
theorem insertAllR_of {S : T → Prop} {dep : T → T → Res Int} {d : T → T → Int}
    (hd : ∀ a b, S a → S b → dep a b = .ok (d a b)) (xs : List T) (hxs : ∀ x ∈ xs, S x) :
    ∃ r, insertAllR dep xs = .ok r ∧ insertAll d xs = some r := by
  unfold insertAllR insertAll
  have h0 : Within S ([] : List (List T)) := by simp [Within]
  generalize ([] : List (List T)) = l0 at h0 ⊢
  induction xs generalizing l0 with
  | nil => exact ⟨l0, rfl, rfl⟩
  | cons x xs ih =>
    obtain ⟨l1, h1, -⟩ := insGo_terminates d (l0.flatten.length + 1) x l0 (Nat.lt_succ_self _)
    obtain ⟨h2, h3⟩ := insGoR_of hd _ x l0 l1 (hxs x (by simp)) h0 h1
    obtain ⟨r, h4, h5⟩ := ih (fun x hx => hxs x (by simp [hx])) l1 h3
    refine ⟨r, ?_, ?_⟩
    · simp only [List.foldlM_cons, insertR, h2, Res.bind_eq, Res.bind]; exact h4
    · simp only [List.foldlM_cons, insert, h1, Option.bind_eq_bind, Option.bind_some]; exact h5

end Corda
