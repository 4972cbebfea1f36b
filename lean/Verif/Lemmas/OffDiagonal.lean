import Verif.Lemmas.OrderingR

/-
What a type answers about itself does not matter for the order.
-/

namespace Corda
variable {T : Type}

theorem scanLevel_congr {d d' : T → T → Int} {x : T} {l : List T} (h : ∀ j ∈ l, d j x = d' j x) (here cur : Nat) :
    scanLevel d x here cur l = scanLevel d' x here cur l := by
  induction l generalizing cur with
  | nil => rfl
  | cons j js ih =>
    have ih := ih (fun j hj => h j (by simp [hj]))
    simp only [scanLevel, h j (by simp), ih]

theorem findPos_congr {d d' : T → T → Int} {x : T} {ls : List (List T)} (h : ∀ l ∈ ls, ∀ j ∈ l, d j x = d' j x)
    (here cur : Nat) : findPos d x here cur ls = findPos d' x here cur ls := by
  induction ls generalizing here cur with
  | nil => rfl
  | cons l ls ih =>
    simp only [findPos, scanLevel_congr (h l (by simp)), ih (fun l hl => h l (by simp [hl]))]

theorem shuffle_congr {rec rec' : T → List (List T) → Option (List (List T))} {d d' : T → T → Int} {x : T}
    (hrec : ∀ e post, (e :: post.flatten).Nodup → rec e post = rec' e post)
    (hperm : ∀ e post r, rec' e post = some r → r.flatten.Perm (e :: post.flatten))
    {es : List T} (h : ∀ e ∈ es, d x e = d' x e) {post : List (List T)} (hn : (es ++ post.flatten).Nodup) :
    shuffle rec d x es post = shuffle rec' d' x es post := by
  induction es generalizing post with
  | nil => rfl
  | cons e es ih =>
    have ih := @ih (fun e he => h e (by simp [he]))
    rw [List.cons_append] at hn
    have hn2 := (List.nodup_cons.mp hn).2
    have he : (e :: post.flatten).Nodup :=
      List.nodup_cons.mpr ⟨fun hm => (List.nodup_cons.mp hn).1 (List.mem_append.mpr (Or.inr hm)), (List.nodup_append.mp hn2).2.1⟩
    simp only [shuffle, h e (by simp), hrec e post he, ih hn2]
    by_cases h1 : d' x e = 1
    · simp only [if_pos h1]
      cases hr : rec' e post with
      | none => rfl
      | some p1 =>
        simp only [Option.bind_eq_bind, Option.bind_some]
        refine ih (((hperm _ _ _ hr).append_left es).nodup_iff.mpr ?_)
        exact List.perm_middle.nodup_iff.mpr hn
    · simp only [if_neg h1]

theorem insGo_congr {d d' : T → T → Int} (h : ∀ a b, a ≠ b → d a b = d' a b) (ha : Answers d') (fuel : Nat) (x : T)
    (tail : List (List T)) (hn : (x :: tail.flatten).Nodup) : insGo d fuel x tail = insGo d' fuel x tail := by
  induction fuel generalizing x tail with
  | zero => rfl
  | succ fuel ih =>
    obtain ⟨hx, hn⟩ := List.nodup_cons.mp hn
    have hne : ∀ l ∈ tail, ∀ j ∈ l, j ≠ x := by
      intro l hl j hj e
      subst e
      exact hx (List.mem_flatten.mpr ⟨l, hl, hj⟩)
    simp only [insGo, findPos_congr (fun l hl j hj => h j x (hne l hl j hj))]
    cases hq : tail.drop (findPos d' x 0 0 tail) with
    | nil => rfl
    | cons lvl post =>
      have hmem : lvl ∈ tail := List.mem_of_mem_drop (hq ▸ List.mem_cons_self)
      have hsub : (lvl ++ post.flatten).Nodup := by
        have : (lvl :: post).flatten.Nodup := by
          rw [← hq]
          rw [← List.take_append_drop (findPos d' x 0 0 tail) tail, List.flatten_append] at hn
          exact (List.nodup_append.mp hn).2.1
        simpa using this
      simp only
      rw [shuffle_congr ih (fun e p r hr => insGo_perm d' ha fuel e p r hr)
        (fun e he => h x e (Ne.symm (hne lvl hmem e he))) hsub]

/-- If nothing is inserted twice, the answers of each about itself do not matter. -/
theorem insertAll_congr {d d' : T → T → Int} (h : ∀ a b, a ≠ b → d a b = d' a b) (ha : Answers d') (xs : List T)
    (hn : xs.Nodup) : insertAll d xs = insertAll d' xs := by
  unfold insertAll
  have h0 : (xs ++ ([] : List (List T)).flatten).Nodup := by simpa using hn
  generalize ([] : List (List T)) = l0 at h0 ⊢
  induction xs generalizing l0 with
  | nil => rfl
  | cons x xs ih =>
    have hx : (x :: l0.flatten).Nodup := by
      rw [List.cons_append] at h0
      refine List.nodup_cons.mpr ⟨fun hm => (List.nodup_cons.mp h0).1 (List.mem_append.mpr (Or.inr hm)), ?_⟩
      exact (List.nodup_append.mp (List.nodup_cons.mp h0).2).2.1
    simp only [List.foldlM_cons, insert, insGo_congr h ha _ x l0 hx]
    cases hr : insGo d' (l0.flatten.length + 1) x l0 with
    | none => rfl
    | some l1 =>
      simp only [Option.bind_eq_bind, Option.bind_some]
      refine ih (List.nodup_cons.mp hn).2 l1 ?_
      have := insGo_perm d' ha _ x l0 l1 hr
      exact (this.append_left xs).nodup_iff.mpr (List.perm_middle.nodup_iff.mpr h0)

end Corda
