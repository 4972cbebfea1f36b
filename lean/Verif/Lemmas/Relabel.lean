import Verif.Model.Ordering

/-
Inserting elements of another kind: the order depends on the answers of `dependsOn` alone.
-/

namespace Corda

/-- Every element of the levels changed. -/
def relabel {T U : Type} (φ : T → U) (ls : List (List T)) : List (List U) := ls.map (List.map φ)

/-- The outcome of a relabelling. -/
def relabelR {T U : Type} (φ : T → U) (r : Res (List (List T))) : Res (List (List U)) := r.bind fun ls => .ok (relabel φ ls)

variable {T U : Type} {φ : T → U} {dep : T → T → Res Int} {dep' : U → U → Res Int}

theorem scanLevelR_map (hd : ∀ a b, dep' (φ a) (φ b) = dep a b) (x : T) (here : Nat) :
    ∀ (l : List T) (cur : Nat), scanLevelR dep' (φ x) here cur (l.map φ) = scanLevelR dep x here cur l := by
  intro l
  induction l with
  | nil => intro cur; rfl
  | cons j js ih => intro cur; simp only [List.map_cons, scanLevelR, hd, ih]

theorem findPosR_map (hd : ∀ a b, dep' (φ a) (φ b) = dep a b) (x : T) :
    ∀ (ls : List (List T)) (here cur : Nat), findPosR dep' (φ x) here cur (relabel φ ls) = findPosR dep x here cur ls := by
  intro ls
  induction ls with
  | nil => intro here cur; rfl
  | cons l ls ih =>
    intro here cur
    simp only [relabel, List.map_cons, findPosR, scanLevelR_map hd] at ih ⊢
    congr 1
    funext r
    split
    · rfl
    · exact ih _ _

theorem shuffleR_map (hd : ∀ a b, dep' (φ a) (φ b) = dep a b) (rec : T → List (List T) → Res (List (List T)))
    (rec' : U → List (List U) → Res (List (List U))) (hr : ∀ e ls, rec' (φ e) (relabel φ ls) = relabelR φ (rec e ls))
    (x : T) : ∀ (es : List T) (post : List (List T)), shuffleR rec' dep' (φ x) (es.map φ) (relabel φ post)
      = (shuffleR rec dep x es post).bind fun r => .ok (relabel φ r.1, r.2.1.map φ, relabel φ r.2.2) := by
  intro es
  induction es with
  | nil => intro post; rfl
  | cons e es ih =>
    intro post
    simp only [List.map_cons, shuffleR, hd]
    cases dep x e with
    | throw m => rfl
    | ub w => rfl
    | ok s =>
      simp only [Res.bind_eq, Res.bind]
      by_cases h1 : s = 1
      · simp only [h1, if_true, hr]
        cases rec e post with
        | throw m => rfl
        | ub w => rfl
        | ok post1 => exact ih post1
      · simp only [h1, if_false]
        by_cases h2 : s = 2
        · simp only [h2, if_true, ih]
          cases shuffleR rec dep x es post <;> rfl
        · simp only [h2, if_false]
          by_cases h3 : s > 0
          · simp only [h3, if_true, ih]
            rfl
          · simp only [h3, if_false, ih]
            cases shuffleR rec dep x es post <;> rfl

theorem insGoR_map (hd : ∀ a b, dep' (φ a) (φ b) = dep a b) : ∀ (fuel : Nat) (x : T) (tail : List (List T)),
    insGoR dep' fuel (φ x) (relabel φ tail) = relabelR φ (insGoR dep fuel x tail) := by
  intro fuel
  induction fuel with
  | zero => intro x tail; rfl
  | succ fuel ih =>
    intro x tail
    simp only [insGoR, findPosR_map hd]
    cases findPosR dep x 0 0 tail with
    | throw m => rfl
    | ub w => rfl
    | ok p =>
      simp only [Res.bind_eq, Res.bind]
      have h : (relabel φ tail).drop p = relabel φ (tail.drop p) := by simp [relabel, List.map_drop]
      rw [h]
      cases tail.drop p with
      | nil => simp [relabel, relabelR, Res.bind, pure]
      | cons lvl post =>
        simp only [relabel, List.map_cons]
        have hs := shuffleR_map hd (insGoR dep fuel) (insGoR dep' fuel) ih x lvl post
        simp only [relabel] at hs
        rw [hs]
        cases shuffleR (insGoR dep fuel) dep x lvl post with
        | throw m => rfl
        | ub w => rfl
        | ok r => simp [relabelR, relabel, Res.bind, pure, List.map_take]

/-- Inserting changed elements gives the changed levels, if `dependsOn` does not see the change. -/
theorem insertAllR_map (hd : ∀ a b, dep' (φ a) (φ b) = dep a b) (xs : List T) :
    insertAllR dep' (xs.map φ) = relabelR φ (insertAllR dep xs) := by
  unfold insertAllR
  suffices h : ∀ ls, (xs.map φ).foldlM (insertR dep') (relabel φ ls) = relabelR φ (xs.foldlM (insertR dep) ls) from h []
  induction xs with
  | nil => intro ls; rfl
  | cons x xs ih =>
    intro ls
    have hl : (relabel φ ls).flatten.length = ls.flatten.length := by simp [relabel, ← List.map_flatten]
    simp only [List.map_cons, List.foldlM_cons, insertR, hl, insGoR_map hd]
    cases insGoR dep (ls.flatten.length + 1) x ls with
    | throw m => rfl
    | ub w => rfl
    | ok ls1 => exact ih ls1

end Corda
