import Verif.Model.Questions
import Verif.Lemmas.OrderingR

namespace Corda
variable {T : Type}

/-! ### The results are the same -/

theorem Counted.bind_fst {α β : Type} (p : Counted T α) (f : α → Counted T β) : (p >>= f).1 = Res.bind p.1 fun a => (f a).1 := by
  obtain ⟨r, q⟩ := p
  cases r <;> rfl

theorem Counted.pure_fst {α : Type} (a : α) : (pure a : Counted T α).1 = .ok a := rfl

theorem scanLevelQ_fst (dep : T → T → Res Int) (x : T) (here cur : Nat) (l : List T) :
    (scanLevelQ dep x here cur l).1 = scanLevelR dep x here cur l := by
  induction l generalizing cur with
  | nil => rfl
  | cons j js ih =>
    unfold scanLevelQ scanLevelR
    rw [Counted.bind_fst]
    show Res.bind (dep j x) _ = Res.bind (dep j x) _
    congr 1
    funext s
    by_cases h1 : s = 1
    · rw [if_pos h1, if_pos h1, ih]
    · rw [if_neg h1, if_neg h1]
      by_cases h2 : s = 2
      · rw [if_pos h2, if_pos h2]; rfl
      · rw [if_neg h2, if_neg h2, ih]

theorem findPosQ_fst (dep : T → T → Res Int) (x : T) (here cur : Nat) (ls : List (List T)) :
    (findPosQ dep x here cur ls).1 = findPosR dep x here cur ls := by
  induction ls generalizing here cur with
  | nil => rfl
  | cons l ls ih =>
    unfold findPosQ findPosR
    rw [Counted.bind_fst, scanLevelQ_fst]
    show Res.bind _ _ = Res.bind _ _
    congr 1
    funext r
    by_cases h : r.2 = true
    · rw [if_pos h, if_pos h]; rfl
    · rw [if_neg h, if_neg h, ih]

theorem shuffleQ_fst {recQ : T → List (List T) → Counted T (List (List T))} {recR : T → List (List T) → Res (List (List T))}
    (hrec : ∀ e post, (recQ e post).1 = recR e post) (dep : T → T → Res Int) (x : T) (es : List T) (post : List (List T)) :
    (shuffleQ recQ dep x es post).1 = shuffleR recR dep x es post := by
  induction es generalizing post with
  | nil => rfl
  | cons e es ih =>
    unfold shuffleQ shuffleR
    rw [Counted.bind_fst]
    show Res.bind (dep x e) _ = Res.bind (dep x e) _
    congr 1
    funext s
    by_cases h1 : s = 1
    · rw [if_pos h1, if_pos h1, Counted.bind_fst, hrec]
      show Res.bind _ _ = Res.bind _ _
      congr 1
      funext p
      exact ih p
    · rw [if_neg h1, if_neg h1]
      by_cases h2 : s = 2
      · rw [if_pos h2, if_pos h2, Counted.bind_fst, ih]; rfl
      · rw [if_neg h2, if_neg h2]
        by_cases h3 : s > 0
        · rw [if_pos h3, if_pos h3, ih]
        · rw [if_neg h3, if_neg h3, Counted.bind_fst, ih]; rfl

theorem insGoQ_fst (dep : T → T → Res Int) (fuel : Nat) (x : T) (tail : List (List T)) :
    (insGoQ dep fuel x tail).1 = insGoR dep fuel x tail := by
  induction fuel generalizing x tail with
  | zero => rfl
  | succ fuel ih =>
    unfold insGoQ insGoR
    rw [Counted.bind_fst, findPosQ_fst]
    show Res.bind _ _ = Res.bind _ _
    congr 1
    funext p
    cases tail.drop p with
    | nil => rfl
    | cons lvl post =>
      simp only
      rw [Counted.bind_fst, shuffleQ_fst ih]
      rfl

theorem insertAllQ_fst (dep : T → T → Res Int) (ls : List (List T)) (xs : List T) :
    (insertAllQ dep ls xs).1 = xs.foldlM (insertR dep) ls := by
  induction xs generalizing ls with
  | nil => rfl
  | cons x xs ih =>
    unfold insertAllQ
    rw [Counted.bind_fst, List.foldlM_cons]
    unfold insertQ
    rw [insGoQ_fst]
    show Res.bind _ _ = Res.bind _ _
    congr 1
    funext l
    exact ih l

/-! ### Answers that throw only make it shorter -/

/-- `p` gives the same as `p'`, or fails after fewer questions. -/
def Shorter {α : Type} (p p' : Counted T α) : Prop := (∃ a, p.1 = .ok a ∧ p' = p) ∨ ((∀ a, p.1 ≠ .ok a) ∧ p.2 <+: p'.2)

theorem Shorter.rfl' {α : Type} (p : Counted T α) : Shorter p p := by
  obtain ⟨r, q⟩ := p
  cases r with
  | ok a => exact .inl ⟨a, rfl, rfl⟩
  | throw m => exact .inr ⟨by simp, List.prefix_refl q⟩
  | ub m => exact .inr ⟨by simp, List.prefix_refl q⟩

theorem Counted.ok_bind {α β : Type} {p : Counted T α} {a : α} (h : p.1 = .ok a) (f : α → Counted T β) :
    p >>= f = ((f a).1, p.2 ++ (f a).2) := by
  obtain ⟨r, q⟩ := p
  simp only at h
  subst h
  rfl

theorem Counted.fail_bind {α β : Type} {p : Counted T α} (h : ∀ a, p.1 ≠ .ok a) (f : α → Counted T β) :
    (∀ b, (p >>= f).1 ≠ .ok b) ∧ (p >>= f).2 = p.2 := by
  obtain ⟨r, q⟩ := p
  cases r with
  | ok a => exact absurd rfl (h a)
  | throw m => exact ⟨fun b (hb : Res.throw m = .ok b) => (nomatch hb), rfl⟩
  | ub m => exact ⟨fun b (hb : Res.ub m = .ok b) => (nomatch hb), rfl⟩

theorem Counted.prefix_bind {α β : Type} (p : Counted T α) (f : α → Counted T β) : p.2 <+: (p >>= f).2 := by
  obtain ⟨r, q⟩ := p
  cases r with
  | ok a => exact ⟨_, rfl⟩
  | throw m => exact List.prefix_refl q
  | ub m => exact List.prefix_refl q

theorem Shorter.bind {α β : Type} {p p' : Counted T α} {f f' : α → Counted T β} (hp : Shorter p p') (hf : ∀ a, Shorter (f a) (f' a)) :
    Shorter (p >>= f) (p' >>= f') := by
  rcases hp with ⟨a, h1, rfl⟩ | ⟨h1, h2⟩
  · rw [Counted.ok_bind h1, Counted.ok_bind h1]
    rcases hf a with ⟨b, h3, h4⟩ | ⟨h3, h4⟩
    · exact .inl ⟨b, h3, by rw [h4]⟩
    · exact .inr ⟨h3, (List.prefix_append_right_inj _).mpr h4⟩
  · obtain ⟨h3, h4⟩ := Counted.fail_bind h1 f
    exact .inr ⟨h3, by rw [h4]; exact h2.trans (Counted.prefix_bind p' f')⟩

/-- The answers with 0 for those that fail. -/
def calm (dep : T → T → Res Int) : T → T → Res Int := fun a b => .ok (plain dep a b)

theorem ask_shorter (dep : T → T → Res Int) (a b : T) : Shorter (ask dep a b) (ask (calm dep) a b) := by
  unfold ask calm plain
  cases h : dep a b with
  | ok s => exact .inl ⟨s, rfl, rfl⟩
  | throw m => exact .inr ⟨by simp, List.prefix_refl _⟩
  | ub m => exact .inr ⟨by simp, List.prefix_refl _⟩

theorem scanLevelQ_shorter (dep : T → T → Res Int) (x : T) (here cur : Nat) (l : List T) :
    Shorter (scanLevelQ dep x here cur l) (scanLevelQ (calm dep) x here cur l) := by
  induction l generalizing cur with
  | nil => exact .rfl' _
  | cons j js ih =>
    unfold scanLevelQ
    refine (ask_shorter dep j x).bind fun s => ?_
    by_cases h1 : s = 1
    · rw [if_pos h1, if_pos h1]; exact ih _
    · rw [if_neg h1, if_neg h1]
      by_cases h2 : s = 2
      · rw [if_pos h2, if_pos h2]; exact .rfl' _
      · rw [if_neg h2, if_neg h2]; exact ih _

theorem findPosQ_shorter (dep : T → T → Res Int) (x : T) (here cur : Nat) (ls : List (List T)) :
    Shorter (findPosQ dep x here cur ls) (findPosQ (calm dep) x here cur ls) := by
  induction ls generalizing here cur with
  | nil => exact .rfl' _
  | cons l ls ih =>
    unfold findPosQ
    refine (scanLevelQ_shorter dep x here cur l).bind fun r => ?_
    by_cases h : r.2 = true
    · rw [if_pos h, if_pos h]; exact .rfl' _
    · rw [if_neg h, if_neg h]; exact ih _ _

theorem shuffleQ_shorter {rec rec' : T → List (List T) → Counted T (List (List T))} (hrec : ∀ e post, Shorter (rec e post) (rec' e post))
    (dep : T → T → Res Int) (x : T) (es : List T) (post : List (List T)) :
    Shorter (shuffleQ rec dep x es post) (shuffleQ rec' (calm dep) x es post) := by
  induction es generalizing post with
  | nil => exact .rfl' _
  | cons e es ih =>
    unfold shuffleQ
    refine (ask_shorter dep x e).bind fun s => ?_
    by_cases h1 : s = 1
    · rw [if_pos h1, if_pos h1]; exact (hrec e post).bind fun p => ih p
    · rw [if_neg h1, if_neg h1]
      by_cases h2 : s = 2
      · rw [if_pos h2, if_pos h2]; exact (ih post).bind fun r => .rfl' _
      · rw [if_neg h2, if_neg h2]
        by_cases h3 : s > 0
        · rw [if_pos h3, if_pos h3]; exact ih post
        · rw [if_neg h3, if_neg h3]; exact (ih post).bind fun r => .rfl' _

theorem insGoQ_shorter (dep : T → T → Res Int) (fuel : Nat) (x : T) (tail : List (List T)) :
    Shorter (insGoQ dep fuel x tail) (insGoQ (calm dep) fuel x tail) := by
  induction fuel generalizing x tail with
  | zero => exact .rfl' _
  | succ fuel ih =>
    unfold insGoQ
    refine (findPosQ_shorter dep x 0 0 tail).bind fun p => ?_
    cases tail.drop p with
    | nil => exact .rfl' _
    | cons lvl post => exact (shuffleQ_shorter ih dep x lvl post).bind fun r => .rfl' _

theorem insertAllQ_shorter (dep : T → T → Res Int) (ls : List (List T)) (xs : List T) :
    Shorter (insertAllQ dep ls xs) (insertAllQ (calm dep) ls xs) := by
  induction xs generalizing ls with
  | nil => exact .rfl' _
  | cons x xs ih =>
    unfold insertAllQ
    exact (insGoQ_shorter dep _ x ls).bind fun l => ih l

/-! ### How many questions -/

/-- The sum over all elements of the number of levels in front of them. -/
def depths : List (List T) → Nat
  | [] => 0
  | _ :: ls => depths ls + size ls

theorem depths_append (a b : List (List T)) : depths (a ++ b) = depths a + depths b + a.length * size b := by
  induction a with
  | nil => simp [depths]
  | cons l a ih =>
    simp only [List.cons_append, depths, ih, size_append, List.length_cons, Nat.add_mul, Nat.one_mul]
    omega

theorem depths_le (ls : List (List T)) (h : ∀ l ∈ ls, l ≠ []) : 2 * depths ls + size ls ≤ size ls * size ls := by
  induction ls with
  | nil => simp [depths, size_nil]
  | cons l ls ih =>
    have h1 := ih fun m hm => h m (List.mem_cons_of_mem _ hm)
    have h2 : 1 ≤ l.length := List.length_pos_iff.mpr (h l List.mem_cons_self)
    rw [size_cons]
    simp only [depths]
    have h3 : (l.length + size ls) * (l.length + size ls) = l.length * l.length + 2 * (l.length * size ls) + size ls * size ls := by
      simp only [Nat.add_mul, Nat.mul_add, Nat.mul_comm (size ls) l.length]; omega
    have h4 : l.length ≤ l.length * l.length := Nat.le_mul_of_pos_left _ h2
    have h5 : size ls ≤ l.length * size ls := Nat.le_mul_of_pos_left _ h2
    omega

theorem Counted.bind_ok {α β : Type} {p : Counted T α} {f : α → Counted T β} {b : β} {q : List (T × T)} (h : p >>= f = (.ok b, q)) :
    ∃ a q1 q2, p = (.ok a, q1) ∧ f a = (.ok b, q2) ∧ q = q1 ++ q2 := by
  obtain ⟨r, q1⟩ := p
  cases r with
  | ok a =>
    have h1 : ((f a).1, q1 ++ (f a).2) = (.ok b, q) := h
    simp only [Prod.mk.injEq] at h1
    exact ⟨a, q1, (f a).2, rfl, Prod.ext h1.1 rfl, h1.2.symm⟩
  | throw m => exact absurd (congrArg Prod.fst h) (by intro h; cases h)
  | ub m => exact absurd (congrArg Prod.fst h) (by intro h; cases h)

theorem Counted.pure_ok {α : Type} {a b : α} {q : List (T × T)} (h : (pure a : Counted T α) = (.ok b, q)) : a = b ∧ q = [] := by
  have h1 : ((.ok a, []) : Res α × List (T × T)) = (.ok b, q) := h
  simp only [Prod.mk.injEq, Res.ok.injEq] at h1
  exact ⟨h1.1, h1.2.symm⟩

theorem ask_count {dep : T → T → Res Int} {a b : T} {s : Int} {q : List (T × T)} (h : ask dep a b = (.ok s, q)) :
    dep a b = .ok s ∧ q.length = 1 := by
  unfold ask at h
  have h1 := congrArg Prod.fst h
  have h2 := congrArg Prod.snd h
  exact ⟨h1, (congrArg List.length h2).symm⟩

theorem scanLevelQ_count {dep : T → T → Res Int} {x : T} {here cur : Nat} {l : List T} {r : Nat × Bool} {q : List (T × T)}
    (h : scanLevelQ dep x here cur l = (.ok r, q)) : q.length ≤ l.length := by
  induction l generalizing cur q with
  | nil =>
    unfold scanLevelQ at h
    rw [(Counted.pure_ok h).2]
    simp
  | cons j js ih =>
    unfold scanLevelQ at h
    obtain ⟨s, q1, q2, h1, h2, rfl⟩ := Counted.bind_ok h
    have h3 := (ask_count h1).2
    have h4 : q2.length ≤ js.length := by
      by_cases g1 : s = 1
      · rw [if_pos g1] at h2; exact ih h2
      · rw [if_neg g1] at h2
        by_cases g2 : s = 2
        · rw [if_pos g2] at h2; rw [(Counted.pure_ok h2).2]; simp
        · rw [if_neg g2] at h2; exact ih h2
    simp only [List.length_append, List.length_cons]
    omega

theorem findPosQ_count {dep : T → T → Res Int} {x : T} {here cur : Nat} {ls : List (List T)} {p : Nat} {q : List (T × T)}
    (h : findPosQ dep x here cur ls = (.ok p, q)) : q.length ≤ size ls := by
  induction ls generalizing here cur q with
  | nil =>
    unfold findPosQ at h
    rw [(Counted.pure_ok h).2]
    simp
  | cons l ls ih =>
    unfold findPosQ at h
    obtain ⟨r, q1, q2, h1, h2, rfl⟩ := Counted.bind_ok h
    have h3 := scanLevelQ_count h1
    have h4 : q2.length ≤ size ls := by
      by_cases g : r.2 = true
      · rw [if_pos g] at h2; rw [(Counted.pure_ok h2).2]; simp
      · rw [if_neg g] at h2; exact ih h2
    rw [size_cons]
    simp only [List.length_append]
    omega

/-- What one insertion adds, with `N` bounding the number of elements. -/
def Cheap (N : Nat) (tail r : List (List T)) (q : List (T × T)) : Prop :=
  size r = size tail + 1 ∧ q.length + 2 * N * depths tail ≤ 2 * N * (depths r + 1)

theorem shuffleQ_count {rec : T → List (List T) → Counted T (List (List T))} {dep : T → T → Res Int} {N : Nat}
    (ha : ∀ a b s, dep a b = .ok s → s = 0 ∨ s = 1 ∨ s = 2)
    (hrec : ∀ e post r q, size post ≤ N → rec e post = (.ok r, q) → Cheap N post r q) {x : T} {es : List T} {post : List (List T)}
    {r : List (List T) × List T × List (List T)} {q : List (T × T)} (hN : es.length + size post ≤ N)
    (h : shuffleQ rec dep x es post = (.ok r, q)) :
    size r.1 = r.1.length ∧ es.length + size post = r.1.length + r.2.1.length + size r.2.2 ∧ size post ≤ size r.2.2
    ∧ q.length + 2 * N * (depths post + size post) ≤ es.length + 2 * N * (depths r.2.2 + size r.2.2) := by
  induction es generalizing post r q with
  | nil =>
    unfold shuffleQ at h
    obtain ⟨rfl, rfl⟩ := Counted.pure_ok h
    simp [size_nil]
  | cons e es ih =>
    unfold shuffleQ at h
    simp only [List.length_cons] at hN
    obtain ⟨s, q1, q2, h1, h2, rfl⟩ := Counted.bind_ok h
    obtain ⟨hs, h3⟩ := ask_count h1
    simp only [List.length_append, List.length_cons]
    by_cases g1 : s = 1
    · rw [if_pos g1] at h2
      obtain ⟨p1, q3, q4, h4, h5, rfl⟩ := Counted.bind_ok h2
      obtain ⟨c1, c2⟩ := hrec e post p1 q3 (by omega) h4
      obtain ⟨i1, i2, i3, i4⟩ := ih (by omega) h5
      refine ⟨i1, by omega, by omega, ?_⟩
      simp only [List.length_append]
      rw [c1] at i4
      simp only [Nat.mul_add] at c2 i4 ⊢
      omega
    · rw [if_neg g1] at h2
      by_cases g2 : s = 2
      · rw [if_pos g2] at h2
        obtain ⟨r', q3, q4, h4, h5, rfl⟩ := Counted.bind_ok h2
        obtain ⟨rfl, rfl⟩ := Counted.pure_ok h5
        obtain ⟨i1, i2, i3, i4⟩ := ih (by omega) h4
        simp only [size_cons, List.length_cons, List.length_append, List.length_nil]
        refine ⟨by omega, by omega, by omega, by omega⟩
      · rw [if_neg g2] at h2
        have g3 : ¬ s > 0 := by rcases ha _ _ _ hs with h | h | h <;> omega
        rw [if_neg g3] at h2
        obtain ⟨r', q3, q4, h4, h5, rfl⟩ := Counted.bind_ok h2
        obtain ⟨rfl, rfl⟩ := Counted.pure_ok h5
        obtain ⟨i1, i2, i3, i4⟩ := ih (by omega) h4
        simp only [List.length_cons, List.length_append, List.length_nil]
        refine ⟨by omega, by omega, by omega, by omega⟩

theorem insGoQ_count {dep : T → T → Res Int} (ha : ∀ a b s, dep a b = .ok s → s = 0 ∨ s = 1 ∨ s = 2) {N fuel : Nat} {x : T}
    {tail r : List (List T)} {q : List (T × T)} (hN : size tail ≤ N) (h : insGoQ dep fuel x tail = (.ok r, q)) : Cheap N tail r q := by
  induction fuel generalizing x tail r q with
  | zero => exact absurd (congrArg Prod.fst h) (by intro h; cases h)
  | succ fuel ih =>
    unfold insGoQ at h
    obtain ⟨p, q1, q2, h1, h2, rfl⟩ := Counted.bind_ok h
    have hq1 := findPosQ_count h1
    have hsplit : tail = tail.take p ++ tail.drop p := (List.take_append_drop p tail).symm
    cases hd : tail.drop p with
    | nil =>
      rw [hd] at h2
      obtain ⟨rfl, rfl⟩ := Counted.pure_ok h2
      refine ⟨by rw [size_append, size_cons, size_nil]; simp, ?_⟩
      rw [depths_append]
      simp only [List.append_nil, Nat.mul_add]
      have : N ≤ 2 * N * 1 := by omega
      omega
    | cons lvl post =>
      rw [hd] at h2 hsplit
      obtain ⟨s, q3, q4, h3, h4, rfl⟩ := Counted.bind_ok h2
      obtain ⟨rfl, rfl⟩ := Counted.pure_ok h4
      generalize tail.take p = pre at hsplit ⊢
      subst hsplit
      have e1 : size (pre ++ lvl :: post) = size pre + (lvl.length + size post) := by rw [size_append, size_cons]
      obtain ⟨i1, i2, i3, i4⟩ := shuffleQ_count ha (fun e post r q hp h => ih hp h) (by omega) h3
      have e2 : size (pre ++ s.1 ++ (x :: s.2.1) :: s.2.2) = size pre + s.1.length + (s.2.1.length + 1 + size s.2.2) := by
        rw [size_append, size_append, size_cons, i1]; rfl
      refine ⟨by omega, ?_⟩
      have d1 : depths (pre ++ lvl :: post) = depths pre + (depths post + size post) + pre.length * (lvl.length + size post) := by
        rw [depths_append, size_cons]; rfl
      have d2 : depths (pre ++ s.1 ++ (x :: s.2.1) :: s.2.2) = depths pre + depths s.1 + pre.length * s.1.length
          + (depths s.2.2 + size s.2.2) + (pre.length + s.1.length) * (s.2.1.length + 1 + size s.2.2) := by
        rw [depths_append, depths_append, size_cons, i1, List.length_append]; rfl
      have d3 : pre.length * (lvl.length + size post) ≤ pre.length * s.1.length + (pre.length + s.1.length) * (s.2.1.length + 1 + size s.2.2) := by
        rw [i2, Nat.add_mul, Nat.mul_add, Nat.mul_add, Nat.mul_add, Nat.mul_add]
        omega
      have d4 : depths (pre ++ lvl :: post) + (depths s.2.2 + size s.2.2) ≤
          depths (pre ++ s.1 ++ (x :: s.2.1) :: s.2.2) + (depths post + size post) := by
        rw [d1, d2]; omega
      have d5 := Nat.mul_le_mul_left (2 * N) d4
      simp only [List.length_append, List.append_nil]
      rw [Nat.mul_add (2 * N) (depths (pre ++ lvl :: post)), Nat.mul_add (2 * N) (depths (pre ++ s.1 ++ (x :: s.2.1) :: s.2.2))] at d5
      rw [Nat.mul_add (2 * N) _ 1]
      generalize 2 * N * depths (pre ++ lvl :: post) = A at d5 ⊢
      generalize 2 * N * depths (pre ++ s.1 ++ (x :: s.2.1) :: s.2.2) = B at d5 ⊢
      generalize 2 * N * (depths s.2.2 + size s.2.2) = C at d5 i4
      generalize 2 * N * (depths post + size post) = D at d5 i4
      omega

theorem insertAllQ_count {dep : T → T → Res Int} (ha : ∀ a b s, dep a b = .ok s → s = 0 ∨ s = 1 ∨ s = 2) {N : Nat} {ls r : List (List T)}
    {xs : List T} {q : List (T × T)} (hN : size ls + xs.length ≤ N + 1) (hne : ∀ l ∈ ls, l ≠ []) (h : insertAllQ dep ls xs = (.ok r, q)) :
    size r = size ls + xs.length ∧ (∀ l ∈ r, l ≠ []) ∧ q.length + 2 * N * depths ls ≤ 2 * N * (depths r + xs.length) := by
  induction xs generalizing ls q with
  | nil =>
    unfold insertAllQ at h
    obtain ⟨rfl, rfl⟩ := Counted.pure_ok h
    exact ⟨rfl, hne, by simp⟩
  | cons x xs ih =>
    unfold insertAllQ at h
    simp only [List.length_cons] at hN ⊢
    obtain ⟨l1, q1, q2, h1, h2, rfl⟩ := Counted.bind_ok h
    unfold insertQ at h1
    obtain ⟨c1, c2⟩ := insGoQ_count ha (N := N) (by omega) h1
    have hR := insGoQ_fst dep (ls.flatten.length + 1) x ls
    rw [h1] at hR
    have hne1 := insGo_nonempty (plain dep) _ x ls l1 hne (insGoR_ok _ _ _ _ hR.symm)
    obtain ⟨i1, i2, i3⟩ := ih (by omega) hne1.2 h2
    refine ⟨by omega, i2, ?_⟩
    simp only [List.length_append, Nat.mul_add] at c2 i3 ⊢
    omega

end Corda
