import Verif.Model.Ordering

namespace Corda
variable {T : Type}

/-! ### termination and content -/

/-- Number of elements in all levels. -/
def size (ls : List (List T)) : Nat := ls.flatten.length

theorem size_nil : size ([] : List (List T)) = 0 := rfl
theorem size_cons (l : List T) (ls : List (List T)) : size (l :: ls) = l.length + size ls := by simp [size]
theorem size_append (a b : List (List T)) : size (a ++ b) = size a + size b := by simp [size]

theorem shuffle_terminates (rec : T → List (List T) → Option (List (List T))) (dep : T → T → Int) (x : T)
    (n : Nat)
    (hrec : ∀ e post, size post < n → ∃ r, rec e post = some r ∧ size r ≤ size post + 1)
    (lvl : List T) (post : List (List T)) (h : lvl.length + size post ≤ n) :
    ∃ r, shuffle rec dep x lvl post = some r ∧ size r.1 + r.2.1.length + size r.2.2 ≤ lvl.length + size post := by
  induction lvl generalizing post with
  | nil => exact ⟨_, rfl, by simp [size_nil]⟩
  | cons e es ih =>
    simp only [List.length_cons] at h
    simp only [shuffle]
    split
    · obtain ⟨p1, e1, h1⟩ := hrec e post (by omega)
      obtain ⟨r, e2, h2⟩ := ih p1 (by omega)
      refine ⟨r, by simp [e1, e2], by simp; omega⟩
    · obtain ⟨r, e2, h2⟩ := ih post (by omega)
      split
      · exact ⟨_, by simp [e2]; rfl, by simp [size_cons]; omega⟩
      · split
        · exact ⟨r, e2, by simp; omega⟩
        · exact ⟨_, by simp [e2]; rfl, by simp; omega⟩

theorem insGo_terminates (dep : T → T → Int) (fuel : Nat) (x : T) (tail : List (List T))
    (h : size tail < fuel) : ∃ r, insGo dep fuel x tail = some r ∧ size r ≤ size tail + 1 := by
  induction fuel generalizing x tail with
  | zero => omega
  | succ fuel ih =>
    simp only [insGo]
    generalize findPos dep x 0 0 tail = p
    have hsplit : size tail = size (tail.take p) + size (tail.drop p) := by
      conv => lhs; rw [← List.take_append_drop p tail]
      rw [size_append]
    cases hd : tail.drop p with
    | nil => exact ⟨_, rfl, by simp [size_append, size_cons, size_nil]⟩
    | cons lvl post =>
      rw [hd] at hsplit
      have := size_cons lvl post
      obtain ⟨r, e, hr⟩ := shuffle_terminates (insGo dep fuel) dep x fuel
        (fun e post hp => ih e post hp) lvl post (by omega)
      refine ⟨_, by simp only [e]; rfl, ?_⟩
      simp [size_append, size_cons]
      omega

/-- The answers a `dependsOn` may give. -/
def Answers (dep : T → T → Int) : Prop := ∀ a b, dep a b = 0 ∨ dep a b = 1 ∨ dep a b = 2

theorem shuffle_perm (rec : T → List (List T) → Option (List (List T))) (dep : T → T → Int) (hd : Answers dep)
    (x : T) (hrec : ∀ e post r, rec e post = some r → r.flatten.Perm (e :: post.flatten))
    (lvl : List T) (post : List (List T)) (r) (h : shuffle rec dep x lvl post = some r) :
    (r.1.flatten ++ (r.2.1 ++ r.2.2.flatten)).Perm (lvl ++ post.flatten) := by
  induction lvl generalizing post r with
  | nil => simp [shuffle] at h; subst h; simp
  | cons e es ih =>
    simp only [shuffle] at h
    rcases hd x e with hz | hz | hz
    · simp only [hz] at h
      simp [Option.bind_eq_some_iff] at h
      obtain ⟨a, b, c, hs, rfl⟩ := h
      have := ih post _ hs
      simp only [List.cons_append] at this ⊢
      exact List.perm_middle.trans (this.cons e)
    · simp only [hz] at h
      simp [Option.bind_eq_some_iff] at h
      obtain ⟨p1, e1, hs⟩ := h
      have h1 := ih p1 r hs
      have h2 := hrec e post p1 e1
      exact h1.trans ((h2.append_left es).trans (by simp))
    · simp only [hz] at h
      simp [Option.bind_eq_some_iff] at h
      obtain ⟨a, b, c, hs, rfl⟩ := h
      have := ih post _ hs
      simpa using this

theorem insGo_perm (dep : T → T → Int) (hd : Answers dep) (fuel : Nat) (x : T) (tail r : List (List T))
    (h : insGo dep fuel x tail = some r) : r.flatten.Perm (x :: tail.flatten) := by
  induction fuel generalizing x tail r with
  | zero => simp [insGo] at h
  | succ fuel ih =>
    simp only [insGo] at h
    generalize findPos dep x 0 0 tail = p at h
    have hsplit : tail.flatten = (tail.take p).flatten ++ (tail.drop p).flatten := by
      rw [← List.flatten_append, List.take_append_drop]
    cases hdr : tail.drop p with
    | nil =>
      rw [hdr] at h; simp at h; subst h
      simp
    | cons lvl post =>
      rw [hdr] at h
      simp [Option.bind_eq_some_iff] at h
      obtain ⟨a, b, c, hs, rfl⟩ := h
      have := shuffle_perm _ dep hd x (fun e post r hr => ih e post r hr) lvl post _ hs
      rw [hsplit, hdr]
      simp only [List.flatten_append, List.flatten_cons] at this ⊢
      have h2 : (a.flatten ++ (x :: b ++ c.flatten)).Perm (x :: (lvl ++ post.flatten)) := by
        simp only [List.cons_append]
        exact List.perm_middle.trans (this.cons x)
      exact (h2.append_left _).trans List.perm_middle

/-- More fuel does not change the result. -/
theorem shuffle_mono (rec rec' : T → List (List T) → Option (List (List T))) (dep : T → T → Int) (x : T)
    (hrec : ∀ e post r, rec e post = some r → rec' e post = some r) (lvl : List T) (post : List (List T)) (r)
    (h : shuffle rec dep x lvl post = some r) : shuffle rec' dep x lvl post = some r := by
  induction lvl generalizing post r with
  | nil => simpa [shuffle] using h
  | cons e es ih =>
    simp only [shuffle] at h ⊢
    split
    · rename_i hz
      simp only [hz, if_pos] at h
      simp [Option.bind_eq_some_iff] at h
      obtain ⟨p1, e1, hs⟩ := h
      simp [hrec _ _ _ e1, ih _ _ hs]
    · rename_i hz
      simp only [hz, if_false] at h
      split
      · rename_i hz2
        simp only [hz2, if_pos] at h
        simp [Option.bind_eq_some_iff] at h
        obtain ⟨a, b, c, hs, rfl⟩ := h
        simp [ih _ _ hs]
      · rename_i hz2
        simp only [hz2, if_false] at h
        split
        · rename_i hz3
          simp only [hz3, if_pos] at h
          exact ih _ _ h
        · rename_i hz3
          simp only [hz3, if_false] at h
          simp [Option.bind_eq_some_iff] at h
          obtain ⟨a, b, c, hs, rfl⟩ := h
          simp [ih _ _ hs]

theorem insGo_mono (dep : T → T → Int) (fuel : Nat) (x : T) (tail r : List (List T))
    (h : insGo dep fuel x tail = some r) (k : Nat) : insGo dep (fuel + k) x tail = some r := by
  induction fuel generalizing x tail r with
  | zero => simp [insGo] at h
  | succ fuel ih =>
    rw [Nat.add_right_comm]
    simp only [insGo] at h ⊢
    cases hdr : tail.drop (findPos dep x 0 0 tail) with
    | nil => rw [hdr] at h; exact h
    | cons lvl post =>
      rw [hdr] at h
      simp only [Option.bind_eq_bind, Option.bind_eq_some_iff] at h ⊢
      obtain ⟨a, hs, h⟩ := h
      exact ⟨a, shuffle_mono _ _ dep x (fun e post r hr => ih e post r hr) _ _ _ hs, h⟩

/-! ### no empty level -/

theorem shuffle_nonempty (rec : T → List (List T) → Option (List (List T))) (dep : T → T → Int) (x : T)
    (hrec : ∀ e post r, (∀ l ∈ post, l ≠ []) → rec e post = some r → ∀ l ∈ r, l ≠ [])
    (lvl : List T) (post : List (List T)) (hp : ∀ l ∈ post, l ≠ []) (r)
    (h : shuffle rec dep x lvl post = some r) : (∀ l ∈ r.1, l ≠ []) ∧ ∀ l ∈ r.2.2, l ≠ [] := by
  induction lvl generalizing post r with
  | nil => simp [shuffle] at h; subst h; simpa using hp
  | cons e es ih =>
    simp only [shuffle] at h
    split at h
    · simp only [Option.bind_eq_bind, Option.bind_eq_some_iff] at h
      obtain ⟨p1, e1, h⟩ := h
      exact ih p1 (hrec e post p1 hp e1) r h
    · split at h
      · simp only [Option.bind_eq_bind, Option.bind_eq_some_iff, Option.some.injEq] at h
        obtain ⟨a, hs, rfl⟩ := h
        have := ih post hp a hs
        refine ⟨?_, this.2⟩
        intro l hl
        rcases List.mem_cons.mp hl with rfl | hl
        · simp
        · exact this.1 l hl
      · split at h
        · exact ih post hp r h
        · simp only [Option.bind_eq_bind, Option.bind_eq_some_iff, Option.some.injEq] at h
          obtain ⟨a, hs, rfl⟩ := h
          exact ih post hp a hs

theorem insGo_nonempty (dep : T → T → Int) (fuel : Nat) (x : T) (tail r : List (List T))
    (ht : ∀ l ∈ tail, l ≠ []) (h : insGo dep fuel x tail = some r) : r ≠ [] ∧ ∀ l ∈ r, l ≠ [] := by
  induction fuel generalizing x tail r with
  | zero => simp [insGo] at h
  | succ fuel ih =>
    simp only [insGo] at h
    generalize findPos dep x 0 0 tail = p at h
    cases hdr : tail.drop p with
    | nil =>
      rw [hdr] at h; simp at h; subst h
      refine ⟨by simp, ?_⟩
      intro l hl
      rcases List.mem_append.mp hl with hl | hl
      · exact ht l hl
      · simp at hl; simp [hl]
    | cons lvl post =>
      rw [hdr] at h
      simp only [Option.bind_eq_bind, Option.bind_eq_some_iff, Option.some.injEq] at h
      obtain ⟨a, hs, rfl⟩ := h
      have hpost : ∀ l ∈ post, l ≠ [] := fun l hl =>
        ht l (List.mem_of_mem_drop (i := p) (by rw [hdr]; simp [hl]))
      have := shuffle_nonempty _ dep x (fun e post r hp hr => (ih e post r hp hr).2) lvl post hpost a hs
      refine ⟨by simp, ?_⟩
      intro l hl
      simp only [List.append_assoc, List.mem_append, List.mem_cons] at hl
      rcases hl with hl | hl | rfl | hl
      · exact ht l (List.mem_of_mem_take hl)
      · exact this.1 l hl
      · simp
      · exact this.2 l hl

/-! ### order -/

/-- Every level needs only strictly earlier levels. -/
def InOrder (needs : T → T → Prop) : List (List T) → Prop
  | [] => True
  | l :: ls => (∀ a ∈ l, ∀ b ∈ l, ¬ needs a b) ∧ (∀ a ∈ l, ∀ b ∈ ls.flatten, ¬ needs a b) ∧ InOrder needs ls

theorem inOrder_append (needs : T → T → Prop) (a b : List (List T)) :
    InOrder needs (a ++ b) ↔ InOrder needs a ∧ InOrder needs b ∧ ∀ u ∈ a.flatten, ∀ v ∈ b.flatten, ¬ needs u v := by
  induction a with
  | nil => simp [InOrder]
  | cons l ls ih =>
    simp only [List.cons_append, InOrder, ih, List.flatten_append, List.flatten_cons, List.mem_append]
    constructor
    · rintro ⟨h1, h2, h3, h4, h5⟩
      refine ⟨⟨h1, fun a ha b hb => h2 a ha b (.inl hb), h3⟩, h4, ?_⟩
      rintro u (hu | hu) v hv
      · exact h2 u hu v (.inr hv)
      · exact h5 u hu v hv
    · rintro ⟨⟨h1, h2, h3⟩, h4, h5⟩
      refine ⟨h1, ?_, h3, h4, fun u hu v hv => h5 u (.inr hu) v hv⟩
      rintro a ha b (hb | hb)
      · exact h2 a ha b hb
      · exact h5 a (.inl ha) b hb

/-- The answers say exactly what is needed: 1 = "the other needs me", 2 = "I need the other". -/
def Consistent (dep : T → T → Int) (needs : T → T → Prop) : Prop :=
  ∀ a b, (dep a b = 1 ↔ needs b a) ∧ (dep a b = 2 ↔ needs a b)

theorem Consistent.irrefl {dep : T → T → Int} {needs : T → T → Prop} (h : Consistent dep needs) (a : T) :
    ¬ needs a a := by
  intro hn
  have h1 := (h a a).1.mpr hn
  have h2 := (h a a).2.mpr hn
  omega

/-- The answers say which elements need the one asked; of those the one asked needs, some may be missed. -/
structure Sees (dep : T → T → Int) (needs : T → T → Prop) : Prop where
  one : ∀ a b, dep a b = 1 ↔ needs b a
  two : ∀ a b, dep a b = 2 → needs a b
  irrefl : ∀ a, ¬ needs a a

theorem Consistent.sees {dep : T → T → Int} {needs : T → T → Prop} (h : Consistent dep needs) : Sees dep needs :=
  ⟨fun a b => (h a b).1, fun a b => (h a b).2.mp, h.irrefl⟩

theorem scanLevel_spec {dep : T → T → Int} {needs : T → T → Prop} (hc : Sees dep needs) (x : T)
    (here cur : Nat) (l : List T) (hb : ∀ j ∈ l, needs j x → dep j x = 2) :
    ((∃ j ∈ l, needs j x) ∧ scanLevel dep x here cur l = (here, true))
    ∨ ((∀ j ∈ l, ¬ needs j x) ∧ ∃ c, scanLevel dep x here cur l = (c, false)
        ∧ ((c = cur ∧ ∀ j ∈ l, ¬ needs x j) ∨ c = here + 1)) := by
  induction l generalizing cur with
  | nil => right; simp [scanLevel]
  | cons j js ih =>
    have ih := ih (hb := fun k hk => hb k (by simp [hk]))
    have h2' : dep j x = 2 ↔ needs j x := ⟨hc.two j x, hb j (by simp)⟩
    simp only [scanLevel]
    by_cases h1 : dep j x = 1
    · have hn : ¬ needs j x := by rw [← h2']; omega
      rw [if_pos h1]
      rcases ih (here + 1) with ⟨⟨k, hk, hk2⟩, e⟩ | ⟨hall, c, e, hcc⟩
      · left; exact ⟨⟨k, by simp [hk], hk2⟩, e⟩
      · right
        refine ⟨?_, c, e, .inr ?_⟩
        · intro k hk
          rcases List.mem_cons.mp hk with rfl | hk
          · exact hn
          · exact hall k hk
        · rcases hcc with ⟨h, -⟩ | h <;> exact h
    · rw [if_neg h1]
      by_cases h2 : dep j x = 2
      · rw [if_pos h2]
        left; exact ⟨⟨j, by simp, h2'.mp h2⟩, rfl⟩
      · rw [if_neg h2]
        have hn : ¬ needs j x := by rw [← h2']; exact h2
        have hn' : ¬ needs x j := by rw [← hc.one j x]; exact h1
        rcases ih cur with ⟨⟨k, hk, hk2⟩, e⟩ | ⟨hall, c, e, hcc⟩
        · left; exact ⟨⟨k, by simp [hk], hk2⟩, e⟩
        · right
          refine ⟨?_, c, e, ?_⟩
          · intro k hk
            rcases List.mem_cons.mp hk with rfl | hk
            · exact hn
            · exact hall k hk
          · rcases hcc with ⟨h, h'⟩ | h
            · left
              refine ⟨h, ?_⟩
              intro k hk
              rcases List.mem_cons.mp hk with rfl | hk
              · exact hn'
              · exact h' k hk
            · exact .inr h

theorem findPos_spec {dep : T → T → Int} {needs : T → T → Prop} (hc : Sees dep needs) (x : T)
    (here cur : Nat) (ls : List (List T)) (hb : ∀ j ∈ ls.flatten, needs j x → dep j x = 2) :
    (∃ l1 L l2, ls = l1 ++ L :: l2 ∧ findPos dep x here cur ls = here + l1.length
        ∧ (∃ j ∈ L, needs j x) ∧ ∀ j ∈ l1.flatten, ¬ needs j x)
    ∨ ((∀ j ∈ ls.flatten, ¬ needs j x) ∧
        ((findPos dep x here cur ls = cur ∧ ∀ j ∈ ls.flatten, ¬ needs x j)
        ∨ ∃ l1 l2, ls = l1 ++ l2 ∧ findPos dep x here cur ls = here + l1.length ∧ ∀ j ∈ l2.flatten, ¬ needs x j)) := by
  induction ls generalizing here cur with
  | nil => right; simp [findPos]
  | cons l ls ih =>
    have ih := ih (hb := fun k hk => hb k (by rw [List.flatten_cons]; exact List.mem_append_right _ hk))
    simp only [findPos]
    rcases scanLevel_spec hc x here cur l (fun k hk => hb k (by rw [List.flatten_cons]; exact List.mem_append_left _ hk)) with ⟨hex, e⟩ | ⟨hall, c, e, hcc⟩
    · left
      exact ⟨[], l, ls, rfl, by simp [e], hex, by simp⟩
    · rw [e]
      simp only [Bool.false_eq_true, if_false]
      rcases ih (here + 1) c with ⟨l1, L, l2, rfl, hp, hex, hno⟩ | ⟨hno, h⟩
      · left
        refine ⟨l :: l1, L, l2, rfl, by rw [hp]; simp; omega, hex, ?_⟩
        intro j hj
        simp only [List.flatten_cons, List.mem_append] at hj
        rcases hj with hj | hj
        · exact hall j hj
        · exact hno j hj
      · right
        refine ⟨?_, ?_⟩
        · intro j hj
          simp only [List.flatten_cons, List.mem_append] at hj
          rcases hj with hj | hj
          · exact hall j hj
          · exact hno j hj
        · rcases h with ⟨hp, hn⟩ | ⟨l1, l2, rfl, hp, hn⟩
          · rcases hcc with ⟨rfl, h'⟩ | hcc
            · left
              refine ⟨hp, ?_⟩
              intro j hj
              simp only [List.flatten_cons, List.mem_append] at hj
              rcases hj with hj | hj
              · exact h' j hj
              · exact hn j hj
            · right
              exact ⟨[l], ls, rfl, by rw [hp, hcc]; rfl, hn⟩
          · right
            exact ⟨l :: l1, l2, rfl, by rw [hp]; simp; omega, hn⟩

theorem shuffle_ordered {dep : T → T → Int} {needs : T → T → Prop} (hc : Sees dep needs) (ha : Answers dep)
    (rec : T → List (List T) → Option (List (List T))) (x : T)
    (hrec : ∀ e post r, needs e x → InOrder needs post → (∀ n ∈ post.flatten, ¬ needs e n) → rec e post = some r →
      InOrder needs r ∧ r.flatten.Perm (e :: post.flatten))
    (lvl : List T) (post : List (List T)) (hpost : InOrder needs post)
    (hl : ∀ a ∈ lvl, ∀ b ∈ lvl ++ post.flatten, ¬ needs a b) (hx : ∀ e ∈ lvl, ¬ needs x e) (r)
    (h : shuffle rec dep x lvl post = some r) :
    r.1 = [] ∧ InOrder needs r.2.2 ∧ (∀ k ∈ r.2.1, k ∈ lvl ∧ ¬ needs k x)
      ∧ ∀ b ∈ r.2.2.flatten, b ∈ lvl ∨ b ∈ post.flatten := by
  induction lvl generalizing post r with
  | nil => simp [shuffle] at h; subst h; simpa using hpost
  | cons e es ih =>
    simp only [shuffle] at h
    have hx' : ∀ e ∈ es, ¬ needs x e := fun k hk => hx k (by simp [hk])
    rcases ha x e with hz | hz | hz
    · simp only [hz] at h
      simp [Option.bind_eq_some_iff] at h
      obtain ⟨a, b, c, hs, rfl⟩ := h
      obtain ⟨h1, h2, h3, h4⟩ := ih post hpost
        (fun a ha b hb => hl a (by simp [ha]) b (by simp at hb ⊢; grind)) hx' _ hs
      refine ⟨h1, h2, ?_, ?_⟩
      · intro k hk
        rcases List.mem_cons.mp hk with rfl | hk
        · refine ⟨by simp, ?_⟩
          rw [← hc.one x k]; omega
        · exact ⟨by simp [(h3 k hk).1], (h3 k hk).2⟩
      · intro b hb
        rcases h4 b hb with h | h
        · left; simp [h]
        · exact .inr h
    · simp only [hz] at h
      simp [Option.bind_eq_some_iff] at h
      obtain ⟨p1, e1, hs⟩ := h
      obtain ⟨ho, hperm⟩ := hrec e post p1 ((hc.one x e).mp hz) hpost (fun n hn => hl e (by simp) n (by simp at hn ⊢; grind)) e1
      obtain ⟨h1, h2, h3, h4⟩ := ih p1 ho (by
        intro a ha b hb
        rcases List.mem_append.mp hb with hb | hb
        · exact hl a (by simp [ha]) b (by simp [hb])
        · have := hperm.mem_iff.mp hb
          exact hl a (by simp [ha]) b (by simp at this ⊢; grind)) hx' _ hs
      refine ⟨h1, h2, fun k hk => ⟨by simp [(h3 k hk).1], (h3 k hk).2⟩, ?_⟩
      intro b hb
      rcases h4 b hb with h | h
      · left; simp [h]
      · have := hperm.mem_iff.mp h
        simp at this ⊢; grind
    · exact absurd (hc.two x e hz) (hx e (by simp))

/-- Inserting keeps the order if the new element sits "transitively", those present that need it are seen to do so, and elements that need
something are never missed. -/
theorem insGo_ordered {dep : T → T → Int} {needs : T → T → Prop} (hc : Sees dep needs) (ha : Answers dep)
    (hleaf : ∀ d e n, needs d e → needs e n → dep d e = 2)
    (fuel : Nat) (x : T) (tail r : List (List T)) (ho : InOrder needs tail)
    (ht : ∀ d ∈ tail.flatten, ∀ n ∈ tail.flatten, needs d x → needs x n → needs d n)
    (hseen : ∀ d ∈ tail.flatten, needs d x → dep d x = 2) (h : insGo dep fuel x tail = some r) : InOrder needs r := by
  induction fuel generalizing x tail r with
  | zero => simp [insGo] at h
  | succ fuel ih =>
    simp only [insGo] at h
    have key : ∃ pre suf, tail = pre ++ suf ∧ findPos dep x 0 0 tail = pre.length
        ∧ (∀ j ∈ pre.flatten, ¬ needs j x) ∧ (∀ n ∈ suf.flatten, ¬ needs x n) := by
      rcases findPos_spec hc x 0 0 tail hseen with ⟨l1, L, l2, e, hp, ⟨j, hj, hjx⟩, hno⟩ | ⟨hno, h⟩
      · refine ⟨l1, L :: l2, e, by simpa using hp, hno, ?_⟩
        intro n hn hxn
        have hd : needs j n := ht j (by rw [e]; simp; grind) n (by rw [e]; simp at hn ⊢; grind) hjx hxn
        rw [e, inOrder_append] at ho
        have hL := ho.2.1
        simp only [InOrder] at hL
        simp only [List.flatten_cons, List.mem_append] at hn
        rcases hn with hn | hn
        · exact hL.1 j hj n hn hd
        · exact hL.2.1 j hj n hn hd
      · rcases h with ⟨hp, hn⟩ | ⟨l1, l2, e, hp, hn⟩
        · exact ⟨[], tail, rfl, by simpa using hp, by simp, hn⟩
        · refine ⟨l1, l2, e, by simpa using hp, ?_, hn⟩
          intro j hj; exact hno j (by rw [e]; simp at hj ⊢; grind)
    obtain ⟨pre, suf, rfl, hp, hpre, hsuf⟩ := key
    rw [hp] at h
    simp only [List.drop_left, List.take_left] at h
    obtain ⟨o1, o2, o3⟩ := (inOrder_append _ _ _).mp ho
    cases suf with
    | nil =>
      simp at h; subst h
      rw [inOrder_append]
      refine ⟨o1, ?_, ?_⟩
      · simp [InOrder]; exact hc.irrefl x
      · intro u hu v hv
        simp at hv; subst hv
        exact hpre u hu
    | cons lvl post =>
      simp only [Option.bind_eq_bind, Option.bind_eq_some_iff, Option.some.injEq] at h
      obtain ⟨⟨bef, kept, post'⟩, hs, rfl⟩ := h
      simp only [InOrder] at o2
      obtain ⟨h1, h2, h3, h4⟩ := shuffle_ordered hc ha (insGo dep fuel) x
        (by
          intro e post r hex hpo hne hr
          exact ⟨ih e post r hpo (fun d _ n hn _ hen => absurd hen (hne n hn)) (fun d _ hde => hleaf d e x hde hex) hr, insGo_perm dep ha fuel e post r hr⟩)
        lvl post o2.2.2
        (by
          intro a ha b hb
          rcases List.mem_append.mp hb with hb | hb
          · exact o2.1 a ha b hb
          · exact o2.2.1 a ha b hb)
        (fun e he => hsuf e (by simp [he])) _ hs
      simp only at h1 h2 h3 h4
      subst h1
      have hin : ∀ b, b ∈ lvl ∨ b ∈ post.flatten → b ∈ (lvl :: post).flatten := by
        intro b hb; simpa using hb
      rw [List.append_nil, inOrder_append]
      refine ⟨o1, ⟨?_, ?_, h2⟩, ?_⟩
      · intro a hma b hmb
        rcases List.mem_cons.mp hma with ea | hka <;> rcases List.mem_cons.mp hmb with eb | hkb
        · subst ea; subst eb; exact hc.irrefl _
        · subst ea; exact hsuf b (hin b (.inl (h3 b hkb).1))
        · subst eb; exact (h3 a hka).2
        · exact o2.1 a (h3 a hka).1 b (h3 b hkb).1
      · intro a ha b hb
        rcases List.mem_cons.mp ha with rfl | ha
        · exact hsuf b (hin b (h4 b hb))
        · rcases h4 b hb with hb | hb
          · exact o2.1 a (h3 a ha).1 b hb
          · exact o2.2.1 a (h3 a ha).1 b hb
      · intro u hu v hv
        simp only [List.flatten_cons, List.cons_append, List.mem_cons, List.mem_append] at hv
        rcases hv with rfl | hv | hv
        · exact hpre u hu
        · exact o3 u hu v (hin v (.inl (h3 v hv).1))
        · exact o3 u hu v (hin v (h4 v hv))

end Corda
