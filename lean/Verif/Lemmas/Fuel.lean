import Verif.Lemmas.Descriptors

/-
The fuel of `dispatch` is enough: more fuel than the height of the tree does not change anything.
-/

namespace Corda
open Prog

/-- All nodes of the level have at most this height. -/
def Low (h : Nat) (c : Cursor) : Prop := ∀ n ∈ c.level, n.height ≤ h

theorem Low.mono {h h' : Nat} {c : Cursor} (hl : h ≤ h') (hc : Low h c) : Low h' c :=
  fun n hn => Nat.le_trans (hc n hn) hl

theorem Low.keeps {h : Nat} {c c' : Cursor} (hk : Keeps c c') (hc : Low h c) : Low h c' := by
  intro n hn
  rw [hk.1] at hn
  exact hc n hn

theorem height_kids {v : Atom} {ks : List Node} {k : Node} (hk : k ∈ ks) : k.height + 1 ≤ (Node.mk v ks).height := by
  have : ∀ ks : List Node, k ∈ ks → k.height ≤ Node.height.heights ks := by
    intro ks hk
    induction ks with
    | nil => simp at hk
    | cons a as ih =>
      simp only [Node.height.heights]
      rcases List.mem_cons.1 hk with h | h
      · subst h; exact Nat.le_max_left _ _
      · exact Nat.le_trans (ih h) (Nat.le_max_right _ _)
  simp only [Node.height]
  exact Nat.succ_le_succ (this ks hk)

theorem Low.enter {h : Nat} {c : Cursor} (hs : c.cur.isSome = true) (hc : Low (h + 1) c) : Low h c.enter := by
  obtain ⟨p, cu, r, u⟩ := c
  cases cu with
  | none => simp at hs
  | some n =>
    cases n with
    | mk v ks =>
      intro k hk
      have := hc (.mk v ks) (by simp [Cursor.level])
      have := height_kids (v := v) (ks := ks) (k := k) (by simpa [Cursor.enter, Cursor.level] using hk)
      omega

def Agree {α : Type} (h : Nat) (p q : Prog α) : Prop := ∀ c, Low h c → p c = q c
def AgreeOn {α : Type} (h : Nat) (p q : Prog α) : Prop := ∀ c, c.cur.isSome = true → Low h c → p c = q c

theorem Agree.on {α : Type} {h : Nat} {p q : Prog α} (a : Agree h p q) : AgreeOn h p q := fun c _ hl => a c hl
theorem Agree.refl {α : Type} {h : Nat} (p : Prog α) : Agree h p p := fun _ _ => rfl
theorem AgreeOn.refl {α : Type} {h : Nat} (p : Prog α) : AgreeOn h p p := fun _ _ _ => rfl
theorem AgreeOn.mono {α : Type} {h h' : Nat} {p q : Prog α} (hl : h ≤ h') (a : AgreeOn h' p q) : AgreeOn h p q :=
  fun c hs hc => a c hs (hc.mono hl)

theorem agreeOn_bind {α β : Type} {h : Nat} {p p' : Prog α} {f f' : α → Prog β} (hp : ScopedOn p)
    (ha : AgreeOn h p p') (hf : ∀ a, AgreeOn h (f a) (f' a)) : AgreeOn h (p >>= f) (p' >>= f') := by
  intro c hs hc
  rw [bind_def, bind_def, ← ha c hs hc]
  have hk := (hp c hs).1
  rcases hpc : p c with ⟨r, c'⟩
  rw [hpc] at hk
  cases r with
  | ok a => exact hf a c' (hk.2.2 hs) (hc.keeps hk)
  | throw m => rfl
  | ub m => rfl

/-- The same start. -/
theorem agreeOn_same {α β : Type} {h : Nat} {p : Prog α} {f f' : α → Prog β} (hp : ScopedOn p)
    (hf : ∀ a, AgreeOn h (f a) (f' a)) : AgreeOn h (p >>= f) (p >>= f') := agreeOn_bind hp (AgreeOn.refl p) hf

theorem agree_guard {α β : Type} {h : Nat} {p : Prog α} {f f' : α → Prog β} (hp : Scoped p) (hg : Guard p)
    (hf : ∀ a, AgreeOn h (f a) (f' a)) : Agree h (p >>= f) (p >>= f') := by
  intro c hc
  rw [bind_def, bind_def]
  have hk := (hp c).1
  have hg := hg c
  rcases hpc : p c with ⟨r, c'⟩
  rw [hpc] at hk hg
  cases r with
  | ok a => exact hf a c' (hg a rfl) (hc.keeps hk)
  | throw m => rfl
  | ub m => rfl

theorem agreeOn_autoEnter {α : Type} {h : Nat} {p q : Prog α} {nx : Bool} (ha : Agree h p q) :
    AgreeOn (h + 1) (autoEnter p nx) (autoEnter q nx) := by
  intro c hs hc
  unfold autoEnter scope
  have hl := Low.enter hs hc
  cases nx
  · simp only [Bool.false_eq_true, if_false]
    rw [ha _ (hl.keeps (Cursor.next_keeps _))]
  · simp only [if_true]
    rw [ha _ ((hl.keeps (Cursor.next_keeps _)).keeps (Cursor.next_keeps _))]

theorem agreeOn_autoListEnter {α : Type} {h : Nat} {p q : Nat → Prog α} {nx : Bool} (ha : ∀ n, Agree h (p n) (q n)) :
    AgreeOn (h + 1) (autoListEnter p nx) (autoListEnter q nx) := by
  intro c hs hc
  unfold autoListEnter scope
  have hl := Low.enter hs hc
  cases nx
  · simp only [Bool.false_eq_true, if_false]
    rw [ha _ _ hl]
  · simp only [if_true]
    rw [ha _ _ (hl.keeps (Cursor.next_keeps _))]

theorem agree_whileNext {α : Type} {h : Nat} {p q : Prog α} (hp : ScopedOn p) (ha : AgreeOn h p q) :
    Agree h (whileNext p) (whileNext q) := by
  have : ∀ fuel, Agree h (whileNextGo p fuel) (whileNextGo q fuel) := by
    intro fuel
    induction fuel with
    | zero => exact Agree.refl _
    | succ fuel ih =>
      intro c hc
      unfold whileNextGo
      rw [bind_def, bind_def]
      simp only [Prog.next]
      cases hb : c.next.1 with
      | false => rfl
      | true =>
        simp only [if_true]
        exact agreeOn_bind hp ha (fun a => agreeOn_bind (scoped_whileNextGo hp _).on ih.on fun _ => AgreeOn.refl _) _
          (c.next_some_of_true hb) (hc.keeps c.next_keeps)
  intro c hc
  exact this _ c hc

theorem agree_foldNext {σ : Type} {h : Nat} {p q : σ → Prog σ} (hp : ∀ s, ScopedOn (p s))
    (ha : ∀ s, AgreeOn h (p s) (q s)) (s : σ) : Agree h (foldNext p s) (foldNext q s) := by
  have : ∀ fuel s, Agree h (foldNextGo p fuel s) (foldNextGo q fuel s) := by
    intro fuel
    induction fuel with
    | zero => intro s; exact Agree.refl _
    | succ fuel ih =>
      intro s c hc
      unfold foldNextGo
      rw [bind_def, bind_def]
      simp only [Prog.next]
      cases hb : c.next.1 with
      | false => rfl
      | true =>
        simp only [if_true]
        exact agreeOn_bind (hp s) (ha s) (fun a => (ih a).on) _ (c.next_some_of_true hb) (hc.keeps c.next_keeps)
  intro c hc
  exact this _ s c hc

theorem agree_ite {α : Type} {h : Nat} {b : Prop} [Decidable b] {p q p' q' : Prog α} (hp : Agree h p p')
    (hq : Agree h q q') : Agree h (if b then p else q) (if b then p' else q') := by split <;> assumption

theorem agree_dispatchBody {r r' : Prog Element} {h : Nat} (hr : Scoped r) (ha : AgreeOn h r r') :
    Agree h (dispatchBody r) (dispatchBody r') := by
  have hv : ∀ {α : Type} (k : Nat) {p q : Prog α}, AgreeOn h p q →
      Agree h (do validateAndNext k; p) (do validateAndNext k; q) := fun k p q hpq =>
    agree_guard (scoped_validateAndNext k) (guard_validateAndNext k) fun _ => hpq
  -- entering needs a height of at least one
  have hv1 : ∀ (k : Nat) {p q : Prog Element}, Agree (h - 1) p q →
      Agree h (do validateAndNext k; autoEnter p) (do validateAndNext k; autoEnter q) := by
    intro k p q hpq
    apply hv
    cases h with
    | zero =>
      intro c hs hc
      cases hn : c.cur with
      | none => rw [hn] at hs; simp at hs
      | some n =>
        have := hc n (by simp [Cursor.level, hn])
        cases n
        simp [Node.height] at this
    | succ h => exact agreeOn_autoEnter hpq
  have ha1 := ha.mono (show h - 1 ≤ h by omega)
  have ha2 := ha.mono (show h - 1 - 1 ≤ h by omega)
  have hle : ∀ {α : Type} {p q : Prog α} (k : Nat), Agree (k - 1) p q →
      AgreeOn k (autoListEnter (fun _ => p)) (autoListEnter (fun _ => q)) := by
    intro α p q k hpq
    cases k with
    | zero =>
      intro c hs hc
      cases hn : c.cur with
      | none => rw [hn] at hs; simp at hs
      | some n =>
        have := hc n (by simp [Cursor.level, hn])
        cases n
        simp [Node.height] at this
    | succ k => exact agreeOn_autoListEnter fun _ => hpq
  have hcomp : Agree (h - 1) (compositeBody r) (compositeBody r') :=
    agree_guard (scoped_getString _) (guard_getString _) fun _ =>
    agreeOn_same scoped_next.on fun _ => agreeOn_same (scoped_getString _).on fun _ =>
    agreeOn_same scoped_next.on fun _ => agreeOn_same scopedOn_stringList fun _ =>
    agreeOn_same scoped_next.on fun _ => agreeOn_bind hr.on ha1 fun d =>
    agreeOn_same (scoped_asDescriptor d).on fun _ => agreeOn_same scoped_next.on fun _ =>
    agreeOn_bind (scopedOn_autoListEnter fun _ => scoped_whileNext
      (scopedOn_bind hr.on fun e => (scoped_asField e).on))
      (hle _ (agree_whileNext (scopedOn_bind hr.on fun e => (scoped_asField e).on)
        (agreeOn_bind hr.on ha2 fun _ => AgreeOn.refl _))) fun _ => AgreeOn.refl _
  have hrest : Agree (h - 1) (restrictedBody r) (restrictedBody r') :=
    agree_guard (scoped_readString _) (guard_readString _) fun _ =>
    agreeOn_same (scoped_readString _).on fun _ => agreeOn_same scopedOn_stringList fun _ =>
    agreeOn_same scoped_next.on fun _ => agreeOn_same (scoped_readString _).on fun _ =>
    agreeOn_bind hr.on ha1 fun d =>
    agreeOn_same (scoped_asDescriptor d).on fun _ => agreeOn_same scoped_next.on fun _ =>
    agreeOn_bind (scopedOn_autoListEnter fun _ => scoped_whileNext
      (scopedOn_bind hr.on fun e => (scoped_asChoice e).on))
      (hle _ (agree_whileNext (scopedOn_bind hr.on fun e => (scoped_asChoice e).on)
        (agreeOn_bind hr.on ha2 fun _ => AgreeOn.refl _))) fun _ => AgreeOn.refl _
  have hsch : Agree h (schemaBuild r) (schemaBuild r') :=
    hv _ (agreeOn_bind (scopedOn_autoListEnter fun _ => scoped_foldNext (fun ls =>
      scopedOn_autoListEnter fun _ => scoped_foldNext (fun ls => scopedOn_schemaStep hr ls) ls) _)
      (hle _ (agree_foldNext (fun ls => scopedOn_autoListEnter fun _ =>
          scoped_foldNext (fun ls => scopedOn_schemaStep hr ls) ls)
        (fun ls => hle _ (agree_foldNext (fun ls => scopedOn_schemaStep hr ls)
          (fun ls => agreeOn_bind hr.on (ha.mono (by omega)) fun _ => AgreeOn.refl _) _)) _))
      fun _ => AgreeOn.refl _)
  have henv : Agree (h - 1) (envelopeBody r) (envelopeBody r') := by
    have hg : Guard consumeBlob := by
      intro c a hh
      cases hc : c.cur with
      | none =>
        have : attestDescribed c = (.throw "Expected a Described type", c) := by
          simp [attestDescribed, attest, Cursor.type, hc]
        unfold consumeBlob at hh
        rw [bind_of_throw this] at hh
        simp at hh
      | some n => exact (scoped_consumeBlob c).1.2.2 (by simp [hc])
    exact agree_guard scoped_consumeBlob hg fun _ => agreeOn_same scoped_next.on fun _ =>
      agreeOn_bind hr.on ha1 fun _ => AgreeOn.refl _
  have hbuild : ∀ id, Agree h (build r id) (build r' id) := by
    intro id
    unfold build
    exact agree_ite (Agree.refl _) <| agree_ite (hv1 _ henv) <| agree_ite hsch <| agree_ite (Agree.refl _) <|
      agree_ite (Agree.refl _) <| agree_ite (hv1 _ hcomp) <| agree_ite (hv1 _ hrest) <| Agree.refl _
  exact agree_guard (scoped_attest _ _) (guard_attest _ _ (by decide)) fun _ =>
    agreeOn_same (scoped_look _).on fun id => (hbuild id).on

/-- Any two amounts of fuel that are at least the height give the same. -/
theorem dispatch_agree (n m h : Nat) (hn : h ≤ n) (hm : h ≤ m) : AgreeOn h (dispatch n) (dispatch m) := by
  induction n generalizing m h with
  | zero =>
    intro c hs hc
    cases hq : c.cur with
    | none => rw [hq] at hs; simp at hs
    | some k =>
      have := hc k (by simp [Cursor.level, hq])
      cases k
      simp [Node.height] at this
      omega
  | succ n ih =>
    cases h with
    | zero =>
      intro c hs hc
      cases hq : c.cur with
      | none => rw [hq] at hs; simp at hs
      | some k =>
        have := hc k (by simp [Cursor.level, hq])
        cases k
        simp [Node.height] at this
    | succ h =>
      cases m with
      | zero => omega
      | succ m =>
        refine (agree_guard (scoped_attest _ _) (guard_attest _ _ (by decide)) fun _ => ?_).on
        exact agreeOn_autoEnter (agree_dispatchBody (scoped_dispatch n) (ih m h (by omega) (by omega)))

end Corda
