import Verif.Lemmas.Tree
import Verif.Spec.Malformed

/-
A small program logic: "no undefined behaviour, and this holds on return".
-/

namespace Corda
open Prog Spec

/-- No undefined behaviour, and the value returned (if any) satisfies `Q`. -/
def Res.Sat {α : Type} (Q : α → Prop) : Res α → Prop
  | .ok a => Q a
  | .throw _ => True
  | .ub _ => False

theorem Res.Sat.defined {α : Type} {Q : α → Prop} {r : Res α} (h : r.Sat Q) : r.Defined := by
  cases r <;> first | trivial | exact h

theorem Res.Sat.mono {α : Type} {Q R : α → Prop} {r : Res α} (h : r.Sat Q) (hq : ∀ a, Q a → R a) : r.Sat R := by
  cases r <;> first | trivial | exact hq _ h | exact h

theorem Res.sat_bind {α β : Type} {Q : α → Prop} {R : β → Prop} {r : Res α} {f : α → Res β} (h : r.Sat Q)
    (hf : ∀ a, Q a → (f a).Sat R) : (r.bind f).Sat R := by
  cases r <;> first | trivial | exact hf _ h | exact h

/-- Started where `P` holds the program has no undefined behaviour, and on return `Q` holds. -/
def Safe {α : Type} (P : Cursor → Prop) (p : Prog α) (Q : α → Cursor → Prop) : Prop :=
  ∀ c, P c → (p c).1.Sat (fun a => Q a (p c).2)

theorem safe_bind {α β : Type} {P : Cursor → Prop} {p : Prog α} {R : α → Cursor → Prop} {f : α → Prog β}
    {Q : β → Cursor → Prop} (hp : Safe P p R) (hf : ∀ a, Safe (R a) (f a) Q) : Safe P (p >>= f) Q := by
  intro c hc
  have h := hp c hc
  rw [bind_def]
  rcases hpc : p c with ⟨r, c'⟩
  rw [hpc] at h
  cases r with
  | ok a => exact hf a c' h
  | throw m => trivial
  | ub m => exact h

theorem safe_pure {α : Type} {P : Cursor → Prop} {Q : α → Cursor → Prop} (a : α) (h : ∀ c, P c → Q a c) :
    Safe P (pure a : Prog α) Q := fun c hc => h c hc

theorem safe_lift {α : Type} {P : Cursor → Prop} {Q : α → Prop} {r : Res α} (h : r.Sat Q) :
    Safe P (lift r) (fun a c => P c ∧ Q a) := fun c hc => h.mono fun _ ha => ⟨hc, ha⟩

theorem safe_pre {α : Type} {P : Cursor → Prop} {A : Prop} {p : Prog α} {Q : α → Cursor → Prop}
    (h : A → Safe P p Q) : Safe (fun c => P c ∧ A) p Q := fun c hc => h hc.2 c hc.1

/-- The cursor is at part `i` (or the last one). -/
def Pos (ps : List Node) (i : Nat) (c : Cursor) : Prop := c.cur = nth ps i ∧ c.rest = ps.drop (i + 1)

theorem nth_succ_of_drop {ps : List Node} {i : Nat} {n : Node} {ns : List Node} (h : ps.drop (i + 1) = n :: ns) :
    nth ps (i + 1) = some n ∧ ps.drop (i + 2) = ns := by
  have hl : i + 1 < ps.length := by
    rcases Nat.lt_or_ge (i + 1) ps.length with h' | h'
    · exact h'
    · rw [List.drop_eq_nil_of_le h'] at h; simp at h
  constructor
  · unfold nth
    rw [Nat.min_eq_left (by omega), ← List.head?_drop, h]
    rfl
  · rw [show i + 2 = (i + 1) + 1 from rfl, ← List.drop_drop, h]
    rfl

theorem nth_succ_of_end {ps : List Node} {i : Nat} (h : ps.drop (i + 1) = []) :
    nth ps (i + 1) = nth ps i ∧ ps.drop (i + 2) = [] := by
  rw [List.drop_eq_nil_iff] at h
  refine ⟨?_, List.drop_eq_nil_of_le (by omega)⟩
  unfold nth
  congr 1
  omega

theorem Pos.next {ps : List Node} {i : Nat} {c : Cursor} (h : Pos ps i c) : Pos ps (i + 1) c.next.2 := by
  obtain ⟨h1, h2⟩ := h
  unfold Cursor.next
  cases hr : c.rest with
  | nil =>
    rw [hr] at h2
    obtain ⟨a, b⟩ := nth_succ_of_end h2.symm
    exact ⟨by simp only [h1, a], by simp only [hr, b]⟩
  | cons n ns =>
    rw [hr] at h2
    obtain ⟨a, b⟩ := nth_succ_of_drop h2.symm
    exact ⟨a.symm, b.symm⟩

theorem safe_next {ps : List Node} {i : Nat} : Safe (Pos ps i) Prog.next (fun _ => Pos ps (i + 1)) :=
  fun _ hc => hc.next

theorem nth_isSome {ps : List Node} (i : Nat) (h : ps ≠ []) : ∃ n, nth ps i = some n := by
  unfold nth
  have : 0 < ps.length := List.length_pos_iff.mpr h
  exact ⟨_, List.getElem?_eq_getElem (by omega)⟩

theorem nth_mem {ps : List Node} {i : Nat} {n : Node} (h : nth ps i = some n) : n ∈ ps :=
  List.mem_of_getElem? h

theorem nth_ne_nil {ps : List Node} {i : Nat} {n : Node} (h : nth ps i = some n) : ps ≠ [] := by
  rintro rfl; simp [nth] at h

theorem safe_getString {ps : List Node} {i : Nat} :
    Safe (Pos ps i) (getString false)
      (fun s c => Pos ps i c ∧ ∃ ks, nth ps i = some (.mk (.string s) ks)) := by
  intro c hc
  cases hn : c.cur with
  | none =>
    have : getString false c = (.throw "Expected a String", c) := by simp [getString, Cursor.val, hn]
    rw [this]; trivial
  | some n =>
    rw [getString_at hn]
    cases n with
    | mk v ks =>
      cases v <;> first | trivial | skip
      exact ⟨hc, ks, by rw [← hc.1, hn]⟩

theorem safe_getStringNull {ps : List Node} {i : Nat} (b : Bool) :
    Safe (Pos ps i) (getString b) (fun _ c => Pos ps i c) := by
  intro c hc
  cases hn : c.cur with
  | none =>
    have : getString b c = (.throw "Expected a String", c) := by simp [getString, Cursor.val, hn]
    rw [this]; trivial
  | some n =>
    rw [getString_at hn]
    cases n with
    | mk v ks => cases v <;> first | trivial | exact hc | (cases b <;> first | trivial | exact hc)

theorem safe_getBoolean {ps : List Node} {i : Nat} : Safe (Pos ps i) getBoolean (fun _ c => Pos ps i c) := by
  intro c hc
  unfold getBoolean
  split <;> first | trivial | exact hc

theorem safe_readString {ps : List Node} {i : Nat} (b : Bool) :
    Safe (Pos ps i) (readString b)
      (fun s c => Pos ps (i + 1) c ∧ (b = false →
        ∃ ks, nth ps i = some (.mk (.string s) ks) ∨ nth ps i = some (.mk (.symbol s) ks)) ∧ ps ≠ []) := by
  intro c hc
  have h2 : (readString b c).2 = c.next.2 := by
    unfold readString autoNext
    dsimp only
    split <;> (try split) <;> rfl
  cases hn : c.cur with
  | none =>
    have : (readString b c).1 = .throw "Expected a String but found" := by
      simp [readString, autoNext, Cursor.val, hn]
    rw [this]; trivial
  | some n =>
    have hne : nth ps i = some n := by rw [← hc.1, hn]
    have hpos : Pos ps (i + 1) (readString b c).2 := h2 ▸ hc.next
    cases n with
    | mk v ks =>
      cases v with
      | string s =>
        have : (readString b c).1 = .ok s := by simp [readString, autoNext, Cursor.val, hn, Node.val]
        rw [this]
        exact ⟨hpos, fun _ => ⟨ks, .inl hne⟩, nth_ne_nil hne⟩
      | symbol s =>
        have : (readString b c).1 = .ok s := by simp [readString, autoNext, Cursor.val, hn, Node.val]
        rw [this]
        exact ⟨hpos, fun _ => ⟨ks, .inr hne⟩, nth_ne_nil hne⟩
      | null =>
        cases b with
        | true =>
          have : (readString true c).1 = .ok [] := by simp [readString, autoNext, Cursor.val, hn, Node.val]
          rw [this]
          exact ⟨hpos, by simp, nth_ne_nil hne⟩
        | false =>
          have : (readString false c).1 = .throw "Expected a String but found" := by
            simp [readString, autoNext, Cursor.val, hn, Node.val]
          rw [this]; trivial
      | _ =>
        have : (readString b c).1 = .throw "Expected a String but found" := by
          simp [readString, autoNext, Cursor.val, hn, Node.val]
        rw [this]; trivial

/-- Two lists related element by element. -/
inductive Each {α β : Type} (Q : α → β → Prop) : List α → List β → Prop
  | nil : Each Q [] []
  | cons {a b as bs} : Q a b → Each Q as bs → Each Q (a :: as) (b :: bs)

theorem Each.mem {α β : Type} {Q : α → β → Prop} {as : List α} {bs : List β} (h : Each Q as bs) :
    ∀ b ∈ bs, ∃ a ∈ as, Q a b := by
  induction h with
  | nil => simp
  | cons hq _ ih =>
    intro b hb
    rcases List.mem_cons.mp hb with rfl | hb
    · exact ⟨_, by simp, hq⟩
    · obtain ⟨a, ha, hab⟩ := ih b hb
      exact ⟨a, by simp [ha], hab⟩

theorem mapRes_sat {α : Type} {g : Node → Res α} {Q : Node → α → Prop} {ns : List Node}
    (h : ∀ n ∈ ns, (g n).Sat (Q n)) : (mapRes g ns).Sat (fun as => Each Q ns as) := by
  induction ns with
  | nil => exact Each.nil
  | cons n ns ih =>
    simp only [mapRes, Res.bind_eq]
    refine Res.sat_bind (h n (by simp)) fun a ha => ?_
    refine Res.sat_bind (ih fun m hm => h m (by simp [hm])) fun as has => ?_
    exact Each.cons ha has

theorem foldRes_sat {σ : Type} {g : σ → Node → Res σ} {I : σ → Prop} {ns : List Node} {s : σ} (hs : I s)
    (h : ∀ n ∈ ns, ∀ s, I s → (g s n).Sat I) : (foldRes g s ns).Sat I := by
  induction ns generalizing s with
  | nil => exact hs
  | cons n ns ih =>
    simp only [foldRes, Res.bind_eq]
    exact Res.sat_bind (h n (by simp) s hs) fun a ha => ih ha fun m hm => h m (by simp [hm])

theorem safe_stringList {ps : List Node} {i : Nat} (hne : ps ≠ []) :
    Safe (Pos ps i) stringList (fun ss c => Pos ps i c ∧ ∃ m, nth ps i = some m ∧
      Each (fun n s => ∃ ks, n = .mk (.string s) ks) m.kids ss) := by
  intro c hc
  obtain ⟨m, hm⟩ := nth_isSome i hne
  rw [stringList_at (n := m) (by rw [hc.1, hm])]
  refine (mapRes_sat (Q := fun n s => ∃ ks, n = .mk (.string s) ks) fun n _ => ?_).mono fun ss h => ⟨hc, m, hm, h⟩
  cases n with
  | mk v ks => cases v <;> first | trivial | exact ⟨ks, rfl⟩

/-- A nested element. -/
theorem safe_dispatch {ps : List Node} {i fuel : Nat} (hne : ps ≠ []) {Q : Element → Prop}
    (h : ∀ m, nth ps i = some m → (readNode fuel m).Sat Q) :
    Safe (Pos ps i) (dispatch fuel) (fun e c => Pos ps i c ∧ Q e) := by
  intro c hc
  obtain ⟨m, hm⟩ := nth_isSome i hne
  rw [dispatch_at fuel (n := m) (by rw [hc.1, hm])]
  exact (h m hm).mono fun _ he => ⟨hc, he⟩

/-- Where an entered node starts. -/
def start (ps : List Node) : Cursor := ⟨[], ps.head?, ps.tail, []⟩

theorem pos_start (ps : List Node) : Pos ps 0 (start ps) := by
  refine ⟨?_, by simp [start]⟩
  cases ps <;> simp [start, nth]

theorem enter_next_start (c : Cursor) (n : Node) (h : c.cur = some n) :
    ∃ u, c.enter.next.2 = (start n.kids).under u := by
  obtain ⟨p, cu, r, u⟩ := c
  simp only at h
  subst h
  cases n with
  | mk v ks => cases ks <;> exact ⟨_, rfl⟩

end Corda
