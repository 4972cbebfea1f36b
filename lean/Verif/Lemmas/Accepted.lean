import Verif.Lemmas.Safe
import Verif.Spec.Accepted

/-
When the schema readers succeed, and with what.
-/

namespace Corda
open Prog Spec

/-! ### Programs that succeed exactly with certain values -/

/-- Started where `P` holds the program returns a value exactly if it satisfies `Q`, and then ends where `R` holds. -/
def Gives {α : Type} (P : Cursor → Prop) (p : Prog α) (Q : α → Prop) (R : Cursor → Prop) : Prop :=
  ∀ c, P c → (∀ a, (p c).1 = .ok a ↔ Q a) ∧ ∀ a, (p c).1 = .ok a → R (p c).2

theorem gives_bind {α β : Type} {P R S : Cursor → Prop} {p : Prog α} {Q : α → Prop} {f : α → Prog β}
    {T : α → β → Prop} (hp : Gives P p Q R) (hf : ∀ a, Q a → Gives R (f a) (T a) S) :
    Gives P (p >>= f) (fun b => ∃ a, Q a ∧ T a b) S := by
  intro c hc
  obtain ⟨h1, h2⟩ := hp c hc
  rw [bind_def]
  rcases hpc : p c with ⟨r, c'⟩
  rw [hpc] at h1 h2
  cases r with
  | ok a =>
    have hq : Q a := (h1 a).mp rfl
    obtain ⟨g1, g2⟩ := hf a hq c' (h2 a rfl)
    refine ⟨fun b => ?_, g2⟩
    refine (g1 b).trans ?_
    constructor
    · exact fun h => ⟨a, hq, h⟩
    · rintro ⟨a', ha, h⟩
      have := (h1 a').mpr ha
      injection this with this
      subst this
      exact h
  | throw m =>
    refine ⟨fun b => ?_, fun b hb => by cases hb⟩
    constructor
    · intro h; cases h
    · rintro ⟨a, ha, _⟩; exact absurd ((h1 a).mpr ha) (by simp)
  | ub m =>
    refine ⟨fun b => ?_, fun b hb => by cases hb⟩
    constructor
    · intro h; cases h
    · rintro ⟨a, ha, _⟩; exact absurd ((h1 a).mpr ha) (by simp)

theorem gives_pure {α : Type} {P : Cursor → Prop} (a : α) : Gives P (pure a : Prog α) (fun b => b = a) P := by
  intro c hc
  refine ⟨fun b => ?_, fun _ _ => hc⟩
  simp [pure_def, eq_comm]

theorem gives_lift {α : Type} {P : Cursor → Prop} (r : Res α) : Gives P (lift r) (fun b => r = .ok b) P :=
  fun _ hc => ⟨fun _ => Iff.rfl, fun _ _ => hc⟩

theorem gives_iff {α : Type} {P R : Cursor → Prop} {p : Prog α} {Q Q' : α → Prop} (h : Gives P p Q R)
    (hq : ∀ a, Q a ↔ Q' a) : Gives P p Q' R := fun c hc => ⟨fun a => ((h c hc).1 a).trans (hq a), (h c hc).2⟩

/-- Stepping on. -/
theorem gives_step {β : Type} {ps : List Node} {i : Nat} {q : Prog β} {Q : β → Prop} {R : Cursor → Prop}
    (h : Gives (Pos ps (i + 1)) q Q R) : Gives (Pos ps i) (Prog.next >>= fun _ => q) Q R := by
  intro c hc
  have h1 : Prog.next c = (.ok (c.next).1, c.next.2) := rfl
  rw [bind_of_ok h1]
  exact h _ hc.next

/-- A look at the current node. -/
theorem gives_at {α : Type} {ps : List Node} {i : Nat} {p : Prog α} {Q : α → Prop}
    (hn : nth ps i = none → ∀ c, c.cur = none → ∀ a, (p c).1 = .ok a ↔ Q a)
    (hs : ∀ n, nth ps i = some n → ∀ c, c.cur = some n → (∀ a, (p c).1 = .ok a ↔ Q a) ∧ (p c).2 = c)
    (hz : ∀ c, c.cur = none → (p c).2 = c) :
    Gives (Pos ps i) p Q (Pos ps i) := by
  intro c hc
  cases h : nth ps i with
  | none =>
    have h' : c.cur = none := hc.1.trans h
    exact ⟨hn h c h', fun _ _ => by rw [hz c h']; exact hc⟩
  | some n =>
    have h' : c.cur = some n := hc.1.trans h
    exact ⟨(hs n h c h').1, fun _ _ => by rw [(hs n h c h').2]; exact hc⟩

/-- The same when there certainly is one. -/
theorem gives_on {α : Type} {ps : List Node} {i : Nat} {p : Prog α} {Q : α → Prop} (hne : ps ≠ [])
    (hs : ∀ n, nth ps i = some n → ∀ c, c.cur = some n → (∀ a, (p c).1 = .ok a ↔ Q a) ∧ (p c).2 = c) :
    Gives (Pos ps i) p Q (Pos ps i) := by
  intro c hc
  obtain ⟨n, h⟩ := nth_isSome i hne
  have h' : c.cur = some n := hc.1.trans h
  exact ⟨(hs n h c h').1, fun _ _ => by rw [(hs n h c h').2]; exact hc⟩

theorem gives_getString {ps : List Node} {i : Nat} :
    Gives (Pos ps i) (getString false) (fun s => aString (nth ps i) = some s) (Pos ps i) := by
  refine gives_at (fun h c hc a => ?_) (fun n h c hc => ?_) (fun c hc => ?_)
  · rw [h]; simp [getString, Cursor.val, hc, aString]
  · rw [h, getString_at hc]
    refine ⟨fun a => ?_, rfl⟩
    cases n with
    | mk v ks => cases v <;> simp [stringOf, aString]
  · simp [getString, Cursor.val, hc]

theorem gives_getStringNull {ps : List Node} {i : Nat} :
    Gives (Pos ps i) (getString true) (fun s => aStringOrNull (nth ps i) = some s) (Pos ps i) := by
  refine gives_at (fun h c hc a => ?_) (fun n h c hc => ?_) (fun c hc => ?_)
  · rw [h]; simp [getString, Cursor.val, hc, aStringOrNull]
  · rw [h, getString_at hc]
    refine ⟨fun a => ?_, rfl⟩
    cases n with
    | mk v ks => cases v <;> simp [stringOf, aStringOrNull]
  · simp [getString, Cursor.val, hc]

theorem gives_getBoolean {ps : List Node} {i : Nat} :
    Gives (Pos ps i) getBoolean (fun s => aFlag (nth ps i) = some s) (Pos ps i) := by
  refine gives_at (fun h c hc a => ?_) (fun n h c hc => ?_) (fun c hc => ?_)
  · rw [h]; simp [getBoolean, Cursor.val, hc, aFlag]
  · rw [h]
    cases n with
    | mk v ks => cases v <;> simp [getBoolean, Cursor.val, hc, aFlag, Node.val]
  · simp [getBoolean, Cursor.val, hc]

theorem gives_getSymbol {ps : List Node} {i : Nat} :
    Gives (Pos ps i) getSymbol (fun s => aSymbol (nth ps i) = some s) (Pos ps i) := by
  refine gives_at (fun h c hc a => ?_) (fun n h c hc => ?_) (fun c hc => ?_)
  · rw [h]; simp [getSymbol, isSymbol, attest, bind_def, Cursor.type, hc, aSymbol]
  · rw [h]
    cases n with
    | mk v ks =>
      cases v <;> simp [getSymbol, isSymbol, attest, bind_def, Cursor.type, Cursor.val, look, getSymbolRaw, hc, aSymbol,
        Node.val, Atom.type]
  · simp [getSymbol, isSymbol, attest, bind_def, Cursor.type, hc]

theorem gives_readString {ps : List Node} {i : Nat} :
    Gives (Pos ps i) (readString false) (fun s => aWord (nth ps i) = some s) (Pos ps (i + 1)) := by
  intro c hc
  have h2 : (readString false c).2 = c.next.2 := by
    unfold readString autoNext
    dsimp only
    split <;> (try split) <;> rfl
  refine ⟨fun a => ?_, fun _ _ => h2 ▸ hc.next⟩
  rw [← hc.1]
  cases hn : c.cur with
  | none => simp [readString, autoNext, Cursor.val, hn, aWord]
  | some n =>
    cases n with
    | mk v ks => cases v <;> simp [readString, autoNext, Cursor.val, hn, aWord, Node.val]

theorem gives_readStringNull {ps : List Node} {i : Nat} :
    Gives (Pos ps i) (readString true) (fun s => aWordOrNull (nth ps i) = some s) (Pos ps (i + 1)) := by
  intro c hc
  have h2 : (readString true c).2 = c.next.2 := by
    unfold readString autoNext
    dsimp only
    split <;> (try split) <;> rfl
  refine ⟨fun a => ?_, fun _ _ => h2 ▸ hc.next⟩
  rw [← hc.1]
  cases hn : c.cur with
  | none => simp [readString, autoNext, Cursor.val, hn, aWordOrNull]
  | some n =>
    cases n with
    | mk v ks => cases v <;> simp [readString, autoNext, Cursor.val, hn, aWordOrNull, Node.val]

/-! ### Lists -/

theorem bind_is_ok {α β : Type} (r : Res α) (f : α → Res β) (b : β) :
    r.bind f = .ok b ↔ ∃ a, r = .ok a ∧ f a = .ok b := by
  cases r <;> simp [Res.bind]

theorem mapRes_every {α β : Type} {g : Node → Res β} {f : Node → Option α} {M : α → Res β} {ns : List Node}
    (h : ∀ n ∈ ns, ∀ b, g n = .ok b ↔ ∃ a, f n = some a ∧ M a = .ok b) (bs : List β) :
    mapRes g ns = .ok bs ↔ ∃ as, every f ns = some as ∧ as.map M = bs.map Res.ok := by
  induction ns generalizing bs with
  | nil =>
    simp only [mapRes, every, Res.ok.injEq, Option.some.injEq]
    constructor
    · rintro rfl; exact ⟨[], rfl, rfl⟩
    · rintro ⟨as, rfl, h⟩
      cases bs with
      | nil => rfl
      | cons b bs => simp at h
  | cons n ns ih =>
    have ih := ih fun m hm => h m (by simp [hm])
    have hn := h n (by simp)
    simp only [mapRes, Res.bind_eq, Res.pure_eq, bind_is_ok, Res.ok.injEq]
    constructor
    · rintro ⟨b, hb, bs', hbs, rfl⟩
      obtain ⟨a, ha, hm⟩ := (hn b).mp hb
      obtain ⟨as, has, hms⟩ := (ih bs').mp hbs
      exact ⟨a :: as, by simp [every, ha, has], by simp [hm, hms]⟩
    · rintro ⟨as, has, hm⟩
      rw [every] at has
      cases ha : f n with
      | none => rw [ha] at has; cases has
      | some a =>
        cases hr : every f ns with
        | none => rw [ha, hr] at has; cases has
        | some as' =>
          rw [ha, hr] at has
          simp only [Option.some.injEq] at has
          subst has
          cases bs with
          | nil => simp at hm
          | cons b bs =>
            simp only [List.map_cons, List.cons.injEq] at hm
            exact ⟨b, (hn b).mpr ⟨a, ha, hm.1⟩, bs, (ih bs).mpr ⟨as', hr, hm.2⟩, rfl⟩

theorem map_ok_inj {α : Type} {as bs : List α} (h : as.map Res.ok = bs.map Res.ok) : as = bs := by
  induction as generalizing bs with
  | nil => cases bs with
    | nil => rfl
    | cons b bs => simp at h
  | cons a as ih => cases bs with
    | nil => simp at h
    | cons b bs =>
      simp only [List.map_cons, List.cons.injEq, Res.ok.injEq] at h
      rw [h.1, ih h.2]

theorem mapRes_every_ok {α : Type} {g : Node → Res α} {f : Node → Option α} {ns : List Node}
    (h : ∀ n ∈ ns, ∀ b, g n = .ok b ↔ f n = some b) (bs : List α) : mapRes g ns = .ok bs ↔ every f ns = some bs := by
  rw [mapRes_every (f := f) (M := Res.ok) fun n hn b => by rw [h n hn b]; simp]
  constructor
  · rintro ⟨as, h1, h2⟩
    rw [h1, map_ok_inj h2]
  · exact fun h => ⟨bs, h, rfl⟩

theorem gives_stringList {ps : List Node} {i : Nat} (hne : ps ≠ []) :
    Gives (Pos ps i) stringList (fun ss => within (fun m => aString (some m)) (nth ps i) = some ss) (Pos ps i) := by
  refine gives_on hne fun n h c hc => ?_
  rw [stringList_at hc, h]
  refine ⟨fun a => ?_, rfl⟩
  rw [within, ← mapRes_every_ok (g := stringOf false)]
  intro m _ b
  cases m with
  | mk v ks => cases v <;> simp [stringOf, aString]

/-! ### Elements -/

/-- The node under a cursor made of a position. -/
theorem height_kid {n m : Node} (h : m ∈ n.kids) : m.height < n.height := by
  cases n with
  | mk v ks =>
    simp only [Node.kids] at h
    simp only [Node.height]
    have : ∀ ks : List Node, m ∈ ks → m.height ≤ Node.height.heights ks := by
      intro ks
      induction ks with
      | nil => simp
      | cons k ks ih =>
        intro h
        simp only [Node.height.heights]
        rcases List.mem_cons.mp h with rfl | h
        · exact Nat.le_max_left _ _
        · exact Nat.le_trans (ih h) (Nat.le_max_right _ _)
    have := this ks h
    omega

theorem enter_ok {α : Type} {p : Prog α} (hp : Scoped p) {c : Cursor} {n : Node} (hc : c.cur = some n) :
    autoEnter p false c = ((p (start n.kids)).1, c) := by
  rw [autoEnter_eq hp (by simp [hc])]
  simp only [Bool.false_eq_true, if_false]
  obtain ⟨u, hu⟩ := enter_next_start c n hc
  rw [hu, (hp _).2]

/-- The results of an entered program. -/
theorem gives_enter {α : Type} {ps : List Node} {i : Nat} {p : Prog α} {Q : Node → α → Prop} {R : Cursor → Prop}
    (hp : Scoped p) (hne : ps ≠ [])
    (h : ∀ n, nth ps i = some n → Gives (Pos n.kids 0) p (Q n) R) :
    Gives (Pos ps i) (autoEnter p) (fun a => ∃ n, nth ps i = some n ∧ Q n a) (Pos ps i) := by
  refine gives_on hne fun n hn c hc => ?_
  rw [enter_ok hp hc]
  refine ⟨fun a => ?_, rfl⟩
  rw [((h n hn) _ (pos_start _)).1 a]
  constructor
  · exact fun h => ⟨n, hn, h⟩
  · rintro ⟨m, hm, h⟩
    rw [hn] at hm
    injection hm with hm
    exact hm ▸ h

theorem gives_validate {ps : List Node} (k : Nat) :
    Gives (Pos ps 0) (validateAndNext k) (fun _ => ∃ ks, nth ps 0 = some (.mk (.ulong (descId k)) ks)) (Pos ps 1) := by
  intro c hc
  rw [← hc.1]
  have hnx := hc.next
  unfold validateAndNext
  cases hn : c.cur with
  | none => simp [attest, bind_def, Cursor.type, hn]
  | some n =>
    cases n with
    | mk v ks =>
      cases v with
      | ulong id =>
        by_cases he : id = descId k
        · subst he
          have hev : (do
              attest .ulong "Bad type for a descriptor"
              let v ← look getUlong
              if v ≠ descId k then throw "Invalid Type"
              else do
                let _ ← next
                pure () : Prog Unit) c = (.ok (), c.next.2) := by
            simp [attest, bind_def, Cursor.type, hn, Node.val, Atom.type, look, getUlong, Cursor.val, pure_def,
              Prog.next]
          rw [hev]
          exact ⟨fun _ => by simp, fun _ _ => hnx⟩
        · simp [attest, bind_def, Cursor.type, hn, Node.val, Atom.type, look, getUlong, Cursor.val, he, Prog.throw]
      | _ => simp [attest, bind_def, Cursor.type, hn, Node.val, Atom.type]

/-! ### Which reader makes which element -/

/-- Whatever the program returns satisfies `S`. -/
def Ends {α : Type} (p : Prog α) (S : α → Prop) : Prop := ∀ c a, (p c).1 = .ok a → S a

theorem ends_bind {α β : Type} {p : Prog α} {f : α → Prog β} {S : β → Prop} (h : ∀ a, Ends (f a) S) :
    Ends (p >>= f) S := by
  intro c b hb
  rw [bind_def] at hb
  rcases hp : p c with ⟨r, c'⟩
  rw [hp] at hb
  cases r with
  | ok a => exact h a c' b hb
  | throw m => cases hb
  | ub m => cases hb

theorem ends_pure {α : Type} {a : α} {S : α → Prop} (h : S a) : Ends (pure a : Prog α) S := by
  intro c b hb
  injection hb with hb
  exact hb ▸ h

theorem ends_autoEnter {α : Type} {p : Prog α} {S : α → Prop} (h : Ends p S) : Ends (autoEnter p) S :=
  fun _ a ha => h _ a ha

/-- The number of the element a result belongs to. -/
def Element.number : Element → Nat
  | .envelope _ _ => 1
  | .schema _ => 2
  | .descriptor _ => 3
  | .field _ => 4
  | .notation (.comp _) => 5
  | .notation (.restr _) => 6
  | .choice _ => 7
  | .null => 0

theorem build_number {rec : Prog Element} {id : Nat} {c : Cursor} {e : Element} (h : (build rec id c).1 = .ok e)
    (he : e ≠ .null) : id = descId e.number := by
  have key : ∀ k : Nat, Ends (build rec id) (fun e => e.number = k) → id = descId k → id = descId e.number :=
    fun k hk hi => by rw [hk c e h]; exact hi
  have hnull : ∀ k, build rec id = nullBuild k → False := fun k hb => by
    rw [hb] at h
    exact he ((show Ends (nullBuild k) (fun e => e = .null) from ends_bind fun _ => ends_pure rfl) c e h)
  by_cases h0 : id = 22
  · have : build rec id = throw "Should never be called" := by rw [build, if_pos h0]
    rw [this] at h; cases h
  by_cases h1 : id = descId 1
  · refine key 1 ?_ h1
    rw [build, if_neg h0, if_pos h1]
    exact ends_bind fun _ => ends_autoEnter (ends_bind fun _ => ends_bind fun _ => ends_bind fun _ => ends_bind fun _ =>
      ends_bind fun _ => ends_pure rfl)
  by_cases h2 : id = descId 2
  · refine key 2 ?_ h2
    rw [build, if_neg h0, if_neg h1, if_pos h2]
    exact ends_bind fun _ => ends_bind fun _ => ends_pure rfl
  by_cases h3 : id = descId 3
  · refine key 3 ?_ h3
    rw [build, if_neg h0, if_neg h1, if_neg h2, if_pos h3]
    exact ends_bind fun _ => ends_autoEnter (ends_bind fun _ => ends_pure rfl)
  by_cases h4 : id = descId 4
  · refine key 4 ?_ h4
    rw [build, if_neg h0, if_neg h1, if_neg h2, if_neg h3, if_pos h4]
    exact ends_bind fun _ => ends_autoEnter (ends_bind fun _ => ends_bind fun _ => ends_bind fun _ => ends_bind fun _ =>
      ends_bind fun _ => ends_bind fun _ => ends_bind fun _ => ends_bind fun _ => ends_bind fun _ => ends_bind fun _ =>
      ends_bind fun _ => ends_bind fun _ => ends_bind fun _ => ends_bind fun _ => ends_pure rfl)
  by_cases h5 : id = descId 5
  · refine key 5 ?_ h5
    rw [build, if_neg h0, if_neg h1, if_neg h2, if_neg h3, if_neg h4, if_pos h5]
    exact ends_bind fun _ => ends_autoEnter (ends_bind fun _ => ends_bind fun _ => ends_bind fun _ => ends_bind fun _ =>
      ends_bind fun _ => ends_bind fun _ => ends_bind fun _ => ends_bind fun _ => ends_bind fun _ => ends_bind fun _ =>
      ends_pure rfl)
  by_cases h6 : id = descId 6
  · refine key 6 ?_ h6
    rw [build, if_neg h0, if_neg h1, if_neg h2, if_neg h3, if_neg h4, if_neg h5, if_pos h6]
    exact ends_bind fun _ => ends_autoEnter (ends_bind fun _ => ends_bind fun _ => ends_bind fun _ => ends_bind fun _ =>
      ends_bind fun _ => ends_bind fun _ => ends_bind fun _ => ends_bind fun _ => ends_bind fun _ => ends_bind fun _ =>
      ends_pure rfl)
  by_cases h7 : id = descId 7
  · refine key 7 ?_ h7
    rw [build, if_neg h0, if_neg h1, if_neg h2, if_neg h3, if_neg h4, if_neg h5, if_neg h6, if_pos h7]
    exact ends_bind fun _ => ends_autoEnter (ends_bind fun _ => ends_pure rfl)
  have hrest : build rec id = if id = descId 8 then nullBuild 8 else if id = descId 9 then nullBuild 9
      else if id = descId 10 then nullBuild 10 else if id = descId 11 then nullBuild 11
      else ub "null registry entry" := by
    rw [build, if_neg h0, if_neg h1, if_neg h2, if_neg h3, if_neg h4, if_neg h5, if_neg h6, if_neg h7]
  by_cases h8 : id = descId 8
  · rw [if_pos h8] at hrest; exact (hnull 8 hrest).elim
  by_cases h9 : id = descId 9
  · rw [if_neg h8, if_pos h9] at hrest; exact (hnull 9 hrest).elim
  by_cases h10 : id = descId 10
  · rw [if_neg h8, if_neg h9, if_pos h10] at hrest; exact (hnull 10 hrest).elim
  by_cases h11 : id = descId 11
  · rw [if_neg h8, if_neg h9, if_neg h10, if_pos h11] at hrest; exact (hnull 11 hrest).elim
  rw [if_neg h8, if_neg h9, if_neg h10, if_neg h11] at hrest
  rw [hrest] at h; cases h

/-- Reading a node: it must be described by a number, and the reader for that number must succeed. -/
theorem readNode_ok {fuel : Nat} {n : Node} {e : Element} :
    readNode (fuel + 1) n = .ok e ↔ n.val = .described ∧ ∃ id ks, nth n.kids 0 = some (.mk (.ulong id) ks)
      ∧ (build (dispatch fuel) id (start n.kids)).1 = .ok e := by
  have hs := scoped_dispatchBody (scoped_dispatch fuel)
  unfold readNode
  rw [dispatch]
  by_cases hv : n.val = .described
  · have h1 : attestDescribed (Cursor.root n) = (.ok (), Cursor.root n) := by
      simp [attestDescribed, attest, Cursor.type, Cursor.root, hv, Atom.type]
    rw [bind_of_ok h1, enter_ok hs (n := n) rfl]
    simp only [hv, true_and]
    unfold dispatchBody
    have hp := (pos_start n.kids).1
    cases hn : nth n.kids 0 with
    | none =>
      rw [hn] at hp
      simp [isUlong, attest, bind_def, Cursor.type, hp]
    | some d =>
      rw [hn] at hp
      cases d with
      | mk v ks =>
        cases v with
        | ulong i =>
          have h2 : isUlong (start n.kids) = (.ok (), start n.kids) := by
            simp [isUlong, attest, Cursor.type, hp, Node.val, Atom.type]
          have h3 : look getUlong (start n.kids) = (.ok i, start n.kids) := by
            simp [look, getUlong, Cursor.val, hp, Node.val]
          rw [bind_of_ok h2, bind_of_ok h3]
          constructor
          · exact fun h => ⟨i, ks, rfl, h⟩
          · rintro ⟨i', ks', h, h'⟩
            simp only [Option.some.injEq, Node.mk.injEq, Atom.ulong.injEq] at h
            exact h.1 ▸ h'
        | _ => simp [isUlong, attest, bind_def, Cursor.type, hp, Node.val, Atom.type]
  · have ht : n.val.type ≠ .described := by
      intro h; apply hv; cases hnv : n.val <;> rw [hnv] at h <;> simp_all [Atom.type]
    have h1 : attestDescribed (Cursor.root n) = (.throw "Expected a Described type", Cursor.root n) := by
      simp [attestDescribed, attest, Cursor.type, Cursor.root, ht]
    rw [bind_of_throw h1]
    simp [hv]

theorem elementParts_some {k : Nat} {n : Node} {ps : List Node} :
    elementParts k n = some ps ↔ n.val = .described ∧ (∃ ks, nth n.kids 0 = some (.mk (.ulong (cordaId k)) ks))
      ∧ parts n = ps := by
  unfold elementParts
  cases n with
  | mk v ks =>
    cases v <;> simp only [Node.val] <;> try simp
    cases hn : nth (Node.mk Atom.described ks).kids 0 with
    | none => simp
    | some d =>
      cases d with
      | mk v ks' =>
        cases v <;> simp

theorem descId_is {k : Nat} (hk : k ≤ 22) : descId k = cordaId k := by
  have : ∀ k ≤ 22, descId k = cordaId k := by decide
  exact this k hk

/-- Reading an element whose reader enters the list of its parts. -/
theorem element_ok {fuel k : Nat} (hk : k ≤ 22) {body : Prog Element} (hs : Scoped body)
    (hb : build (dispatch fuel) (descId k) = (do validateAndNext k; autoEnter body)) {n : Node}
    {Q : List Node → Element → Prop} {R : List Node → Cursor → Prop}
    (hg : ∀ ps, ps = parts n → Gives (Pos ps 0) body (Q ps) (R ps)) {e : Element} (he : e ≠ .null) (hek : e.number = k) :
    readNode (fuel + 1) n = .ok e ↔ ∃ ps, elementParts k n = some ps ∧ Q ps e := by
  rw [readNode_ok]
  have hgb : ∀ ks, nth n.kids 0 = some (.mk (.ulong (descId k)) ks) →
      ((build (dispatch fuel) (descId k) (start n.kids)).1 = .ok e ↔ Q (parts n) e) := by
    intro ks hks
    rw [hb]
    have hne := nth_ne_nil hks
    obtain ⟨m, hm⟩ := nth_isSome 1 hne
    have hpm : parts n = m.kids := by rw [parts, hm]
    have h := gives_bind (gives_validate (ps := n.kids) k) fun _ _ =>
      gives_enter (Q := fun x => Q x.kids) (R := R (parts n)) (i := 1) hs hne fun x hx => by
        rw [hm] at hx
        injection hx with hx
        rw [← hx, ← hpm]
        exact hg _ rfl
    refine ((h _ (pos_start _)).1 e).trans ?_
    constructor
    · rintro ⟨_, _, x, hx, hq⟩
      rw [hm] at hx
      injection hx with hx
      rw [hpm, hx]
      exact hq
    · exact fun hq => ⟨(), ⟨ks, hks⟩, m, hm, hpm ▸ hq⟩
  constructor
  · rintro ⟨hv, id, ks, hn, hbld⟩
    have hid := build_number hbld he
    rw [hek] at hid
    subst hid
    exact ⟨parts n, elementParts_some.mpr ⟨hv, ⟨ks, descId_is hk ▸ hn⟩, rfl⟩, (hgb ks hn).mp hbld⟩
  · rintro ⟨ps, hps, hq⟩
    obtain ⟨hv, ⟨ks, hn⟩, hpp⟩ := elementParts_some.mp hps
    rw [← descId_is hk] at hn
    exact ⟨hv, descId k, ks, hn, (hgb ks hn).mpr (hpp ▸ hq)⟩

theorem prog_assoc {α β γ : Type} (p : Prog α) (f : α → Prog β) (g : β → Prog γ) :
    (p >>= f) >>= g = p >>= fun a => f a >>= g := by
  funext c
  simp only [bind_def]
  rcases p c with ⟨r, c'⟩
  cases r <;> rfl

/-! ### The elements -/

/-- The field described. -/
def Spec.FieldPart.make (p : FieldPart) : Res Field :=
  Field.make p.name p.type p.requires p.default p.label p.mandatory p.multiple

theorem aString_ne {ps : List Node} {i : Nat} {s : Str} (h : aString (nth ps i) = some s) : ps ≠ [] := by
  rintro rfl; simp [nth, aString] at h

theorem aWord_ne {ps : List Node} {i : Nat} {s : Str} (h : aWord (nth ps i) = some s) : ps ≠ [] := by
  rintro rfl; simp [nth, aWord] at h

theorem field_ok (fuel : Nat) (n : Node) (f : Field) :
    readNode (fuel + 1) n = .ok (.field f) ↔ ∃ p, aField n = some p ∧ p.make = .ok f := by
  have hg := fun (ps : List Node) (_ : ps = parts n) => gives_bind (gives_getString (ps := ps) (i := 0)) fun name hname => gives_step <|
    gives_bind gives_getString fun type _ => gives_step <|
    gives_bind (gives_stringList (aString_ne hname)) fun req _ => gives_step <|
    gives_bind gives_getStringNull fun def_ _ => gives_step <|
    gives_bind gives_getStringNull fun label _ => gives_step <|
    gives_bind gives_getBoolean fun mandatory _ => gives_step <|
    gives_bind gives_getBoolean fun multiple _ =>
    gives_bind (gives_lift (Field.make name type req def_ label mandatory multiple)) fun f _ =>
    gives_pure (Element.field f)
  rw [element_ok (k := 4) (by decide) scoped_fieldBody rfl hg (by simp) rfl]
  constructor
  · rintro ⟨ps, hps, a, ha, b, hb, c, hc, d, hd, e, he, g, hg, h, hh, f', hf, hfe⟩
    injection hfe with hfe
    subst hfe
    refine ⟨⟨a, b, c, d, e, g, h⟩, ?_, hf⟩
    simp [aField, hps, ha, hb, hc, hd, he, hg, hh]
  · rintro ⟨p, hp, hm⟩
    simp only [aField, Option.bind_eq_bind, Option.bind_eq_some_iff] at hp
    obtain ⟨ps, hps, a, ha, b, hb, c, hc, d, hd, e, he, g, hg, h, hh, hpe⟩ := hp
    injection hpe with hpe
    subst hpe
    exact ⟨ps, hps, a, ha, b, hb, c, hc, d, hd, e, he, g, hg, h, hh, f, hm, rfl⟩

theorem object_ok (fuel : Nat) (n : Node) (s : Str) :
    readNode (fuel + 1) n = .ok (.descriptor s) ↔ aFingerprint n = some s := by
  have hg := fun (ps : List Node) (_ : ps = parts n) => gives_bind (gives_getSymbol (ps := ps) (i := 0)) fun s _ =>
    gives_pure (Element.descriptor s)
  rw [element_ok (k := 3) (by decide) (scoped_bind scoped_getSymbol fun _ => scoped_pure _) rfl hg
    (by simp) rfl]
  simp only [aFingerprint, Option.bind_eq_bind, Option.bind_eq_some_iff, Element.descriptor.injEq]
  constructor
  · rintro ⟨ps, hps, a, ha, rfl⟩; exact ⟨ps, hps, ha⟩
  · rintro ⟨ps, hps, ha⟩; exact ⟨ps, hps, s, ha, rfl⟩

theorem choice_ok (fuel : Nat) (n : Node) (s : Str) :
    readNode (fuel + 1) n = .ok (.choice s) ↔ aChoice n = some s := by
  have hg := fun (ps : List Node) (_ : ps = parts n) => gives_bind (gives_getString (ps := ps) (i := 0)) fun s _ =>
    gives_pure (Element.choice s)
  rw [element_ok (k := 7) (by decide) (scoped_bind (scoped_getString _) fun _ => scoped_pure _) rfl hg
    (by simp) rfl]
  simp only [aChoice, Option.bind_eq_bind, Option.bind_eq_some_iff, Element.choice.injEq]
  constructor
  · rintro ⟨ps, hps, a, ha, rfl⟩; exact ⟨ps, hps, ha⟩
  · rintro ⟨ps, hps, ha⟩; exact ⟨ps, hps, s, ha, rfl⟩

/-- A nested element of one class. -/
theorem gives_nested {α : Type} {ps : List Node} {i fuel : Nat} (hne : ps ≠ []) {as : Element → Prog α}
    {g : Element → Res α} {wrap : α → Element} (has : ∀ e c, as e c = (g e, c)) (hg : ∀ e a, g e = .ok a ↔ e = wrap a)
    {Q : Node → α → Prop} (h : ∀ n a, nth ps i = some n → (readNode fuel n = .ok (wrap a) ↔ Q n a)) :
    Gives (Pos ps i) (dispatch fuel >>= as) (fun a => ∃ n, nth ps i = some n ∧ Q n a) (Pos ps i) := by
  refine gives_on hne fun n hn c hcc => ?_
  rw [bind_def, dispatch_at fuel hcc]
  have hq : ∀ a, (∃ m, nth ps i = some m ∧ Q m a) ↔ readNode fuel n = .ok (wrap a) := by
    intro a
    rw [h n a hn]
    constructor
    · rintro ⟨m, hm, hq⟩
      rw [hn] at hm
      injection hm with hm
      exact hm ▸ hq
    · exact fun hq => ⟨n, hn, hq⟩
  cases hr : readNode fuel n with
  | ok e =>
    simp only [has]
    refine ⟨fun a => ?_, trivial⟩
    rw [hq a, hr, hg]
    simp
  | throw m => exact ⟨fun a => by rw [hq a, hr]; simp, rfl⟩
  | ub m => exact ⟨fun a => by rw [hq a, hr]; simp, rfl⟩

/-- The same with all the children of a node. -/
theorem gives_children {α : Type} {ps : List Node} {i fuel : Nat} (hne : ps ≠ []) {as : Element → Prog α}
    {g : Element → Res α} {wrap : α → Element} (has : ∀ e c, as e c = (g e, c)) (hg : ∀ e a, g e = .ok a ↔ e = wrap a)
    (hs : ∀ e, Scoped (as e)) {β : Type} {f : Node → Option β} {M : β → Res α}
    (h : ∀ n, nth ps i = some n → ∀ m ∈ n.kids, ∀ a, readNode fuel m = .ok (wrap a) ↔ ∃ b, f m = some b ∧ M b = .ok a) :
    Gives (Pos ps i) (autoListEnter (fun _ => whileNext (dispatch fuel >>= as)))
      (fun as => ∃ bs, within f (nth ps i) = some bs ∧ bs.map M = as.map Res.ok) (Pos ps i) := by
  refine gives_on hne fun n hn c hcc => ?_
  have hso : ScopedOn (dispatch fuel >>= as) := scopedOn_bind (scoped_dispatch _).on fun e => (hs e).on
  have hbody : ∀ c m, c.cur = some m → (dispatch fuel >>= as) c = ((readNode fuel m).bind g, c) := by
    intro c m hm
    rw [bind_def, dispatch_at fuel hm]
    cases hr : readNode fuel m <;> simp [has, Res.bind]
  have hev : autoListEnter (fun _ => whileNext (dispatch fuel >>= as)) false c
      = (mapRes (fun m => (readNode fuel m).bind g) n.kids, c) := by
    rw [autoListEnter_eq (fun _ => scoped_whileNext hso) (by simp [hcc])]
    simp only [Bool.false_eq_true, if_false]
    rw [whileNext_map hbody]
    obtain ⟨p, cu, r, u⟩ := c
    simp only at hcc
    subst hcc
    cases n
    rfl
  rw [hev, hn]
  refine ⟨fun as => ?_, rfl⟩
  rw [within]
  refine mapRes_every (fun m hm b => ?_) as
  rw [← h n hn m hm b, bind_is_ok]
  constructor
  · rintro ⟨e, he, hge⟩; rw [he, (hg e b).mp hge]
  · exact fun he => ⟨_, he, (hg _ b).mpr rfl⟩

/-- What the casts give. -/
def fieldIn : Element → Res Field
  | .field f => .ok f
  | .null => .ub "null element"
  | _ => .ub "wrong element class"
def choiceIn : Element → Res Str
  | .choice f => .ok f
  | .null => .ub "null element"
  | _ => .ub "wrong element class"
def descriptorIn : Element → Res Str
  | .descriptor f => .ok f
  | .null => .ub "null element"
  | _ => .ub "wrong element class"
def notationIn : Element → Res TypeNotation
  | .notation f => .ok f
  | .null => .ub "null element"
  | _ => .ub "wrong element class"
def schemaIn : Element → Res Schema
  | .schema f => .ok f
  | .null => .ub "null element"
  | _ => .ub "wrong element class"

theorem part_height {n m : Node} {i : Nat} (h : nth (parts n) i = some m) : m.height + 1 < n.height := by
  have h1 := nth_mem h
  rw [parts] at h1
  cases hp : nth n.kids 1 with
  | none => rw [hp] at h1; simp at h1
  | some x =>
    rw [hp] at h1
    have := height_kid h1
    have := height_kid (nth_mem hp)
    omega

/-- The type described. -/
def Spec.TypePart.Makes (p : TypePart) (t : TypeNotation) : Prop :=
  match p with
  | .comp name label provides fp fields =>
    ∃ fs : List Field, fields.map FieldPart.make = fs.map Res.ok ∧ t = .comp ⟨name, label, provides, fp, fs⟩
  | .restr name label provides source fp choices =>
    ∃ r, Restricted.make fp (makePrim name) label provides source choices = .ok r ∧ t = .restr r

theorem composite_ok {fuel : Nat} {n : Node} (hf : n.height ≤ fuel + 1) (x : Composite) :
    readNode (fuel + 1) n = .ok (.notation (.comp x)) ↔ ∃ p, aComposite n = some p ∧ p.Makes (.comp x) := by
  have hlow : ∀ m i, nth (parts n) i = some m → ∃ k, fuel = k + 1 ∧ m.height ≤ k := by
    intro m i hm
    have := part_height hm
    exact ⟨fuel - 1, by omega, by omega⟩
  have hg := fun (ps : List Node) (hp : ps = parts n) =>
    gives_bind (gives_getString (ps := ps) (i := 0)) fun name hname => gives_step <|
    gives_bind gives_getStringNull fun label _ => gives_step <|
    gives_bind (gives_stringList (aString_ne hname)) fun provides _ => gives_step <|
    gives_bind (gives_nested (fuel := fuel) (as := asDescriptor) (g := descriptorIn) (wrap := Element.descriptor)
      (Q := fun n a => aFingerprint n = some a) (aString_ne hname)
      (fun e c => by cases e <;> rfl) (fun e a => by cases e <;> simp [descriptorIn])
      (fun m a hm => by
        obtain ⟨k, rfl, _⟩ := hlow m _ (hp ▸ hm)
        exact object_ok k m a)) fun fp _ => gives_step <|
    gives_bind (gives_children (fuel := fuel) (as := asField) (g := fieldIn) (wrap := Element.field)
      (f := aField) (M := FieldPart.make) (aString_ne hname)
      (fun e c => by cases e <;> rfl) (fun e a => by cases e <;> simp [fieldIn]) scoped_asField
      (fun m hm k _ a => by
        obtain ⟨j, rfl, _⟩ := hlow m _ (hp ▸ hm)
        exact field_ok j k a)) fun fs _ =>
    gives_pure (Element.notation (.comp ⟨name, label, provides, fp, fs⟩))
  simp only [prog_assoc] at hg
  rw [element_ok (k := 5) (by decide) (scoped_compositeBody (scoped_dispatch fuel)) rfl hg (by simp) rfl]
  constructor
  · rintro ⟨ps, hps, a, ha, b, hb, c, hc, d, ⟨m, hm, hd⟩, fs, ⟨e, he, hfs⟩, hx⟩
    injection hx with hx
    injection hx with hx
    refine ⟨.comp a b c d e, ?_, fs, hfs, by rw [hx]⟩
    simp [aComposite, hps, ha, hb, hc, hm, hd, he]
  · rintro ⟨p, hp, hm⟩
    simp only [aComposite, Option.bind_eq_bind, Option.bind_eq_some_iff] at hp
    obtain ⟨ps, hps, a, ha, b, hb, c, hc, d, ⟨m, hm', hd⟩, e, he, hpe⟩ := hp
    injection hpe with hpe
    subst hpe
    obtain ⟨fs, hfs, hx⟩ := hm
    injection hx with hx
    exact ⟨ps, hps, a, ha, b, hb, c, hc, d, ⟨m, hm', hd⟩, fs, ⟨e, he, hfs⟩, by rw [hx]⟩

theorem restricted_ok {fuel : Nat} {n : Node} (hf : n.height ≤ fuel + 1) (x : Restricted) :
    readNode (fuel + 1) n = .ok (.notation (.restr x)) ↔ ∃ p, aRestricted n = some p ∧ p.Makes (.restr x) := by
  have hlow : ∀ m i, nth (parts n) i = some m → ∃ k, fuel = k + 1 ∧ m.height ≤ k := by
    intro m i hm
    have := part_height hm
    exact ⟨fuel - 1, by omega, by omega⟩
  have hg := fun (ps : List Node) (hp : ps = parts n) =>
    gives_bind (gives_readString (ps := ps) (i := 0)) fun name hname =>
    gives_bind gives_readStringNull fun label _ =>
    gives_bind (gives_stringList (aWord_ne hname)) fun provides _ => gives_step <|
    gives_bind gives_readString fun source _ =>
    gives_bind (gives_nested (fuel := fuel) (as := asDescriptor) (g := descriptorIn) (wrap := Element.descriptor)
      (Q := fun n a => aFingerprint n = some a) (aWord_ne hname)
      (fun e c => by cases e <;> rfl) (fun e a => by cases e <;> simp [descriptorIn])
      (fun m a hm => by
        obtain ⟨k, rfl, _⟩ := hlow m _ (hp ▸ hm)
        exact object_ok k m a)) fun fp _ => gives_step <|
    gives_bind (gives_children (fuel := fuel) (as := asChoice) (g := choiceIn) (wrap := Element.choice)
      (f := aChoice) (M := Res.ok) (aWord_ne hname)
      (fun e c => by cases e <;> rfl) (fun e a => by cases e <;> simp [choiceIn]) scoped_asChoice
      (fun m hm k _ a => by
        obtain ⟨j, rfl, _⟩ := hlow m _ (hp ▸ hm)
        rw [choice_ok j k a]
        simp)) fun cs _ =>
    gives_bind (gives_lift (Restricted.make fp (makePrim name) label provides source cs)) fun r _ =>
    gives_pure (Element.notation (.restr r))
  simp only [prog_assoc] at hg
  rw [element_ok (k := 6) (by decide) (scoped_restrictedBody (scoped_dispatch fuel)) rfl hg (by simp) rfl]
  constructor
  · rintro ⟨ps, hps, a, ha, b, hb, c, hc, s, hs, d, ⟨m, hm, hd⟩, cs, ⟨e, he, hcs⟩, r, hr, hx⟩
    injection hx with hx
    injection hx with hx
    have hce : e = cs := map_ok_inj hcs
    subst hce
    refine ⟨.restr a b c s d e, ?_, r, hr, by rw [hx]⟩
    simp [aRestricted, hps, ha, hb, hc, hs, hm, hd, he]
  · rintro ⟨p, hp, hm⟩
    simp only [aRestricted, Option.bind_eq_bind, Option.bind_eq_some_iff] at hp
    obtain ⟨ps, hps, a, ha, b, hb, c, hc, s, hs, d, ⟨m, hm', hd⟩, e, he, hpe⟩ := hp
    injection hpe with hpe
    subst hpe
    obtain ⟨r, hr, hx⟩ := hm
    injection hx with hx
    exact ⟨ps, hps, a, ha, b, hb, c, hc, s, hs, d, ⟨m, hm', hd⟩, e, ⟨e, he, rfl⟩, r, hr, by rw [hx]⟩

theorem aComposite_comp {n : Node} {p : TypePart} (h : aComposite n = some p) :
    (∃ a b c d e, p = .comp a b c d e) ∧ (elementParts 5 n).isSome := by
  simp only [aComposite, Option.bind_eq_bind, Option.bind_eq_some_iff] at h
  obtain ⟨ps, hps, a, ha, b, hb, c, hc, d, _, e, he, hpe⟩ := h
  injection hpe with hpe
  exact ⟨⟨a, b, c, d, e, hpe.symm⟩, by simp [hps]⟩

theorem aRestricted_restr {n : Node} {p : TypePart} (h : aRestricted n = some p) :
    (∃ a b c d e f, p = .restr a b c d e f) ∧ (elementParts 6 n).isSome := by
  simp only [aRestricted, Option.bind_eq_bind, Option.bind_eq_some_iff] at h
  obtain ⟨ps, hps, a, ha, b, hb, c, hc, s, _, d, _, e, he, hpe⟩ := h
  injection hpe with hpe
  exact ⟨⟨a, b, c, s, d, e, hpe.symm⟩, by simp [hps]⟩

theorem not_both {n : Node} {p q : TypePart} (h : aComposite n = some p) (h' : aRestricted n = some q) : False := by
  have h1 := (aComposite_comp h).2
  have h2 := (aRestricted_restr h').2
  obtain ⟨a, ha⟩ := Option.isSome_iff_exists.mp h1
  obtain ⟨b, hb⟩ := Option.isSome_iff_exists.mp h2
  obtain ⟨_, ⟨k, hk⟩, _⟩ := elementParts_some.mp ha
  obtain ⟨_, ⟨j, hj⟩, _⟩ := elementParts_some.mp hb
  rw [hk] at hj
  simp [cordaId] at hj

theorem type_ok {fuel : Nat} {n : Node} (hf : n.height ≤ fuel + 1) (t : TypeNotation) :
    readNode (fuel + 1) n = .ok (.notation t) ↔ ∃ p, aType n = some p ∧ p.Makes t := by
  cases t with
  | comp x =>
    rw [composite_ok hf]
    constructor
    · rintro ⟨p, hp, hm⟩; exact ⟨p, by rw [aType, hp], hm⟩
    · rintro ⟨p, hp, hm⟩
      rw [aType] at hp
      cases hc : aComposite n with
      | some q => rw [hc] at hp; exact ⟨p, hp, hm⟩
      | none =>
        rw [hc] at hp
        obtain ⟨⟨a, b, c, d, e, f, rfl⟩, _⟩ := aRestricted_restr hp
        obtain ⟨r, _, hx⟩ := hm
        cases hx
  | restr x =>
    rw [restricted_ok hf]
    constructor
    · rintro ⟨p, hp, hm⟩
      refine ⟨p, ?_, hm⟩
      rw [aType]
      cases hc : aComposite n with
      | some q => exact (not_both hc hp).elim
      | none => exact hp
    · rintro ⟨p, hp, hm⟩
      rw [aType] at hp
      cases hc : aComposite n with
      | some q =>
        rw [hc] at hp
        injection hp with hp
        subst hp
        obtain ⟨⟨a, b, c, d, e, rfl⟩, _⟩ := aComposite_comp hc
        obtain ⟨r, _, hx⟩ := hm
        cases hx
      | none => rw [hc] at hp; exact ⟨p, hp, hm⟩

/-! ### The schema -/

theorem foldRes_append {σ : Type} (g : σ → Node → Res σ) (s : σ) (as bs : List Node) :
    foldRes g s (as ++ bs) = (foldRes g s as).bind fun s' => foldRes g s' bs := by
  induction as generalizing s with
  | nil => rfl
  | cons a as ih =>
    simp only [List.cons_append, foldRes, Res.bind_eq]
    cases g s a with
    | ok s' => exact ih s'
    | throw m => rfl
    | ub m => rfl

theorem foldRes_lists {σ : Type} (g : σ → Node → Res σ) (s : σ) (ls : List Node) :
    foldRes (fun s n => foldRes g s n.kids) s ls = foldRes g s (ls.flatMap Node.kids) := by
  induction ls generalizing s with
  | nil => rfl
  | cons l ls ih =>
    rw [List.flatMap_cons, foldRes_append, foldRes]
    simp only [Res.bind_eq]
    cases foldRes g s l.kids with
    | ok s' => exact ih s'
    | throw m => rfl
    | ub m => rfl

theorem foldRes_mapRes {σ α : Type} (h : Node → Res α) (ins : σ → α → Res σ) (s r : σ) (ns : List Node) :
    foldRes (fun s n => (h n).bind (ins s)) s ns = .ok r ↔ ∃ as, mapRes h ns = .ok as ∧ as.foldlM ins s = .ok r := by
  induction ns generalizing s with
  | nil =>
    simp only [foldRes, mapRes, Res.ok.injEq]
    constructor
    · rintro rfl; exact ⟨[], rfl, rfl⟩
    · rintro ⟨as, rfl, h⟩; injection h
  | cons n ns ih =>
    simp only [foldRes, mapRes, Res.bind_eq, Res.pure_eq, bind_is_ok, Res.ok.injEq]
    constructor
    · rintro ⟨s', ⟨a, ha, hs⟩, hf⟩
      obtain ⟨as, has, hr⟩ := (ih s').mp hf
      refine ⟨a :: as, ⟨a, ha, as, has, rfl⟩, ?_⟩
      rw [List.foldlM_cons]
      show (ins s a).bind _ = _
      rw [hs]
      exact hr
    · rintro ⟨as, ⟨a, ha, as', has, rfl⟩, hf⟩
      rw [List.foldlM_cons] at hf
      obtain ⟨s', hs, hr⟩ := (bind_is_ok _ _ _).mp (show (ins s a).bind _ = _ from hf)
      exact ⟨s', ⟨a, ha, hs⟩, (ih s').mpr ⟨as', has, hr⟩⟩

theorem mapRes_every_rel {α β : Type} {g : Node → Res β} {f : Node → Option α} {M : α → β → Prop} {ns : List Node}
    (h : ∀ n ∈ ns, ∀ b, g n = .ok b ↔ ∃ a, f n = some a ∧ M a b) (bs : List β) :
    mapRes g ns = .ok bs ↔ ∃ as, every f ns = some as ∧ Each M as bs := by
  induction ns generalizing bs with
  | nil =>
    simp only [mapRes, every, Res.ok.injEq, Option.some.injEq]
    constructor
    · rintro rfl; exact ⟨[], rfl, Each.nil⟩
    · rintro ⟨as, rfl, h⟩; cases h; rfl
  | cons n ns ih =>
    have ih := ih fun m hm => h m (by simp [hm])
    have hn := h n (by simp)
    simp only [mapRes, Res.bind_eq, Res.pure_eq, bind_is_ok, Res.ok.injEq]
    constructor
    · rintro ⟨b, hb, bs', hbs, rfl⟩
      obtain ⟨a, ha, hm⟩ := (hn b).mp hb
      obtain ⟨as, has, hms⟩ := (ih bs').mp hbs
      exact ⟨a :: as, by simp [every, ha, has], Each.cons hm hms⟩
    · rintro ⟨as, has, hm⟩
      rw [every] at has
      cases ha : f n with
      | none => rw [ha] at has; cases has
      | some a =>
        cases hr : every f ns with
        | none => rw [ha, hr] at has; cases has
        | some as' =>
          rw [ha, hr] at has
          simp only [Option.some.injEq] at has
          subst has
          cases hm with
          | cons h1 h2 => exact ⟨_, (hn _).mpr ⟨a, ha, h1⟩, _, (ih _).mpr ⟨as', hr, h2⟩, rfl⟩

/-- Reading one type and inserting it. -/
def insertNode (fuel : Nat) (ls : List (List TypeNotation)) (n : Node) : Res (List (List TypeNotation)) :=
  ((readNode fuel n).bind notationIn).bind (insertR TypeNotation.dependsOn ls)

theorem schemaStep_node (fuel : Nat) (ls : List (List TypeNotation)) (c : Cursor) (n : Node)
    (h : c.cur = some n) : schemaStep (dispatch fuel) ls c = (insertNode fuel ls n, c) := by
  unfold schemaStep insertNode
  rw [bind_def, dispatch_at _ h]
  cases readNode fuel n with
  | throw m => rfl
  | ub m => rfl
  | ok e =>
    have : asNotation e c = (notationIn e, c) := by cases e <;> rfl
    simp only [bind_def, this, Res.bind]
    cases notationIn e <;> rfl

theorem schemaLevel_node (fuel : Nat) (ls : List (List TypeNotation)) (c : Cursor) (n : Node)
    (h : c.cur = some n) :
    autoListEnter (fun _ => foldNext (schemaStep (dispatch fuel)) ls) false c = (foldRes (insertNode fuel) ls n.kids, c) := by
  rw [autoListEnter_eq (fun _ => scoped_foldNext (fun ls => scopedOn_schemaStep (scoped_dispatch _) ls) ls)
    (by simp [h])]
  simp only [Bool.false_eq_true, if_false]
  rw [foldNext_fold (fun s c n hc => schemaStep_node fuel s c n hc)]
  obtain ⟨p, cu, r, u⟩ := c
  simp only at h
  subst h
  cases n
  rfl

theorem schema_ok {fuel : Nat} {n : Node} (hf : n.height ≤ fuel + 1) (x : Schema) :
    readNode (fuel + 1) n = .ok (.schema x) ↔ ∃ ps ts ls, aSchema n = some ps ∧ Each TypePart.Makes ps ts
      ∧ ts.foldlM (insertR TypeNotation.dependsOn) [] = .ok ls ∧ x = Schema.make ls := by
  have hfold : foldRes (fun ls n => foldRes (insertNode fuel) ls n.kids) [] (parts n)
      = foldRes (insertNode fuel) [] ((parts n).flatMap Node.kids) := foldRes_lists _ _ _
  have htypes : ∀ ts, mapRes (fun m => (readNode fuel m).bind notationIn) ((parts n).flatMap Node.kids) = .ok ts
      ↔ ∃ ps, every aType ((parts n).flatMap Node.kids) = some ps ∧ Each TypePart.Makes ps ts := by
    intro ts
    refine mapRes_every_rel (fun m hm t => ?_) ts
    rw [List.mem_flatMap] at hm
    obtain ⟨l, hl, hml⟩ := hm
    have h1 := height_kid hml
    have h2 : l.height + 1 < n.height := by
      rw [parts] at hl
      cases hp : nth n.kids 1 with
      | none => rw [hp] at hl; simp at hl
      | some x =>
        rw [hp] at hl
        have := height_kid hl
        have := height_kid (nth_mem hp)
        omega
    obtain ⟨k, rfl⟩ : ∃ k, fuel = k + 1 := ⟨fuel - 1, by omega⟩
    rw [bind_is_ok, ← type_ok (fuel := k) (by omega)]
    constructor
    · rintro ⟨e, he, hx⟩
      have : e = .notation t := by cases e <;> simp_all [notationIn]
      rw [he, this]
    · exact fun h => ⟨_, h, rfl⟩
  have hres : ∀ ls, foldRes (insertNode fuel) [] ((parts n).flatMap Node.kids) = .ok ls ↔ ∃ ps ts,
      every aType ((parts n).flatMap Node.kids) = some ps ∧ Each TypePart.Makes ps ts
      ∧ ts.foldlM (insertR TypeNotation.dependsOn) [] = .ok ls := by
    intro ls
    have := foldRes_mapRes (fun m => (readNode fuel m).bind notationIn) (insertR TypeNotation.dependsOn) [] ls
      ((parts n).flatMap Node.kids)
    refine this.trans ?_
    constructor
    · rintro ⟨ts, h1, h2⟩
      obtain ⟨ps, h3, h4⟩ := (htypes ts).mp h1
      exact ⟨ps, ts, h3, h4, h2⟩
    · rintro ⟨ps, ts, h3, h4, h2⟩
      exact ⟨ts, (htypes ts).mpr ⟨ps, h3, h4⟩, h2⟩
  have hbuild : ∀ ks, nth n.kids 0 = some (.mk (.ulong (descId 2)) ks) →
      ((build (dispatch fuel) (descId 2) (start n.kids)).1 = .ok (.schema x) ↔
        ∃ ls, foldRes (insertNode fuel) [] ((parts n).flatMap Node.kids) = .ok ls ∧ x = Schema.make ls) := by
    intro ks hks
    have hb : build (dispatch fuel) (descId 2) = schemaBuild (dispatch fuel) := rfl
    have hne := nth_ne_nil hks
    obtain ⟨m, hm⟩ := nth_isSome 1 hne
    have hpm : parts n = m.kids := by rw [parts, hm]
    rw [hb]
    have hlist : Gives (Pos n.kids 1)
        (autoListEnter (fun _ => foldNext (fun ls => autoListEnter (fun _ => foldNext (schemaStep (dispatch fuel)) ls)) []))
        (fun ls => foldRes (insertNode fuel) [] ((parts n).flatMap Node.kids) = .ok ls) (Pos n.kids 1) := by
      refine gives_on hne fun m' hm' c hc => ?_
      rw [hm] at hm'
      injection hm' with hm'
      subst hm'
      rw [autoListEnter_eq (fun _ => scoped_foldNext (fun ls =>
        scopedOn_autoListEnter fun _ => scoped_foldNext (fun ls => scopedOn_schemaStep (scoped_dispatch _) ls) ls) _)
        (by simp [hc])]
      simp only [Bool.false_eq_true, if_false]
      rw [foldNext_fold (fun s c n hc => schemaLevel_node fuel s c n hc)]
      have hr : c.enter.rest = m.kids := by
        obtain ⟨p, cu, r, u⟩ := c
        simp only at hc
        subst hc
        cases m
        rfl
      rw [hr, ← hpm, hfold]
      exact ⟨fun _ => Iff.rfl, trivial⟩
    have h := gives_bind (gives_validate (ps := n.kids) 2) fun _ _ =>
      gives_bind hlist fun ls _ => gives_pure (Element.schema (Schema.make ls))
    refine ((h _ (pos_start _)).1 (.schema x)).trans ?_
    constructor
    · rintro ⟨_, _, ls, hls, hx⟩; injection hx with hx; exact ⟨ls, hls, hx⟩
    · rintro ⟨ls, hls, hx⟩; exact ⟨(), ⟨ks, hks⟩, ls, hls, by rw [hx]⟩
  rw [readNode_ok]
  constructor
  · rintro ⟨hv, id, ks, hn, hbld⟩
    have hid := build_number hbld (by simp)
    simp only [Element.number] at hid
    subst hid
    obtain ⟨ls, hls, hx⟩ := (hbuild ks hn).mp hbld
    obtain ⟨ps, ts, h1, h2, h3⟩ := (hres ls).mp hls
    refine ⟨ps, ts, ls, ?_, h2, h3, hx⟩
    have he : elementParts 2 n = some (parts n) :=
      elementParts_some.mpr ⟨hv, ⟨ks, descId_is (k := 2) (by decide) ▸ hn⟩, rfl⟩
    simp [aSchema, he, h1]
  · rintro ⟨ps, ts, ls, ha, h2, h3, hx⟩
    simp only [aSchema, Option.bind_eq_bind, Option.bind_eq_some_iff] at ha
    obtain ⟨qs, hq, h1⟩ := ha
    obtain ⟨hv, ⟨ks, hn⟩, hpp⟩ := elementParts_some.mp hq
    rw [← hpp] at h1
    rw [← descId_is (k := 2) (by decide)] at hn
    exact ⟨hv, _, ks, hn, (hbuild ks hn).mpr ⟨ls, (hres ls).mpr ⟨ps, ts, h1, h2, h3⟩, hx⟩⟩

/-! ### The envelope -/

theorem payload_gives {ps : List Node} (i : Nat) :
    Gives (Pos ps i) consumeBlob (fun s => ∃ n, nth ps i = some n ∧ aPayload n = some s) (Pos ps i) := by
  refine gives_at (fun h c hc a => ?_) (fun n h c hc => ?_) (fun c hc => ?_)
  · rw [h]; simp [consumeBlob, attestDescribed, attest, bind_def, Cursor.type, hc]
  · have hq : ∀ a, (∃ m, nth ps i = some m ∧ aPayload m = some a) ↔ aPayload n = some a := by
      intro a; rw [h]; simp
    by_cases hv : n.val = .described
    · have h1 : attestDescribed c = (.ok (), c) := by
        simp [attestDescribed, attest, Cursor.type, hc, hv, Atom.type]
      unfold consumeBlob
      rw [bind_of_ok h1, enter_ok scoped_getSymbol hc]
      refine ⟨fun a => ?_, rfl⟩
      rw [hq, aPayload, if_pos hv]
      exact (gives_getSymbol _ (pos_start n.kids)).1 a
    · have ht : n.val.type ≠ .described := by
        intro h; apply hv; cases hnv : n.val <;> rw [hnv] at h <;> simp_all [Atom.type]
      have h1 : attestDescribed c = (.throw "Expected a Described type", c) := by
        simp [attestDescribed, attest, Cursor.type, hc, ht]
      unfold consumeBlob
      rw [bind_of_throw h1]
      refine ⟨fun a => ?_, rfl⟩
      rw [hq, aPayload, if_neg hv]
      simp
  · simp [consumeBlob, attestDescribed, attest, bind_def, Cursor.type, hc]

theorem envelope_ok {fuel : Nat} {n : Node} (hf : n.height ≤ fuel) (x : Schema) (o : Str) :
    (∃ ks, n.val = .described ∧ nth n.kids 0 = some (.mk (.ulong (descId 1)) ks)
      ∧ (build (dispatch fuel) (descId 1) (start n.kids)).1 = .ok (.envelope x o))
    ↔ ∃ ps ts ls, anEnvelope n = some (ps, o) ∧ Each TypePart.Makes ps ts
      ∧ ts.foldlM (insertR TypeNotation.dependsOn) [] = .ok ls ∧ x = Schema.make ls := by
  have hg := fun (ps : List Node) (hp : ps = parts n) =>
    gives_bind (payload_gives (ps := ps) 0) fun o ho => gives_step <|
    gives_bind (gives_nested (fuel := fuel) (as := asSchema) (g := schemaIn) (wrap := Element.schema)
      (Q := fun m a => ∃ ps ts ls, aSchema m = some ps ∧ Each TypePart.Makes ps ts
        ∧ ts.foldlM (insertR TypeNotation.dependsOn) [] = .ok ls ∧ a = Schema.make ls)
      (ho.elim fun m hm => nth_ne_nil hm.1)
      (fun e c => by cases e <;> rfl) (fun e a => by cases e <;> simp [schemaIn])
      (fun m a hm => by
        have := part_height (hp ▸ hm)
        obtain ⟨k, rfl⟩ : ∃ k, fuel = k + 1 := ⟨fuel - 1, by omega⟩
        exact schema_ok (by omega) a)) fun s _ => gives_step <|
    gives_pure (Element.envelope s o)
  simp only [prog_assoc] at hg
  have hel := fun e => element_ok (fuel := fuel) (k := 1) (by decide) (scoped_envelopeBody (scoped_dispatch fuel)) rfl hg
    (e := .envelope x o) (n := n) (by simp) e
  have hel := hel rfl
  have hread : readNode (fuel + 1) n = .ok (.envelope x o) ↔
      (∃ ks, n.val = .described ∧ nth n.kids 0 = some (.mk (.ulong (descId 1)) ks)
      ∧ (build (dispatch fuel) (descId 1) (start n.kids)).1 = .ok (.envelope x o)) := by
    rw [readNode_ok]
    constructor
    · rintro ⟨hv, id, ks, hn, hb⟩
      have hid := build_number hb (by simp)
      simp only [Element.number] at hid
      subst hid
      exact ⟨ks, hv, hn, hb⟩
    · rintro ⟨ks, hv, hn, hb⟩; exact ⟨hv, _, ks, hn, hb⟩
  rw [← hread, hel]
  constructor
  · rintro ⟨ps, hps, o', ⟨m, hm, hpo⟩, s, ⟨k, hk, qs, ts, ls, h1, h2, h3, h4⟩, hx⟩
    injection hx with hx1 hx2
    subst hx1 hx2
    refine ⟨qs, ts, ls, ?_, h2, h3, h4⟩
    simp [anEnvelope, hps, hm, hpo, hk, h1]
  · rintro ⟨qs, ts, ls, ha, h2, h3, h4⟩
    simp only [anEnvelope, Option.bind_eq_bind, Option.bind_eq_some_iff] at ha
    obtain ⟨ps, hps, o', ⟨m, hm, hpo⟩, qs', ⟨k, hk, h1⟩, hx⟩ := ha
    simp only [Option.some.injEq, Prod.mk.injEq] at hx
    obtain ⟨rfl, rfl⟩ := hx
    exact ⟨ps, hps, o', ⟨m, hm, hpo⟩, x, ⟨k, hk, qs', ts, ls, h1, h2, h3, h4⟩, rfl⟩

/-- What `dumpContents` makes of any tree. -/
theorem readEnvelope_ok {c : Cursor} {n : Node} (hc : c.cur = some n) (x : Schema) (o : Str) :
    (readEnvelope c).1 = .ok (x, o) ↔ ∃ ps ts ls, anEnvelope n = some (ps, o) ∧ Each TypePart.Makes ps ts
      ∧ ts.foldlM (insertR TypeNotation.dependsOn) [] = .ok ls ∧ x = Schema.make ls := by
  have hfu : n.height ≤ c.fuel := by simp [Cursor.fuel, hc]
  rw [← envelope_ok hfu]
  unfold readEnvelope
  by_cases hv : n.val = .described
  · have h1 : isDescribed c = (.ok true, c) := by
      simp [isDescribed, look, Cursor.type, hc, hv, Atom.type]
    rw [bind_of_ok h1]
    simp only [if_true]
    have hs : Scoped (do let id ← look getUlong; build (dispatch c.fuel) id) :=
      scoped_bind (scoped_look _) fun id => scoped_build (scoped_dispatch _) id
    rw [bind_def, enter_ok hs hc]
    have h2 : look getUlong (start n.kids) = (.ok (getUlong (start n.kids)), start n.kids) := rfl
    rw [bind_of_ok h2]
    refine Iff.trans
      (b := (build (dispatch c.fuel) (getUlong (start n.kids)) (start n.kids)).1 = .ok (.envelope x o)) ?_ ?_
    · generalize (build (dispatch c.fuel) (getUlong (start n.kids)) (start n.kids)).1 = r
      cases r with
      | ok e =>
        cases e with
        | envelope s o' => show Res.ok (s, o') = Res.ok (x, o) ↔ _; simp
        | _ => constructor <;> intro h <;> cases h
      | throw m => constructor <;> intro h <;> cases h
      | ub w => constructor <;> intro h <;> cases h
    constructor
    · intro hb
      have hid := build_number hb (by simp)
      simp only [Element.number] at hid
      have hpos := (pos_start n.kids).1
      have hne : descId 1 ≠ 0 := by decide
      cases hn : nth n.kids 0 with
      | none =>
        rw [hn] at hpos
        simp [getUlong, Cursor.val, hpos] at hid
        exact (hne hid.symm).elim
      | some d =>
        rw [hn] at hpos
        cases d with
        | mk v ks =>
          cases v with
          | ulong id =>
            have : getUlong (start n.kids) = id := by simp [getUlong, Cursor.val, hpos, Node.val]
            rw [this] at hid hb
            subst hid
            exact ⟨ks, hv, rfl, hb⟩
          | _ =>
            simp [getUlong, Cursor.val, hpos, Node.val] at hid
            exact (hne hid.symm).elim
    · rintro ⟨ks, _, hn, hb⟩
      have hpos := (pos_start n.kids).1
      rw [hn] at hpos
      have : getUlong (start n.kids) = descId 1 := by simp [getUlong, Cursor.val, hpos, Node.val]
      rw [this]
      exact hb
  · have ht : n.val.type ≠ .described := by
      intro h; apply hv; cases hnv : n.val <;> rw [hnv] at h <;> simp_all [Atom.type]
    have h1 : isDescribed c = (.ok false, c) := by
      simp [isDescribed, look, Cursor.type, hc, ht]
    rw [bind_of_ok h1]
    simp only [Bool.false_eq_true, if_false]
    constructor
    · intro h; cases h
    · rintro ⟨_, hv', _⟩; exact (hv hv').elim

end Corda
