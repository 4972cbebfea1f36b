import Verif.Spec.InspectTrace
import Verif.Lemmas.InspectLocal
import Verif.Lemmas.Meaning

/-
The readers of the payload print the same for payloads that differ only in what is hidden.
-/

namespace Corda
open Spec TProg

/-! ### Hiding -/

theorem hideAll_map : ∀ ns : List Node, hideAll ns = ns.map hide
  | [] => by simp [hideAll]
  | n :: ns => by simp [hideAll, hideAll_map ns]

theorem hideAtom_type (v : Atom) : (hideAtom v).type = v.type := by cases v <;> rfl
theorem hideAtom_described (v : Atom) : hideAtom v = .described ↔ v = .described := by cases v <;> simp [hideAtom]

theorem hide_val (n : Node) : (hide n).val = hideAtom n.val := by cases n; simp [hide, Node.val]

theorem hide_type {n m : Node} (h : hide n = hide m) : n.val.type = m.val.type := by
  have := congrArg (fun x => x.val.type) h
  simpa only [hide_val, hideAtom_type] using this

theorem hide_hideTail (ks : List Node) : ∃ f : List Node → List Node, (∀ l, f l = match l with | [] => [] | k :: l => hide k :: l) ∧
    f (hideTail ks) = ks.map hide := by
  refine ⟨_, fun _ => rfl, ?_⟩
  cases ks <;> simp [hideTail, hideAll_map]

theorem hide_kids {n m : Node} (h : hide n = hide m) : n.kids.map hide = m.kids.map hide := by
  cases n with
  | mk v ks =>
    cases m with
    | mk w ls =>
      simp only [hide, Node.mk.injEq] at h
      obtain ⟨h1, h2⟩ := h
      simp only [Node.kids]
      by_cases hv : v = .described
      · have hw : w = .described := by
          have := (hideAtom_described v).mpr hv
          rw [h1] at this
          exact (hideAtom_described w).mp this
        rw [if_pos hv, if_pos hw] at h2
        obtain ⟨f, hf, e1⟩ := hide_hideTail ks
        obtain ⟨g, hg, e2⟩ := hide_hideTail ls
        have hfg : f = g := funext fun l => (hf l).trans (hg l).symm
        rw [← e1, ← e2, h2, hfg]
      · have hw : ¬ w = .described := fun hw => by
          have := (hideAtom_described w).mpr hw
          rw [← h1] at this
          exact hv ((hideAtom_described v).mp this)
        rw [if_neg hv, if_neg hw] at h2
        rwa [hideAll_map, hideAll_map] at h2

theorem hide_head {n m : Node} (h : hide n = hide m) (hd : n.val.type = .described) : n.kids.head? = m.kids.head? := by
  cases n with
  | mk v ks =>
    cases m with
    | mk w ls =>
      simp only [hide, Node.mk.injEq] at h
      obtain ⟨h1, h2⟩ := h
      have hv : v = .described := by cases v <;> simp [Node.val, Atom.type] at hd ⊢
      have hw : w = .described := by
        have := (hideAtom_described v).mpr hv
        rw [h1] at this
        exact (hideAtom_described w).mp this
      rw [if_pos hv, if_pos hw] at h2
      cases ks <;> cases ls <;> simp_all [hideTail, Node.kids]

/-! ### Positions that look the same -/

/-- The current node and those after it differ only in what is hidden. -/
def Like (c d : Cursor) : Prop := c.cur.map hide = d.cur.map hide ∧ c.rest.map hide = d.rest.map hide

/-- The same, on a node. -/
def LikeOn (c d : Cursor) : Prop := Like c d ∧ c.cur.isSome = true

/-- The same, on a described value. -/
def LikeDescribed (c d : Cursor) : Prop := Like c d ∧ c.type = .described

/-- The same, on the same node. -/
def LikeSame (c d : Cursor) : Prop := Like c d ∧ c.cur = d.cur

theorem Like.type {c d : Cursor} (h : Like c d) : c.type = d.type := by
  unfold Cursor.type
  have := h.1
  cases hc : c.cur <;> cases hd : d.cur <;> simp [hc, hd] at this ⊢
  exact hide_type this

theorem Like.isSome {c d : Cursor} (h : Like c d) : d.cur.isSome = c.cur.isSome := by
  have := congrArg Option.isSome h.1
  simpa using this.symm

theorem Like.next {c d : Cursor} (h : Like c d) : c.next.1 = d.next.1 ∧ Like c.next.2 d.next.2 := by
  obtain ⟨h1, h2⟩ := h
  unfold Cursor.next
  cases hc : c.rest <;> cases hd : d.rest <;> simp [hc, hd] at h2 ⊢
  · exact ⟨h1, by simp [hc, hd]⟩
  · exact ⟨by simp [h2.1], h2.2⟩

theorem Like.enter {c d : Cursor} (h : LikeOn c d) : Like c.enter d.enter := by
  obtain ⟨h, hs⟩ := h
  have hs' := h.isSome.trans hs
  have h1 := h.1
  cases hc : c.cur with
  | none => simp [hc] at hs
  | some n =>
    cases hd : d.cur with
    | none => simp [hd] at hs'
    | some m =>
      rw [hc, hd] at h1
      have hk := hide_kids (Option.some.inj h1)
      cases n; cases m
      simp only [Cursor.enter, hc, hd]
      exact ⟨rfl, hk⟩

theorem Like.descriptor {c d : Cursor} (h : LikeDescribed c d) : LikeSame c.enter.next.2 d.enter.next.2 := by
  obtain ⟨h, ht⟩ := h
  have hs : c.cur.isSome = true := by
    cases hc : c.cur with
    | none => simp [Cursor.type, hc] at ht
    | some _ => rfl
  refine ⟨(Like.enter ⟨h, hs⟩).next.2, ?_⟩
  have hs' := h.isSome.trans hs
  have h1 := h.1
  cases hc : c.cur with
  | none => simp [hc] at hs
  | some n =>
    cases hd : d.cur with
    | none => simp [hd] at hs'
    | some m =>
      rw [hc, hd] at h1
      have hh := hide_head (Option.some.inj h1) (by simpa [Cursor.type, hc] using ht)
      cases n with
      | mk v ks =>
        cases m with
        | mk w ls =>
          simp only [Cursor.enter, hc, hd, Cursor.next, Node.kids] at hh ⊢
          cases ks <;> cases ls <;> simp_all

theorem Like.getList {c d : Cursor} (h : Like c d) : c.getList = d.getList := by
  have h1 := h.1
  unfold Cursor.getList
  cases hc : c.cur <;> cases hd : d.cur <;> simp only [hc, hd, Option.map_some, Option.map_none, Option.some.injEq, reduceCtorEq] at h1 ⊢
  rename_i n m
  have ht := hide_type h1
  have hk := congrArg List.length (hide_kids h1)
  simp only [List.length_map] at hk
  cases n with
  | mk v ks =>
    cases m with
    | mk w ls => cases v <;> cases w <;> simp_all [Node.val, Node.kids, Atom.type]

theorem Like.getMap {c d : Cursor} (h : Like c d) : c.getMap = d.getMap := by
  have h1 := h.1
  unfold Cursor.getMap
  cases hc : c.cur <;> cases hd : d.cur <;> simp only [hc, hd, Option.map_some, Option.map_none, Option.some.injEq, reduceCtorEq] at h1 ⊢
  rename_i n m
  have ht := hide_type h1
  have hk := congrArg List.length (hide_kids h1)
  simp only [List.length_map] at hk
  cases n with
  | mk v ks =>
    cases m with
    | mk w ls => cases v <;> cases w <;> simp_all [Node.val, Node.kids, Atom.type]

theorem Like.getInt {c d : Cursor} (h : Like c d) : Prog.getInt c = Prog.getInt d := by
  have h1 := h.1
  unfold Prog.getInt Cursor.val
  cases hc : c.cur <;> cases hd : d.cur <;> simp only [hc, hd, Option.map_some, Option.map_none, Option.some.injEq, reduceCtorEq] at h1 ⊢
  rename_i n m
  have hv := congrArg Node.val h1
  rw [hide_val, hide_val] at hv
  cases hn : n.val <;> cases hm : m.val <;> simp_all [hideAtom]

/-! ### Programs that cannot tell the difference -/

/-- The outcomes agree. -/
def EndsAlike {α β : Type} (V : α → β → Prop) : Res α → Res β → Prop
  | .ok a, .ok b => V a b
  | .throw m, .throw m' => m = m'
  | .ub w, .ub w' => w = w'
  | _, _ => False

/-- From positions that look the same the two print the same, and end alike at positions that look the same. -/
def Blind {α β : Type} (R : Cursor → Cursor → Prop) (V : α → β → Prop) (p : TProg α) (q : TProg β) : Prop :=
  ∀ c d, R c d → (p c).2 = (q d).2 ∧ Like (p c).1.2 (q d).1.2 ∧ EndsAlike V (p c).1.1 (q d).1.1

/-- Nothing is known of the values. -/
abbrev any {α β : Type} : α → β → Prop := fun _ _ => True

theorem Blind.on {α β : Type} {V : α → β → Prop} {p : TProg α} {q : TProg β} (h : Blind Like V p q) : Blind LikeOn V p q :=
  fun c d hr => h c d hr.1
theorem Blind.same {α β : Type} {V : α → β → Prop} {p : TProg α} {q : TProg β} (h : Blind Like V p q) : Blind LikeSame V p q :=
  fun c d hr => h c d hr.1

theorem blind_bindAt {α β γ δ : Type} {R S : Cursor → Cursor → Prop} {V : α → β → Prop} {W : γ → δ → Prop} {p : TProg α} {q : TProg β}
    {f : α → TProg γ} {g : β → TProg δ} (h : Blind R V p q)
    (hs : ∀ c d a, R c d → (p c).1.1 = .ok a → Like (p c).1.2 (q d).1.2 → S (p c).1.2 (q d).1.2)
    (k : ∀ a b, V a b → Blind S W (f a) (g b)) : Blind R W (p >>= f) (q >>= g) := by
  intro c d hr
  obtain ⟨h1, h2, h3⟩ := h c d hr
  have hs := fun a ha => hs c d a hr ha h2
  rw [TProg.bind_def, TProg.bind_def]
  rcases hp : p c with ⟨⟨r, c'⟩, out⟩
  rcases hq : q d with ⟨⟨r', d'⟩, out'⟩
  rw [hp, hq] at h1 h2 h3 hs
  simp only at h1 h2 h3 hs
  subst h1
  cases r <;> cases r' <;> try exact h3.elim
  · rename_i a b
    obtain ⟨k1, k2, k3⟩ := k a b h3 c' d' (hs a rfl)
    exact ⟨by simp only [k1], k2, k3⟩
  · exact ⟨rfl, h2, h3⟩
  · exact ⟨rfl, h2, h3⟩

theorem blind_bind {α β γ δ : Type} {R : Cursor → Cursor → Prop} {V : α → β → Prop} {W : γ → δ → Prop} {p : TProg α} {q : TProg β}
    {f : α → TProg γ} {g : β → TProg δ} (h : Blind R V p q) (k : ∀ a b, V a b → Blind Like W (f a) (g b)) :
    Blind R W (p >>= f) (q >>= g) := blind_bindAt h (fun _ _ _ _ _ hl => hl) k

/-- When the first program returns only on a node. -/
theorem blind_guard {α β γ δ : Type} {R : Cursor → Cursor → Prop} {V : α → β → Prop} {W : γ → δ → Prop} {p : TProg α} {q : TProg β}
    {f : α → TProg γ} {g : β → TProg δ} (h : Blind R V p q) (hg : Guard (erase p)) (k : ∀ a b, V a b → Blind LikeOn W (f a) (g b)) :
    Blind R W (p >>= f) (q >>= g) := blind_bindAt h (fun c _ a _ ha hl => ⟨hl, hg c a ha⟩) k

theorem blind_pure {α β : Type} {V : α → β → Prop} {a : α} {b : β} (h : V a b) : Blind Like V (pure a) (pure b) :=
  fun _ _ hr => ⟨rfl, hr, h⟩
theorem blind_throw {α β : Type} {V : α → β → Prop} (m : String) : Blind Like V (quiet (Prog.throw m) : TProg α) (quiet (Prog.throw m) : TProg β) :=
  fun _ _ hr => ⟨rfl, hr, rfl⟩
theorem blind_ub {α β : Type} {V : α → β → Prop} (m : String) : Blind Like V (quiet (Prog.ub m) : TProg α) (quiet (Prog.ub m) : TProg β) :=
  fun _ _ hr => ⟨rfl, hr, rfl⟩
theorem blind_lift {α : Type} (r : Res α) : Blind Like Eq (quiet (Prog.lift r)) (quiet (Prog.lift r)) :=
  fun _ _ hr => ⟨rfl, hr, by cases r <;> exact rfl⟩
theorem blind_dbg (f : Str) (l : Nat) (s : Str) : Blind Like Eq (dbg f l s) (dbg f l s) := fun _ _ hr => ⟨rfl, hr, rfl⟩
theorem blind_look {α : Type} {R : Cursor → Cursor → Prop} (hR : ∀ c d, R c d → Like c d) (g : Cursor → α) (hg : ∀ c d, R c d → g c = g d) :
    Blind R Eq (quiet (Prog.look g)) (quiet (Prog.look g)) := fun c d hr => ⟨rfl, hR c d hr, hg c d hr⟩
theorem blind_any {α β : Type} (g : Cursor → α) (g' : Cursor → β) : Blind Like any (quiet (Prog.look g)) (quiet (Prog.look g')) :=
  fun _ _ hr => ⟨rfl, hr, trivial⟩
theorem blind_next : Blind Like Eq (quiet Prog.next) (quiet Prog.next) := fun _ _ hr => ⟨rfl, hr.next.2, hr.next.1⟩
theorem blind_attest (t : PnType) (m : String) : Blind Like Eq (quiet (Prog.attest t m)) (quiet (Prog.attest t m)) := by
  intro c d hr
  have ht := hr.type
  simp only [quiet, Prog.attest, ← ht]
  by_cases h : c.type = t
  · simp only [if_pos h]
    exact ⟨trivial, hr, rfl⟩
  · simp only [if_neg h]
    exact ⟨trivial, hr, rfl⟩

theorem blind_described {γ δ : Type} {W : γ → δ → Prop} {f : Unit → TProg γ} {g : Unit → TProg δ} (k : Blind LikeDescribed W (f ()) (g ())) :
    Blind Like W (quiet Prog.attestDescribed >>= f) (quiet Prog.attestDescribed >>= g) := by
  refine blind_bindAt (blind_attest _ _) (S := LikeDescribed) ?_ fun _ _ _ => k
  intro c d a _ ha hl
  refine ⟨hl, ?_⟩
  by_cases h : c.type = .described
  · have e : Prog.attestDescribed c = (.ok (), c) := if_pos h
    simp only [quiet, e]
    exact h
  · have e : Prog.attestDescribed c = (.throw "Expected a Described type", c) := if_neg h
    simp [quiet, e] at ha

theorem blind_ite {α β : Type} {R : Cursor → Cursor → Prop} {V : α → β → Prop} {b : Prop} [Decidable b] {p p' : TProg α} {q q' : TProg β}
    (h : Blind R V p q) (h' : Blind R V p' q') : Blind R V (if b then p else p') (if b then q else q') := by
  split <;> assumption

theorem blind_autoNext {α β : Type} {R : Cursor → Cursor → Prop} {V : α → β → Prop} {p : TProg α} {q : TProg β} (h : Blind R V p q) :
    Blind R V (autoNext p) (autoNext q) := by
  intro c d hr
  obtain ⟨h1, h2, h3⟩ := h c d hr
  exact ⟨h1, h2.next.2, h3⟩

theorem autoEnter_back {α : Type} {p : TProg α} {nx : Bool} (hp : Scoped (erase p)) {c : Cursor} (hc : c.cur.isSome = true) :
    (autoEnter p nx c).1.2 = c := by
  have := autoEnter_eq (nx := nx) hp hc
  rw [← erase_autoEnter] at this
  exact congrArg Prod.snd this

theorem blind_enter {α β : Type} {V : α → β → Prop} {p : TProg α} {q : TProg β} (nx : Bool) (hp : Scoped (erase p)) (hq : Scoped (erase q))
    (h : Blind Like V p q) : Blind LikeOn V (autoEnter p nx) (autoEnter q nx) := by
  intro c d hr
  rw [autoEnter_back hp hr.2, autoEnter_back hq (hr.1.isSome.trans hr.2)]
  have h1 := (Like.enter hr).next.2
  cases nx
  · obtain ⟨k1, _, k3⟩ := h _ _ h1
    exact ⟨k1, hr.1, k3⟩
  · obtain ⟨k1, _, k3⟩ := h _ _ h1.next.2
    exact ⟨k1, hr.1, k3⟩

theorem blind_enterDescribed {α β : Type} {V : α → β → Prop} {p : TProg α} {q : TProg β} (hp : Scoped (erase p)) (hq : Scoped (erase q))
    (h : Blind LikeSame V p q) : Blind LikeDescribed V (autoEnter p) (autoEnter q) := by
  intro c d hr
  have hs : c.cur.isSome = true := by
    cases hc : c.cur with
    | none => simp [LikeDescribed, Cursor.type, hc] at hr
    | some _ => rfl
  rw [autoEnter_back hp hs, autoEnter_back hq (hr.1.isSome.trans hs)]
  obtain ⟨k1, _, k3⟩ := h _ _ (Like.descriptor hr)
  exact ⟨k1, hr.1, k3⟩

theorem blind_listEnter {α β : Type} {V : α → β → Prop} {p : Nat → TProg α} {q : Nat → TProg β} (nx : Bool) (hp : ∀ n, Scoped (erase (p n)))
    (hq : ∀ n, Scoped (erase (q n))) (h : ∀ n, Blind Like V (p n) (q n)) : Blind LikeOn V (listEnter p nx) (listEnter q nx) := by
  intro c d hr
  have b1 : (listEnter p nx c).1.2 = c := by
    have := autoListEnter_eq (nx := nx) hp hr.2
    rw [← erase_listEnter] at this
    exact congrArg Prod.snd this
  have b2 : (listEnter q nx d).1.2 = d := by
    have := autoListEnter_eq (nx := nx) hq (hr.1.isSome.trans hr.2)
    rw [← erase_listEnter] at this
    exact congrArg Prod.snd this
  rw [b1, b2]
  have h1 := Like.enter hr
  have hn := hr.1.getList
  have e1 : listEnter p nx c = (((p c.getList (if nx then c.enter.next.2 else c.enter)).1.1,
      (p c.getList (if nx then c.enter.next.2 else c.enter)).1.2.exit), (p c.getList (if nx then c.enter.next.2 else c.enter)).2) := rfl
  have e2 : listEnter q nx d = (((q d.getList (if nx then d.enter.next.2 else d.enter)).1.1,
      (q d.getList (if nx then d.enter.next.2 else d.enter)).1.2.exit), (q d.getList (if nx then d.enter.next.2 else d.enter)).2) := rfl
  rw [e1, e2, hn]
  cases nx
  · obtain ⟨k1, _, k3⟩ := h d.getList _ _ h1
    exact ⟨k1, hr.1, k3⟩
  · obtain ⟨k1, _, k3⟩ := h d.getList _ _ h1.next.2
    exact ⟨k1, hr.1, k3⟩

theorem blind_mapEnter {α β : Type} {V : α → β → Prop} {p : Nat → TProg α} {q : Nat → TProg β} (hp : ∀ n, Scoped (erase (p n)))
    (hq : ∀ n, Scoped (erase (q n))) (h : ∀ n, Blind Like V (p n) (q n)) : Blind LikeOn V (autoMapEnter p) (autoMapEnter q) := by
  intro c d hr
  have b1 : (autoMapEnter p c).1.2 = c := by
    have := autoMapEnter_eq (nx := true) hp hr.2
    rw [← erase_autoMapEnter] at this
    exact congrArg Prod.snd this
  have b2 : (autoMapEnter q d).1.2 = d := by
    have := autoMapEnter_eq (nx := true) hq (hr.1.isSome.trans hr.2)
    rw [← erase_autoMapEnter] at this
    exact congrArg Prod.snd this
  rw [b1, b2]
  have hn := hr.1.getMap
  obtain ⟨k1, _, k3⟩ := h c.getMap _ _ (Like.enter hr).next.2
  rw [hn] at k1 k3
  exact ⟨by unfold autoMapEnter scope; simpa only [hn] using k1, hr.1, by unfold autoMapEnter scope; simpa only [hn] using k3⟩

theorem blind_times {α β : Type} {p : TProg α} {q : TProg β} (h : Blind Like any p q) (n : Nat) : Blind Like any (times p n) (times q n) := by
  induction n with
  | zero => exact blind_pure trivial
  | succ n ih => exact blind_bind h fun _ _ _ => blind_bind ih fun _ _ _ => blind_pure trivial

/-! ### The readers of the payload -/

/-- What `readAndNext<std::string>` makes of a value. -/
def textOf : Option Atom → Res Str
  | some (.string s) => .ok s
  | some (.symbol s) => .ok s
  | _ => .throw "Expected a String but found"

theorem readString_eq (c : Cursor) : Prog.readString false c = (textOf c.val, c.next.2) := by
  unfold Prog.readString Prog.autoNext
  dsimp only
  rcases c.val with _ | v
  · rfl
  · cases v <;> rfl

theorem blind_readString : Blind Like any (quiet Prog.readString) (quiet Prog.readString) := by
  intro c d hr
  have ht := hr.type
  unfold quiet
  rw [readString_eq, readString_eq]
  refine ⟨rfl, hr.next.2, ?_⟩
  unfold Cursor.val
  unfold Cursor.type at ht
  have h1 := hr.1
  cases hc : c.cur <;> cases hd : d.cur <;> simp only [hc, hd, Option.map_some, Option.map_none, reduceCtorEq] at h1 ht ⊢
  · rfl
  · rename_i n m
    cases hn : n.val <;> cases hm : m.val <;> simp only [hn, hm, Atom.type, reduceCtorEq] at ht <;> first | exact rfl | exact trivial

theorem blind_readText : Blind Like any (readText) (readText) :=
  blind_bind (V := Eq) (fun _ _ hr => ⟨rfl, hr, rfl⟩) fun _ _ _ => blind_readString

/-- On the same node the text is the same. -/
theorem blind_sameText : Blind LikeSame Eq (readText) (readText) := by
  intro c d hr
  obtain ⟨h1, h2, h3⟩ := blind_readText c d hr.1
  refine ⟨h1, h2, ?_⟩
  have hv : c.val = d.val := by unfold Cursor.val; rw [hr.2]
  show EndsAlike Eq (Prog.readString false c).1 (Prog.readString false d).1
  rw [readString_eq, readString_eq, ← hv]
  show EndsAlike Eq (textOf c.val) (textOf c.val)
  cases textOf c.val <;> rfl

theorem blind_symbol : Blind LikeSame Eq (quiet Prog.getSymbol) (quiet Prog.getSymbol) := by
  intro c d hr
  have ht := hr.1.type
  have hv : c.val = d.val := by unfold Cursor.val; rw [hr.2]
  unfold quiet Prog.getSymbol Prog.isSymbol
  rw [Prog.bind_def, Prog.bind_def]
  unfold Prog.attest
  by_cases h : c.type = .symbol
  · rw [if_pos h, if_pos (ht ▸ h)]
    refine ⟨rfl, hr.1, ?_⟩
    show Prog.getSymbolRaw c = Prog.getSymbolRaw d
    unfold Prog.getSymbolRaw
    rw [hv]
  · rw [if_neg h, if_neg (ht ▸ h)]
    exact ⟨rfl, hr.1, rfl⟩

/-- Reading a number whose text does not matter. -/
theorem blind_number {α : Type} (g : Cursor → α) (f : α → Str) :
    Blind Like any (quiet (Prog.autoNext (Prog.look g) >>= fun x => pure (f x))) (quiet (Prog.autoNext (Prog.look g) >>= fun x => pure (f x))) :=
  fun _ _ hr => ⟨rfl, hr.next.2, trivial⟩

theorem blind_map {α β : Type} {R : Cursor → Cursor → Prop} {p : Prog α} (h : Blind R any (quiet p) (quiet p)) (f : α → β) :
    Blind R any (quiet (p >>= fun x => pure (f x))) (quiet (p >>= fun x => pure (f x))) := by
  intro c d hr
  obtain ⟨_, h2, h3⟩ := h c d hr
  unfold quiet at h2 h3 ⊢
  refine ⟨rfl, ?_⟩
  simp only [Prog.bind_def]
  revert h2 h3
  rcases p c with ⟨r, c'⟩
  rcases p d with ⟨r', d'⟩
  intro h2 h3
  cases r <;> cases r' <;> first | exact h3.elim | exact ⟨h2, h3⟩

theorem blind_propertyText (q : PrimReader) : Blind Like any (quiet (Prog.propertyText q)) (quiet (Prog.propertyText q)) := by
  cases q
  case float => exact blind_throw _
  case string => exact blind_map blind_readString _
  all_goals exact blind_number _ _

/-- The text of an integer is the same. -/
theorem blind_intText : Blind Like Eq (quiet (Prog.propertyText .int)) (quiet (Prog.propertyText .int)) := by
  intro c d hr
  refine ⟨rfl, hr.next.2, ?_⟩
  show intStr (Prog.getInt c) = intStr (Prog.getInt d)
  rw [hr.getInt]

theorem blind_propertyDump (p : Paths) (n : Option Str) (q : PrimReader) : Blind Like any (propertyDump p n q) (propertyDump p n q) := by
  cases q
  case int =>
    cases n with
    | none => exact blind_bind (blind_dbg _ _ _) fun _ _ _ => blind_bind blind_intText fun _ _ _ => blind_pure trivial
    | some n =>
      exact blind_bind (blind_dbg _ _ _) fun _ _ _ => blind_bind (blind_dbg _ _ _) fun _ _ _ => blind_bind blind_intText fun a b e =>
        e ▸ blind_bind (blind_dbg _ _ _) fun _ _ _ => blind_pure trivial
  case string =>
    cases n <;> exact blind_bind (blind_dbg _ _ _) fun _ _ _ => blind_bind blind_readText fun _ _ _ => blind_pure trivial
  all_goals exact blind_bind (blind_propertyText _) fun _ _ _ => blind_pure trivial

theorem blind_checkList {γ δ : Type} {W : γ → δ → Prop} (p : Paths) {f : Unit → TProg γ} {g : Unit → TProg δ} (k : Blind LikeOn W (f ()) (g ())) :
    Blind Like W (checkList p >>= f) (checkList p >>= g) :=
  blind_guard (V := Eq) (blind_bind (blind_attest _ _) fun _ _ _ => blind_dbg _ _ _) (guard_checkList p) fun _ _ _ => k

section
variable (p : Paths) (F : Factory) (s : Schema) {rec : Nat → Option Str → TProg Val} (h : ∀ i n, Blind Like any (rec i n) (rec i n))
  (hs : ∀ i n, ScopedT (rec i n))
include h

theorem blind_useReader (i : Nat) : Blind Like any (useReader F rec i) (useReader F rec i) := by
  unfold useReader
  cases F.lock i with
  | none => exact blind_ub _
  | some _ => exact h i none

theorem blind_dumpFields (fs : List (Field × Nat)) : Blind Like any (dumpFields p F rec fs) (dumpFields p F rec fs) := by
  induction fs with
  | nil => exact blind_pure trivial
  | cons f fs ih =>
    rcases f with ⟨f, i⟩
    unfold dumpFields
    cases F.lock i with
    | none => exact blind_throw _
    | some _ =>
      exact blind_bind (blind_dbg _ _ _) fun _ _ _ => blind_bind (h _ _) fun _ _ _ => blind_bind ih fun _ _ _ => blind_pure trivial

include hs

theorem blind_compositeDump (subs : List Nat) : Blind Like any (compositeDump p F s rec subs) (compositeDump p F s rec subs) := by
  have hsc := (scopedT_compositeInner p F s hs subs).erased
  refine blind_bind (blind_dbg _ _ _) fun _ _ _ => blind_described (blind_enterDescribed hsc hsc ?_)
  refine blind_bind blind_symbol fun a b e => ?_
  subst e
  refine blind_bind (blind_lift _) fun t t' e => ?_
  subst e
  cases t with
  | restr _ => exact blind_throw _
  | comp c =>
    have hf := (scopedT_dumpFields p F hs (c.fields.zip subs)).erased
    exact blind_ite (blind_bind blind_next fun _ _ _ => blind_checkList p (blind_enter _ hf hf (blind_dumpFields p F h _))) (blind_ub _)

theorem blind_listDump (subs : List Nat) : Blind Like any (listDump F s rec subs) (listDump F s rec subs) := by
  have hsc := (scopedT_listInner F s hs subs).erased
  have hi := fun n => (scopedT_listItems F hs subs n).erased
  refine blind_described (blind_enterDescribed hsc hsc ?_)
  refine blind_guard blind_sameText (guard_readText _) fun a b e => ?_
  subst e
  refine blind_bindAt (S := LikeOn) (blind_lift _).on (fun _ _ _ hr _ _ => hr) fun _ _ _ => ?_
  refine blind_listEnter _ hi hi fun n => ?_
  cases subs with
  | nil => exact blind_ub _
  | cons i _ => exact blind_times (blind_useReader F h i) n

theorem blind_mapDump (lf : Bool) (subs : List Nat) : Blind Like any (mapDump p lf F s rec subs) (mapDump p lf F s rec subs) := by
  have hsc := (scopedT_mapInner p F s hs lf subs).erased
  have hi := fun n => (scopedT_mapItems p F hs lf subs n).erased
  refine blind_described (blind_enterDescribed hsc hsc ?_)
  refine blind_guard blind_sameText (guard_readText _) fun a b e => ?_
  subst e
  refine blind_bindAt (S := LikeOn) (blind_lift _).on (fun _ _ _ hr _ _ => hr) fun _ _ _ => ?_
  refine blind_mapEnter hi hi fun n => blind_bind (blind_dbg _ _ _) fun _ _ _ => ?_
  split
  · refine blind_times ?_ _
    unfold mapEntry
    refine blind_ite ?_ ?_ <;> exact blind_bind (blind_useReader F h _) fun _ _ _ => blind_bind (blind_useReader F h _) fun _ _ _ => blind_pure trivial
  · exact blind_ub _

end

theorem blind_enumValue : Blind Like any enumValue enumValue := by
  have hsc := scopedT_enumInner.erased
  refine blind_described (blind_enterDescribed hsc hsc ?_)
  refine blind_bindAt (S := LikeSame) (blind_look (fun _ _ h => h.1) _ fun _ _ h => h.1.type) (fun _ _ _ hr _ _ => hr) fun t t' e => ?_
  subst e
  refine blind_bindAt (S := LikeSame) (blind_look (fun _ _ h => h.1) _ fun c d h => ?_) (fun _ _ _ hr _ _ => hr) fun i i' e => ?_
  · unfold Prog.getUlong Cursor.val
    rw [h.2]
  · subst e
    refine Blind.same (blind_ite (blind_throw _) (blind_guard blind_readText (guard_readText _) fun _ _ _ => ?_))
    exact blind_listEnter _ (fun _ => (scopedT_readText _).erased) (fun _ => (scopedT_readText _).erased) fun _ => blind_readText

/-- Serialisers of the user that cannot tell the difference either. -/
def BlindCustoms (cu : Customs) : Prop := ∀ k s n, Blind Like any (quiet (cu k s n)) (quiet (cu k s n))

theorem blind_dumpWith (p : Paths) {cu : Customs} (hcu : ∀ k s n, Scoped (cu k s n)) (hb : BlindCustoms cu) (lf : Bool) (F : Factory) (s : Schema)
    {rec : Nat → Option Str → TProg Val} (h : ∀ i n, Blind Like any (rec i n) (rec i n)) (hs : ∀ i n, ScopedT (rec i n)) (o : Ser)
    (n : Option Str) : Blind Like any (dumpWith p cu lf F s rec o n) (dumpWith p cu lf F s rec o n) := by
  unfold dumpWith
  cases o.kind with
  | prim q => exact blind_propertyDump p n q
  | enum _ =>
    exact blind_autoNext (blind_bind (blind_attest _ _) fun _ _ _ => blind_bind blind_enumValue fun _ _ _ => blind_pure trivial)
  | composite =>
    refine blind_autoNext (blind_bind (blind_look (fun _ _ h => h) _ fun c d h => by rw [h.type]) fun a b e => ?_)
    subst e
    exact blind_ite (blind_pure trivial) (blind_bind (blind_compositeDump p F s h hs _) fun _ _ _ => blind_pure trivial)
  | list => exact blind_autoNext (blind_bind (blind_listDump F s h hs _) fun _ _ _ => blind_pure trivial)
  | array => exact blind_autoNext (blind_bind (blind_listDump F s h hs _) fun _ _ _ => blind_pure trivial)
  | map =>
    cases n <;> exact blind_bind (blind_dbg _ _ _) fun _ _ _ =>
      blind_autoNext (blind_bind (blind_mapDump p F s h hs lf _) fun _ _ _ => blind_pure trivial)
  | custom k => exact hb _ _ _

theorem blind_dump (p : Paths) {cu : Customs} (hcu : ∀ k s n, Scoped (cu k s n)) (hb : BlindCustoms cu) (lf : Bool) (F : Factory) (s : Schema)
    (fuel : Nat) : ∀ i n, Blind Like any (dump p cu lf F s fuel i n) (dump p cu lf F s fuel i n) := by
  induction fuel with
  | zero => exact fun _ _ => blind_ub _
  | succ fuel ih =>
    intro i n
    unfold dump
    cases F.objs[i]? with
    | none => exact blind_ub _
    | some o => exact blind_dumpWith p hcu hb lf F s ih (scopedT_dump p hcu lf F s fuel) o n

theorem toldQuiet_bind {α β : Type} (p : Prog α) (f : α → Prog β) : (quiet (p >>= f) : TProg β) = (quiet p >>= fun a => quiet (f a)) := by
  funext c
  rw [TProg.bind_def]
  unfold quiet
  rw [Prog.bind_def]
  rcases p c with ⟨r, c'⟩
  cases r <;> rfl

theorem toldQuiet_enter {α : Type} (p : Prog α) : (quiet (Prog.autoEnter p) : TProg α) = autoEnter (quiet p) := rfl

theorem blind_publicKey : BlindCustoms (fun _ _ => Prog.publicKeyDump) := by
  intro k s n
  cases n with
  | none => exact blind_throw _
  | some n =>
    have e : (quiet (Prog.publicKeyDump (some n)) : TProg Val) = autoNext (do
        quiet Prog.attestDescribed
        autoEnter (do
          let _ ← quiet Prog.next
          quiet Prog.attestBinary
          let _ ← quiet Prog.readBinary
          pure (.pair n Prog.publicKeyText))) := by
      show autoNext (quiet (Prog.attestDescribed >>= fun _ => Prog.autoEnter (Prog.next >>= fun _ => Prog.attestBinary >>= fun _ =>
        Prog.readBinary >>= fun _ => pure (Val.pair n Prog.publicKeyText)))) = _
      refine congrArg autoNext ?_
      rw [toldQuiet_bind]
      refine congrArg (Bind.bind (quiet Prog.attestDescribed)) (funext fun _ => ?_)
      rw [toldQuiet_enter, toldQuiet_bind]
      refine congrArg (fun q => autoEnter q) (congrArg (Bind.bind (quiet Prog.next)) (funext fun _ => ?_))
      rw [toldQuiet_bind]
      refine congrArg (Bind.bind (quiet Prog.attestBinary)) (funext fun _ => ?_)
      rw [toldQuiet_bind]
      rfl
    rw [e]
    have hsc : Scoped (erase (do
          let _ ← quiet Prog.next
          quiet Prog.attestBinary
          let _ ← quiet Prog.readBinary
          pure (Val.pair n Prog.publicKeyText) : TProg Val)) := by
      simp only [erase_bind, erase_quiet, erase_pure]
      exact scoped_publicKeyInner n
    refine blind_autoNext (blind_described (blind_enterDescribed ?_ ?_ ?_))
    · exact hsc
    · exact hsc
    · exact Blind.same (blind_bind blind_next fun _ _ _ => blind_bind (blind_attest _ _) fun _ _ _ =>
        blind_bind (V := any) (blind_autoNext (p := quiet _) (q := quiet _) (blind_any _ _)) fun _ _ _ => blind_pure trivial)

/-! ### The whole inspection -/

theorem heights_hide {ns ms : List Node} (hh : ∀ n ∈ ns, ∀ m, hide n = hide m → n.height = m.height) (h : ns.map hide = ms.map hide) :
    Node.height.heights ns = Node.height.heights ms := by
  induction ns generalizing ms with
  | nil => cases ms <;> simp at h ⊢
  | cons n ns ih =>
    cases ms with
    | nil => simp at h
    | cons m ms =>
      simp only [List.map_cons, List.cons.injEq] at h
      simp only [Node.height.heights]
      rw [hh n (by simp) m h.1, ih (fun x hx => hh x (by simp [hx])) h.2]

theorem height_hide : (n m : Node) → hide n = hide m → n.height = m.height
  | .mk v ks, .mk w ls, h => by
    have hk := hide_kids h
    simp only [Node.kids] at hk
    simp only [Node.height]
    rw [heights_hide (fun n _ m e => height_hide n m e) hk]
termination_by n => n
decreasing_by
  simp_wf
  have := List.sizeOf_lt_of_mem ‹_ ∈ ks›
  omega

theorem Like.fuel {c d : Cursor} (h : Like c d) : c.fuel = d.fuel := by
  have h1 := h.1
  unfold Cursor.fuel
  cases hc : c.cur <;> cases hd : d.cur <;> simp only [hc, hd, Option.map_some, Option.map_none, Option.some.injEq, reduceCtorEq] at h1 ⊢
  exact height_hide _ _ h1

theorem blind_dumpPayload (p : Paths) {cu : Customs} (hcu : ∀ k s n, Scoped (cu k s n)) (hb : BlindCustoms cu) (lf : Bool) (F : Factory)
    (s : Schema) (i : Nat) : Blind LikeOn any (dumpPayload p cu lf F s i) (dumpPayload p cu lf F s i) := by
  intro c d hr
  have hf := hr.1.fuel
  have hs : ∀ k, ScopedT (do
      let v ← dump p cu lf F s k i (some Prog.parsedName)
      pure (v.dump ++ mapClose)) := fun k => scopedT_bind (scopedT_dump p hcu lf F s k i _) fun _ => scopedT_pure _
  have hs2 : ∀ k, ScopedT (do
      checkList p
      let n ← quiet (Prog.look Cursor.getList)
      if n = 3 then
        autoEnter (do
          let v ← dump p cu lf F s k i (some Prog.parsedName)
          pure (v.dump ++ mapClose))
      else quiet (Prog.ub "assert")) := fun k =>
    scopedT_guard_bind (scopedT_checkList p) (guard_checkList p) fun _ => scopedTOn_bind (scopedT_quiet (scoped_look _)).on fun n => by
      by_cases hn : n = 3
      · rw [if_pos hn]; exact scopedTOn_autoEnter (hs k)
      · rw [if_neg hn]; exact (scopedT_quiet (scoped_ub _)).on
  unfold dumpPayload
  rw [hf]
  refine blind_enter true (hs2 _).erased (hs2 _).erased ?_ c d hr
  refine blind_checkList p ?_
  refine blind_bindAt (S := LikeOn) (blind_look (fun _ _ h => h.1) _ fun _ _ h => h.1.getList) (fun _ _ _ hr _ _ => hr) fun a b e => ?_
  subst e
  exact blind_ite (blind_enter false (hs _).erased (hs _).erased
    (blind_bind (blind_dump p hcu hb lf F s _ i _) fun _ _ _ => blind_pure trivial)) (blind_ub _).on

/-- The descriptor of a payload, as the envelope reads it. -/
def outerOf (n : Node) : Res Str := (Prog.consumeBlob (Cursor.root n)).1

theorem consumeBlob_at {c : Cursor} {n : Node} (h : c.cur = some n) : Prog.consumeBlob c = (outerOf n, c) := by
  unfold outerOf Prog.consumeBlob
  by_cases ht : n.val.type = .described
  · have h1 : Prog.attestDescribed c = (.ok (), c) := by simp [Prog.attestDescribed, Prog.attest, Cursor.type, h, ht]
    have h2 : Prog.attestDescribed (Cursor.root n) = (.ok (), Cursor.root n) := by
      simp [Prog.attestDescribed, Prog.attest, Cursor.type, Cursor.root, ht]
    rw [Prog.bind_of_ok h1, Prog.bind_of_ok h2]
    exact autoEnter_at scoped_getSymbol h
  · have h1 : Prog.attestDescribed c = (.throw "Expected a Described type", c) := by
      simp [Prog.attestDescribed, Prog.attest, Cursor.type, h, ht]
    have h2 : Prog.attestDescribed (Cursor.root n) = (.throw "Expected a Described type", Cursor.root n) := by
      simp [Prog.attestDescribed, Prog.attest, Cursor.type, Cursor.root, ht]
    rw [Prog.bind_of_throw h1, Prog.bind_of_throw h2]

theorem outerOf_hide {n m : Node} (h : hide n = hide m) : outerOf n = outerOf m := by
  have hb : Blind Like Eq (quiet Prog.consumeBlob) (quiet Prog.consumeBlob) := by
    have e : (quiet Prog.consumeBlob : TProg Str) = (quiet Prog.attestDescribed >>= fun _ => autoEnter (quiet Prog.getSymbol)) := toldQuiet_bind _ _
    rw [e]
    exact blind_described (blind_enterDescribed scoped_getSymbol scoped_getSymbol blind_symbol)
  have := (hb (Cursor.root n) (Cursor.root m) ⟨by simp [Cursor.root, h], rfl⟩).2.2
  unfold outerOf
  simp only [quiet] at this
  revert this
  cases (Prog.consumeBlob (Cursor.root n)).1 <;> cases (Prog.consumeBlob (Cursor.root m)).1 <;> intro this
  · exact congrArg _ this
  · exact this.elim
  · exact this.elim
  · exact this.elim
  · exact congrArg _ this
  · exact this.elim
  · exact this.elim
  · exact this.elim
  · exact congrArg _ this

end Corda
