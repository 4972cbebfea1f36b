import Verif.Lemmas.BulkInspect
import Verif.Props.SchemaTypes
import Verif.Props.Ordering

/-
The names of the fields in a schema are not longer than the blob.
-/

namespace Corda
open Spec

theorem solid_inside {m n : Node} (h : Inside m n) (hs : solid m = true) : mass m ≤ mass n := by
  suffices key : mass m ≤ mass n ∧ solid n = true from key.1
  induction h with
  | here => exact ⟨Nat.le_refl _, hs⟩
  | deeper a ks k hk _ ih =>
    have := solid_le (n := .mk a ks) hk ih.2
    refine ⟨by omega, ?_⟩
    unfold solid
    split <;> try rfl
    simp only [Node.kids, Bool.not_eq_true', List.isEmpty_eq_false_iff]
    intro e; rw [e] at hk; cases hk

theorem string_inside {b : Bool} {m : Option Node} {n : Node} {s : Str} (hm : ∀ k, m = some k → Inside k n)
    (h : stringAt b m = .ok s) : s.length ≤ mass n := by
  cases m with
  | none => cases h
  | some m =>
    simp only [stringAt, valueOf, Option.map_some] at h
    split at h
    · next t e =>
      simp only [Res.ok.injEq] at h
      subst h
      simp only [Option.some.injEq] at e
      have h1 := solid_inside (hm m rfl) (by simp only [solid, e])
      have h2 := ink_lt m
      rw [e, ink] at h2
      omega
    · split at h
      · simp only [Res.ok.injEq] at h; subst h; simp
      · cases h
    · cases h

theorem field_make_name {a b c d e f g} {x : Field} (h : Field.make a b c d e f g = .ok x) : x.name = a := by
  unfold Field.make at h
  split at h
  · simp only [Res.pure_eq, Res.ok.injEq] at h; rw [← h]
  · replace h := Res.bind_eq_ok.mp h
    obtain ⟨arr, -, h⟩ := h
    split at h
    · replace h := Res.bind_eq_ok.mp h
      obtain ⟨_, -, h⟩ := h
      simp only [Res.pure_eq, Res.ok.injEq] at h; rw [← h]
    · split at h
      · split at h
        · simp only [Res.pure_eq, Res.ok.injEq] at h; rw [← h]
        · replace h := Res.bind_eq_ok.mp h
          obtain ⟨c, -, h⟩ := h
          split at h
          · replace h := Res.bind_eq_ok.mp h
            obtain ⟨_, -, h⟩ := h
            simp only [Res.pure_eq, Res.ok.injEq] at h; rw [← h]
          · cases h
      · replace h := Res.bind_eq_ok.mp h
        obtain ⟨_, -, h⟩ := h
        simp only [Res.pure_eq, Res.ok.injEq] at h; rw [← h]

/-- The names of the fields of a type are not longer than that. -/
def ShortType (M : Nat) : TypeNotation → Prop
  | .comp c => ∀ f ∈ c.fields, f.name.length ≤ M
  | .restr _ => True

def ShortElement (M : Nat) : Element → Prop
  | .field f => f.name.length ≤ M
  | .notation t => ShortType M t
  | .schema s => ∀ t ∈ s.types.flatten, ShortType M t
  | .envelope s _ => ∀ t ∈ s.types.flatten, ShortType M t
  | _ => True

theorem all_mem {α β : Type} {f : α → Res β} : ∀ (l : List α) (bs : List β), all (l.map f) = .ok bs → ∀ b ∈ bs, ∃ a ∈ l, f a = .ok b
  | [], bs, h, b, hb => by
    simp only [List.map_nil, all, Res.ok.injEq] at h
    subst h; cases hb
  | a :: l, bs, h, b, hb => by
    rw [List.map_cons, all] at h
    replace h := Res.bind_eq_ok.mp h
    obtain ⟨s, hs, h⟩ := h
    replace h := Res.bind_eq_ok.mp h
    obtain ⟨ss, hl, h⟩ := h
    simp only [Res.pure_eq, Res.ok.injEq] at h
    subst h
    rcases List.mem_cons.mp hb with rfl | hb
    · exact ⟨a, List.mem_cons_self, hs⟩
    · obtain ⟨a', ha', h'⟩ := all_mem l ss hl b hb
      exact ⟨a', List.mem_cons_of_mem _ ha', h'⟩

theorem insert_mem {ls ls' : List (List TypeNotation)} {t : TypeNotation} (h : insertR TypeNotation.dependsOn ls t = .ok ls') :
    ∀ x ∈ ls'.flatten, x = t ∨ x ∈ ls.flatten := by
  intro x hx
  have ha : Answers (plain TypeNotation.dependsOn) := by
    intro a b
    unfold plain
    cases hd : a.dependsOn b with
    | ok n => exact Props.dependsOn_answers a b n hd
    | throw m => simp
    | ub m => simp
  have := (insGo_perm _ ha _ _ _ _ (insGoR_ok _ _ _ _ h)).mem_iff.mp hx
  simpa using this

theorem typesOf_short {M : Nat} {rec : Option Node → Res Element} : ∀ (ms : List Node) (ls r : List (List TypeNotation)),
    (∀ t ∈ ls.flatten, ShortType M t) → (∀ m ∈ ms, ∀ e, rec (some m) = .ok e → ShortElement M e) →
    typesOf rec ls ms = .ok r → ∀ t ∈ r.flatten, ShortType M t
  | [], ls, r, hl, _, h => by
    simp only [typesOf, Res.ok.injEq] at h
    subst h; exact hl
  | m :: ms, ls, r, hl, hr, h => by
    rw [typesOf] at h
    replace h := Res.bind_eq_ok.mp h
    obtain ⟨e, he, h⟩ := h
    replace h := Res.bind_eq_ok.mp h
    obtain ⟨t, ht, h⟩ := h
    replace h := Res.bind_eq_ok.mp h
    obtain ⟨ls', hi, h⟩ := h
    refine typesOf_short ms ls' r ?_ (fun m' hm' => hr m' (List.mem_cons_of_mem _ hm')) h
    intro x hx
    rcases insert_mem hi x hx with rfl | hx
    · have := hr m List.mem_cons_self e he
      cases e <;> simp only [asKind, theType, reduceCtorEq, Res.ok.injEq] at ht
      subst ht; exact this
    · exact hl x hx

theorem elementOf_short {n : Node} {rec : Option Node → Res Element}
    (hrec : ∀ m, Inside m n → ∀ e, rec (some m) = .ok e → ShortElement (mass n) e) (hnone : ∀ e, rec none = .ok e → False)
    {id : Nat} {ps : List Node} (hps : ∀ p ∈ ps, Inside p n) {e : Element} (h : elementOf rec id ps = .ok e) :
    ShortElement (mass n) e := by
  have hnth : ∀ i k, nth ps i = some k → Inside k n := fun i k hk => hps k (nth_mem hk)
  unfold elementOf at h
  by_cases h22 : id = 22
  · rw [if_pos h22] at h; cases h
  rw [if_neg h22] at h
  by_cases h1 : id = cordaId 1
  · rw [if_pos h1] at h
    unfold envelopeOf at h
    replace h := Res.bind_eq_ok.mp h
    obtain ⟨_, -, h⟩ := h
    replace h := Res.bind_eq_ok.mp h
    obtain ⟨_, -, h⟩ := h
    replace h := Res.bind_eq_ok.mp h
    obtain ⟨x, hx, h⟩ := h
    replace h := Res.bind_eq_ok.mp h
    obtain ⟨s, hs, h⟩ := h
    simp only [Res.pure_eq, Res.ok.injEq] at h
    subst h
    have : ShortElement (mass n) x := by
      cases hn : nth ps 1 with
      | none => rw [hn] at hx; exact (hnone _ hx).elim
      | some k => rw [hn] at hx; exact hrec k (hnth 1 k hn) x hx
    cases x <;> simp only [asKind, theSchema, reduceCtorEq, Res.ok.injEq] at hs
    subst hs; exact this
  rw [if_neg h1] at h
  by_cases h2 : id = cordaId 2
  · rw [if_pos h2] at h
    unfold schemaOf at h
    replace h := Res.bind_eq_ok.mp h
    obtain ⟨ls, hl, h⟩ := h
    simp only [Res.pure_eq, Res.ok.injEq] at h
    subst h
    simp only [ShortElement, Props.schema_make_types]
    refine typesOf_short _ _ _ (by simp) ?_ hl
    intro m hm e he
    obtain ⟨p, hp, hm⟩ := List.mem_flatMap.mp hm
    exact hrec m (inside_trans (inside_kid hm) (hps p hp)) e he
  rw [if_neg h2] at h
  by_cases h3 : id = cordaId 3
  · rw [if_pos h3] at h
    replace h := Res.bind_eq_ok.mp h
    obtain ⟨_, -, h⟩ := h
    simp only [Res.pure_eq, Res.ok.injEq] at h
    subst h
    trivial
  rw [if_neg h3] at h
  by_cases h4 : id = cordaId 4
  · rw [if_pos h4] at h
    unfold fieldOf at h
    replace h := Res.bind_eq_ok.mp h
    obtain ⟨name, hname, h⟩ := h
    iterate 6
      replace h := Res.bind_eq_ok.mp h
      obtain ⟨_, -, h⟩ := h
    replace h := Res.bind_eq_ok.mp h
    obtain ⟨f, hf, h⟩ := h
    simp only [Res.pure_eq, Res.ok.injEq] at h
    subst h
    have := string_inside (hnth 0) hname
    rw [ShortElement, field_make_name hf]
    exact this
  rw [if_neg h4] at h
  by_cases h5 : id = cordaId 5
  · rw [if_pos h5] at h
    unfold compositeOf at h
    iterate 4
      replace h := Res.bind_eq_ok.mp h
      obtain ⟨_, -, h⟩ := h
    replace h := Res.bind_eq_ok.mp h
    obtain ⟨fs, hfs, h⟩ := h
    simp only [Res.pure_eq, Res.ok.injEq] at h
    subst h
    intro f hf
    obtain ⟨m, hm, hr⟩ := all_mem _ _ hfs f hf
    replace hr := Res.bind_eq_ok.mp hr
    obtain ⟨x, hx, hr⟩ := hr
    have : ShortElement (mass n) x := by
      refine hrec m ?_ x hx
      cases hn : nth ps 4 with
      | none => rw [hn] at hm; cases hm
      | some k => rw [hn] at hm; exact inside_trans (inside_kid hm) (hnth 4 k hn)
    cases x <;> simp only [asKind, theField, reduceCtorEq, Res.ok.injEq] at hr
    subst hr; exact this
  rw [if_neg h5] at h
  by_cases h6 : id = cordaId 6
  · rw [if_pos h6] at h
    unfold restrictedOf at h
    iterate 7
      replace h := Res.bind_eq_ok.mp h
      obtain ⟨_, -, h⟩ := h
    simp only [Res.pure_eq, Res.ok.injEq] at h
    subst h
    trivial
  rw [if_neg h6] at h
  by_cases h7 : id = cordaId 7
  · rw [if_pos h7] at h
    replace h := Res.bind_eq_ok.mp h
    obtain ⟨_, -, h⟩ := h
    simp only [Res.pure_eq, Res.ok.injEq] at h
    subst h
    trivial
  rw [if_neg h7] at h
  split at h
  · simp only [Res.ok.injEq] at h; subst h; trivial
  · cases h

theorem elementIn_short {n : Node} : ∀ depth m, Inside m n → ∀ e, elementIn depth (some m) = .ok e → ShortElement (mass n) e
  | 0, _, _, _, h => by cases h
  | depth + 1, m, hm, e, h => by
    unfold elementIn at h
    replace h := Res.bind_eq_ok.mp h
    obtain ⟨ks, hk, h⟩ := h
    replace h := Res.bind_eq_ok.mp h
    obtain ⟨id, hid, h⟩ := h
    have hmk := described_of_parts hk
    refine elementOf_short (elementIn_short depth) ?_ ?_ h
    · intro e he
      cases depth with
      | zero => cases he
      | succ d => cases he
    · intro p hp
      cases hn : nth ks 1 with
      | none => rw [hn] at hp; cases hp
      | some b =>
        rw [hn] at hp
        refine inside_trans (inside_kid hp) (inside_trans (inside_nth (n := m) (i := 1) ?_) hm)
        rw [hmk]; exact hn

theorem envelopeFrom_short {n : Node} {s : Schema} {d : Str} (h : envelopeFrom n = .ok (s, d)) :
    ∀ c, .comp c ∈ s.types.flatten → ∀ f ∈ c.fields, f.name.length ≤ mass n := by
  unfold envelopeFrom at h
  split at h
  · replace h := Res.bind_eq_ok.mp h
    obtain ⟨e, he, h⟩ := h
    split at h
    · next s' o =>
      simp only [Res.ok.injEq, Prod.mk.injEq] at h
      obtain ⟨rfl, rfl⟩ := h
      have := elementOf_short (n := n) (elementIn_short _) (fun e he => by
        cases hh : n.height with
        | zero => rw [hh] at he; cases he
        | succ d => rw [hh] at he; cases he) (fun p hp => by
        cases hn : nth n.kids 1 with
        | none => rw [hn] at hp; cases hp
        | some b => rw [hn] at hp; exact inside_trans (inside_kid hp) (inside_nth hn)) he
      intro c hc f hf
      exact this _ hc f hf
    · cases h
  · cases h

end Corda
