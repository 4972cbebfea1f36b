import Verif.Lemmas.BulkNames

/-
How long the text of a dump of the data is.
-/

namespace Corda
open Spec

private theorem map_ok {α β : Type} {f : α → β} {x : Res α} {b : β} (h : f <$> x = .ok b) : ∃ a, x = .ok a ∧ f a = b := by
  cases x with
  | ok a => exact ⟨a, rfl, by simpa using h⟩
  | throw m => cases h
  | ub m => cases h

private theorem shown_nth {ns : List Node} {i : Nat} {n : Node} (h : nth ns i = some n) (t : PnType) :
    showAt (takenParts ns) i t = taken n t := by
  have hp : takenParts ns = ns.map taken := by
    clear h
    induction ns with
    | nil => rw [takenParts]; rfl
    | cons n ns ih => rw [takenParts, ih]; rfl
  unfold nth at h
  unfold showAt
  rw [hp, List.length_map, List.getElem?_map, h]
  rfl

private theorem shown_all (ns : List Node) : takenAll ns = ns.map fun n => taken n n.val.type := by
  induction ns with
  | nil => rw [takenAll]; rfl
  | cons n ns ih => rw [takenAll, ih]; rfl

theorem masses_sum (ks : List Node) : (ks.map mass).sum = masses ks := by
  induction ks with
  | nil => simp [masses]
  | cons k ks ih => rw [List.map_cons, List.sum_cons, ih, masses]

theorem typeWord_length : ∀ t : PnType, (typeWord t).length ≤ 22 := by
  intro t; cases t <;> decide

theorem leafText_length (a : Atom) : (leafText a).length ≤ 22 + ink a := by
  cases a with
  | bool b => cases b <;> decide
  | symbol s => show someSymbol.length ≤ _; exact Nat.le_trans (by decide) (Nat.le_add_right 22 _)
  | int n => rw [leafText, ink]; omega
  | long n => rw [leafText, ink]; omega
  | uint n => rw [leafText, ink]; omega
  | ulong n => rw [leafText, ink]; omega
  | float n => rw [leafText, ink]; omega
  | double n => rw [leafText, ink]; omega
  | string s => rw [leafText, ink]; omega
  | binary s => exact Nat.le_trans (typeWord_length .binary) (Nat.le_add_right 22 _)
  | _ => simp only [leafText]; exact Nat.le_trans (typeWord_length _) (Nat.le_add_right 22 _)

theorem noMaps_inside {m n : Node} (h : NoMaps n) (hi : Inside m n) : NoMaps m := fun ks hk => h ks (inside_trans hk hi)

private theorem atom_list {a : Atom} (h : a.type = .list) : a = .list := by cases a <;> simp_all [Atom.type]
private theorem atom_map {a : Atom} (h : a.type = .map) : a = .map := by cases a <;> simp_all [Atom.type]

theorem taken_length : ∀ d (n : Node) t s, n.height ≤ d → NoMaps n → taken n t = .ok s → s.length + 2 ≤ 24 * mass n
  | 0, n, _, _, hd, _, _ => by cases n; simp [Node.height] at hd
  | d + 1, .mk a ks, t, s, hd, hm, h => by
    have hkid : ∀ k ∈ ks, k.height ≤ d := fun k hk => by
      have := height_kids (v := a) hk
      omega
    have ih : ∀ k ∈ ks, ∀ t s, taken k t = .ok s → s.length + 2 ≤ 24 * mass k := fun k hk t s =>
      taken_length d k t s (hkid k hk) (noMaps_inside hm (inside_kid (n := .mk a ks) hk))
    rw [taken] at h
    by_cases h1 : t = .list
    · rw [if_pos h1] at h
      by_cases h2 : a.type = .list
      · rw [if_pos h2, shown_all] at h
        have ha := atom_list h2
        subst ha
        replace h := map_ok h
        obtain ⟨ss, hs, rfl⟩ := h
        have h3 := all_length (w := mass) ks ss (fun k hk s => ih k hk _ s) hs
        rw [masses_sum] at h3
        have h4 := masses_lt (a := .list) (ks := ks) (by simp)
        have h5 := commas_length (elements ss)
        rw [length_brackets]
        unfold elements at h5 ⊢
        split at h5
        · next e =>
          rw [if_pos e]
          have : (["<<<Empty List>>>".toList].map fun s => s.length + 2).sum = 18 := rfl
          rw [this] at h5
          omega
        · next e => rw [if_neg e]; omega
      · rw [if_neg h2] at h; cases h
    rw [if_neg h1] at h
    by_cases h1 : t = .map
    · rw [if_pos h1] at h
      by_cases h2 : a.type = .map
      · rw [atom_map h2] at hm
        exact absurd (.here _) (hm ks)
      · rw [if_neg h2] at h; cases h
    rw [if_neg h1] at h
    by_cases h1 : t = .described
    · rw [if_pos h1] at h
      replace h := Res.bind_eq_ok.mp h
      obtain ⟨x, hx, h⟩ := h
      obtain ⟨m0, e0, hs0, hl0⟩ := text_mass hx
      split at h
      · next hty =>
        cases e1 : nth ks 1 with
        | none => rw [e1] at hty; simp [typeHere, valueOf] at hty
        | some m1 =>
          rw [shown_nth e1, e1] at h
          rw [e1] at hty
          replace h := map_ok h
          obtain ⟨y, hy, rfl⟩ := h
          have hm1 := nth_mem e1
          have h3 := ih m1 hm1 _ y hy
          rw [length_colon]
          obtain ⟨a1, ks1⟩ := m1
          have hl : a1 = .list := by
            simp only [typeHere, valueOf, Option.map_some, Node.val] at hty
            rcases hty with e | e
            · exact atom_list e
            · rw [atom_map e] at hm1
              exact absurd (inside_kid (n := .mk a ks) hm1) (hm ks1)
          subst hl
          match ks, e0, e1, hm1 with
          | [k], e0, e1, _ =>
            cases e0; cases e1
            cases hx
          | k0 :: k1 :: rest, e0, e1, _ =>
            have f0 : k0 = m0 := by
              simp only [nth, Nat.zero_min, List.getElem?_cons_zero, Option.some.injEq] at e0; exact e0
            have f1 : k1 = .mk .list ks1 := by
              simp only [nth, List.length_cons] at e1
              rw [show min 1 (rest.length + 1 + 1 - 1) = 1 by omega] at e1
              simpa using e1
            subst f0 f1
            have h6 : 24 * mass (Node.mk .list ks1) ≤ 24 * mass (Node.mk .list ks1) := Nat.le_refl _
            have h7 := mass_pos k0
            by_cases ha : a = .array
            · rw [mass.eq_1 a, if_pos ha, solids, solids, if_pos hs0]
              by_cases hs1 : solid (.mk .list ks1) = true
              · rw [if_pos hs1]; omega
              · rw [if_neg hs1]
                have : ks1 = [] := by
                  cases ks1 with
                  | nil => rfl
                  | cons k ks => exact absurd rfl hs1
                subst this
                rw [show mass (.mk .list []) = 1 from rfl] at h3
                omega
            · rw [mass.eq_1 a, if_neg ha, masses, masses]; omega
      · cases h
    · rw [if_neg h1] at h
      simp only [Res.ok.injEq] at h
      subst h
      have h2 := leafText_length a
      have h3 := ink_lt (.mk a ks)
      simp only [Node.val] at h3
      omega

theorem dataText_length {n : Node} {s : Str} (hm : NoMaps n) (h : dataText (some n) = .ok s) : s.length ≤ 24 * mass n := by
  unfold dataText at h
  split at h
  · split at h
    · replace h := Res.bind_eq_ok.mp h
      obtain ⟨ps, hp, h⟩ := h
      unfold firstText at h
      replace h := Res.bind_eq_ok.mp h
      obtain ⟨ks, hk, h⟩ := h
      split at h
      · next p e =>
        have h1 := list_of_parts hp
        have i1 : Inside (.mk .list ps) n := inside_nth h1
        have i2 : Inside p n := inside_trans (inside_kid (n := .mk .list ps) (nth_mem e)) i1
        have h2 := taken_length _ p _ s (Nat.le_refl _) (noMaps_inside hm i2) h
        have h3 : solid p = true := by
          rw [e] at hk
          have := described_of_parts hk
          subst this
          simp only [solid, Node.val, Node.kids, Bool.not_eq_true', List.isEmpty_eq_false_iff]
          intro e'
          subst e'
          rw [taken, if_neg (by simp), if_neg (by simp), if_pos rfl] at h
          cases h
        have h4 := solid_inside i2 h3
        omega
      · next e => rw [e] at hk; cases hk
    · cases h
  · cases h

end Corda
