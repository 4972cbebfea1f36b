import Verif.Spec.Bulk
import Verif.Lemmas.Number
import Verif.Lemmas.Wire
import Verif.Lemmas.Meaning
import Verif.Lemmas.DumpSafe

/-
The size of a tree and the number of bytes it takes.
-/

namespace Corda
open Spec

/-! ### The size of parts -/

theorem mass_pos (n : Node) : 1 ≤ mass n := by
  cases n; rw [mass]; omega

theorem mass_le_masses {ks : List Node} {k : Node} (h : k ∈ ks) : mass k ≤ masses ks := by
  induction ks with
  | nil => cases h
  | cons j js ih =>
    rw [masses]
    rcases List.mem_cons.mp h with rfl | h
    · omega
    · have := ih h; omega

theorem length_le_masses (ks : List Node) : ks.length ≤ masses ks := by
  induction ks with
  | nil => simp
  | cons j js ih => rw [masses, List.length_cons]; have := mass_pos j; omega

theorem solids_le_masses (ks : List Node) : solids ks ≤ masses ks := by
  induction ks with
  | nil => simp [masses, solids]
  | cons j js ih => rw [masses, solids]; split <;> omega

theorem solids_eq {ks : List Node} (h : ∀ k ∈ ks, solid k = true) : solids ks = masses ks := by
  induction ks with
  | nil => simp [masses, solids]
  | cons j js ih =>
    rw [masses, solids, if_pos (h j List.mem_cons_self), ih fun k hk => h k (List.mem_cons_of_mem _ hk)]

theorem masses_lt {a : Atom} {ks : List Node} (h : a ≠ .array) : masses ks + ink a + 1 = mass (.mk a ks) := by
  rw [mass, if_neg h]; omega

theorem masses_solid {n : Node} (h : ∀ k ∈ n.kids, solid k = true) : masses n.kids + 1 ≤ mass n := by
  obtain ⟨a, ks⟩ := n
  rw [mass]
  have := solids_eq h
  simp only [Node.kids] at this ⊢
  split <;> omega

theorem ink_lt (n : Node) : ink n.val + 1 ≤ mass n := by
  obtain ⟨a, ks⟩ := n
  rw [mass]; simp only [Node.val]; omega

theorem massOf_nth (ks : List Node) (i : Nat) : massOf (nth ks i) ≤ masses ks := by
  cases h : nth ks i with
  | none => simp [massOf]
  | some m => exact mass_le_masses (nth_mem h)

/-! ### The length of numbers -/

theorem length_decimalNat {n k : Nat} (h : n < 10 ^ (k + 1)) : (decimalNat n).length ≤ k + 1 := decimalNat_length k n h

theorem length_decimalNat_le (n : Nat) : (decimalNat n).length ≤ n + 1 :=
  length_decimalNat (Nat.lt_of_lt_of_le Nat.lt_two_pow_self
    (Nat.le_trans (Nat.pow_le_pow_right (by omega) (Nat.le_succ n)) (Nat.pow_le_pow_left (by omega) _)))

theorem length_decimal {n : Int} {k : Nat} (h : n.natAbs < 10 ^ (k + 1)) : (decimal n).length ≤ k + 2 := by
  unfold decimal
  have := length_decimalNat h
  split
  · rw [List.length_cons]; omega
  · omega

theorem length_pad6 {n : Nat} (h : n < 10 ^ 6) : (pad6 n).length = 6 := pad6_length h

theorem length_fixed6 {neg : Bool} {m : Nat} {e : Int} {k : Nat} (h : m * 2 ^ e.toNat + 1 < 10 ^ (k + 1)) :
    (fixed6 neg m e).length ≤ k + 9 := by
  have key : ∀ q, q / 10 ^ 6 < 10 ^ (k + 1) →
      ((if neg then ['-'] else []) ++ natStr (q / 10 ^ 6) ++ ['.'] ++ pad6 (q % 10 ^ 6)).length ≤ k + 9 := by
    intro q hq
    have h1 := length_decimalNat hq
    have h2 := length_pad6 (n := q % 10 ^ 6) (Nat.mod_lt _ (by omega))
    rw [natStr_eq]
    simp only [List.length_append, h2, List.length_cons, List.length_nil]
    have : (if neg = true then ['-'] else []).length ≤ 1 := by cases neg <;> simp
    omega
  unfold fixed6
  have hq : (m * 10 ^ 6 * 2 ^ e.toNat) / 2 ^ (-e).toNat ≤ m * 2 ^ e.toNat * 10 ^ 6 := by
    refine Nat.le_trans (Nat.div_le_self _ _) ?_
    rw [Nat.mul_right_comm]; exact Nat.le_refl _
  refine key _ ((Nat.div_lt_iff_lt_mul (by omega)).mpr ?_)
  generalize m * 2 ^ e.toNat = x at h hq
  generalize 10 ^ (k + 1) = p at h
  split <;> omega

theorem length_doubleStr (b : Nat) : (doubleStr b).length ≤ 317 := by
  unfold doubleStr ieeeStr
  have hf : b % 2 ^ 52 < 2 ^ 52 := Nat.mod_lt _ (by decide)
  have hx : b / 2 ^ 52 % 2 ^ 11 < 2 ^ 11 := Nat.mod_lt _ (by decide)
  generalize hfr : b % 2 ^ 52 = fr at *
  generalize hex : b / 2 ^ 52 % 2 ^ 11 = ex at *
  generalize decide (b / 2 ^ (11 + 52) % 2 = 1) = neg
  dsimp only
  split
  · cases neg <;> by_cases hz : fr = 0 <;> simp [hz]
  · have big : ∀ m e : Nat, m < 2 ^ 53 → e ≤ 971 → m * 2 ^ e + 1 < 10 ^ (308 + 1) := by
      intro m e hm he
      have h1 : m * 2 ^ e ≤ 2 ^ 53 * 2 ^ 971 := Nat.mul_le_mul (by omega) (Nat.pow_le_pow_right (by omega) he)
      have h2 : 2 ^ 53 * 2 ^ 971 + 1 < 10 ^ (308 + 1) := by decide +kernel
      omega
    split
    · exact length_fixed6 (k := 308) (big _ _ (by omega) (by omega))
    · exact length_fixed6 (k := 308) (big _ _ (by omega) (by omega))

theorem length_floatStr (b : Nat) : (floatStr b).length ≤ 47 := by
  unfold floatStr ieeeStr
  have hf : b % 2 ^ 23 < 2 ^ 23 := Nat.mod_lt _ (by decide)
  have hx : b / 2 ^ 23 % 2 ^ 8 < 2 ^ 8 := Nat.mod_lt _ (by decide)
  generalize hfr : b % 2 ^ 23 = fr at *
  generalize hex : b / 2 ^ 23 % 2 ^ 8 = ex at *
  generalize decide (b / 2 ^ (8 + 23) % 2 = 1) = neg
  dsimp only
  split
  · cases neg <;> by_cases hz : fr = 0 <;> simp [hz]
  · have big : ∀ m e : Nat, m < 2 ^ 24 → e ≤ 104 → m * 2 ^ e + 1 < 10 ^ (38 + 1) := by
      intro m e hm he
      have h1 : m * 2 ^ e ≤ 2 ^ 24 * 2 ^ 104 := Nat.mul_le_mul (by omega) (Nat.pow_le_pow_right (by omega) he)
      have h2 : 2 ^ 24 * 2 ^ 104 + 1 < 10 ^ (38 + 1) := by decide +kernel
      omega
    split
    · exact length_fixed6 (k := 38) (big _ _ (by omega) (by omega))
    · exact length_fixed6 (k := 38) (big _ _ (by omega) (by omega))

/-! ### The size of what is decoded -/

namespace Wire

theorem be_lt (bs : List Byte) : be bs < 256 ^ bs.length := by
  induction bs with
  | nil => decide
  | cons b bs ih =>
    rw [be_cons, List.length_cons, Nat.pow_succ]
    have hb : b.toNat < 256 := b.toNat_lt
    have : b.toNat * 256 ^ bs.length ≤ 255 * 256 ^ bs.length := Nat.mul_le_mul_right _ (by omega)
    omega

theorem signed_abs {bits n : Nat} (hb : 0 < bits) (h : n < 2 ^ bits) : (signed bits n).natAbs ≤ 2 ^ bits := by
  unfold signed
  have e : ((2 ^ bits : Nat) : Int) = 2 ^ bits := by simp
  rw [← e]
  split <;> omega

theorem split_spec {n : Nat} {bs a b : List Byte} (h : split n bs = some (a, b)) : a.length = n ∧ bs.length = n + b.length := by
  unfold split at h
  split at h
  · simp only [Option.some.injEq, Prod.mk.injEq] at h
    obtain ⟨rfl, rfl⟩ := h
    simp only [List.length_take, List.length_drop]
    omega
  · cases h

/-- A value of fixed width has at most 36 characters per byte. -/
theorem ink_fixed {code w : Nat} {mk : Nat → Atom} (h : fixed code = some (w, mk)) {l : List Byte} (hl : l.length = w) :
    ink (mk (be l)) ≤ 36 * (w + 1) ∧ mk (be l) ≠ .array ∧ solid (.mk (mk (be l)) []) = false := by
  have hb := be_lt l
  rw [hl] at hb
  unfold fixed at h
  split at h <;> simp only [Option.some.injEq, Prod.mk.injEq, reduceCtorEq] at h <;> obtain ⟨rfl, rfl⟩ := h <;>
    refine ⟨?_, (nomatch ·), rfl⟩ <;> simp only [ink, Nat.zero_le]
  all_goals first
    | exact Nat.le_trans (length_doubleStr _) (by omega)
    | exact Nat.le_trans (length_floatStr _) (by omega)
    | exact Nat.le_trans (length_decimalNat (k := 19) (Nat.lt_of_lt_of_le hb (by decide))) (by omega)
    | exact Nat.le_trans (length_decimal (k := 19) (Nat.lt_of_le_of_lt (signed_abs (by decide) hb) (by decide))) (by omega)
    | exact Nat.le_trans (length_decimalNat (k := 0) (by decide)) (by omega)

/-- A text takes a byte for each character and at least one for its length. -/
theorem ink_sized {code w : Nat} {mk : Str → Atom} (h : sized code = some (w, mk)) (s : Str) :
    1 ≤ w ∧ ink (mk s) = s.length ∧ mk s ≠ .array := by
  unfold sized at h
  split at h <;> simp only [Option.some.injEq, Prod.mk.injEq, reduceCtorEq] at h <;> obtain ⟨rfl, rfl⟩ := h <;>
    exact ⟨by omega, rfl, (nomatch ·)⟩

theorem ink_compound {code w : Nat} {a : Atom} (h : compound code = some (w, a)) : 1 ≤ w ∧ ink a = 0 ∧ a ≠ .array := by
  unfold compound at h
  split at h <;> simp only [Option.some.injEq, Prod.mk.injEq, reduceCtorEq] at h <;> obtain ⟨rfl, rfl⟩ := h <;>
    exact ⟨by omega, rfl, (nomatch ·)⟩

theorem arrayWidth_pos {code w : Nat} (h : arrayWidth code = some w) : 1 ≤ w := by
  unfold arrayWidth at h
  split at h <;> simp only [Option.some.injEq, reduceCtorEq] at h <;> omega

theorem many_masses {one : List Byte → Option (Node × List Byte)}
    (h : ∀ bs v r, one bs = some (v, r) → ∃ u, bs.length = u + r.length ∧ mass v ≤ 37 * u) :
    ∀ n bs ks, many one n bs = some ks → masses ks ≤ 37 * bs.length
  | 0, [], ks, e => by simp only [many, Option.some.injEq] at e; subst e; simp [masses]
  | 0, _ :: _, ks, e => by simp [many] at e
  | n + 1, bs, ks, e => by
    rw [many] at e
    cases ho : one bs with
    | none => rw [ho] at e; cases e
    | some x =>
      obtain ⟨v, r⟩ := x
      rw [ho] at e
      simp only [Option.map_eq_some_iff] at e
      obtain ⟨ks', h', rfl⟩ := e
      have := many_masses h n r ks' h'
      obtain ⟨u, h1, h2⟩ := h bs v r ho
      rw [masses]; omega

theorem many_solids {one : List Byte → Option (Node × List Byte)}
    (h : ∀ bs v r, one bs = some (v, r) → ∃ u, bs.length = u + r.length ∧ (solid v = true → mass v ≤ 37 * u)) :
    ∀ n bs ks, many one n bs = some ks → solids ks ≤ 37 * bs.length
  | 0, [], ks, e => by simp only [many, Option.some.injEq] at e; subst e; simp [solids]
  | 0, _ :: _, ks, e => by simp [many] at e
  | n + 1, bs, ks, e => by
    rw [many] at e
    cases ho : one bs with
    | none => rw [ho] at e; cases e
    | some x =>
      obtain ⟨v, r⟩ := x
      rw [ho] at e
      simp only [Option.map_eq_some_iff] at e
      obtain ⟨ks', h', rfl⟩ := e
      have := many_solids h n r ks' h'
      obtain ⟨u, h1, h2⟩ := h bs v r ho
      rw [solids]
      split
      · have := h2 ‹_›; omega
      · omega

/-- What is decoded is at most 37 times as big as the bytes it takes. -/
theorem body_mass : ∀ f c bs n rest, body f c bs = some (n, rest) →
    ∃ u, bs.length = u + rest.length ∧ mass n ≤ 37 * (u + 1) ∧ (c ≠ 0 → solid n = true → mass n ≤ 37 * u)
  | 0, _, _, _, _, h => by cases h
  | f + 1, c, bs, n, rest, h => by
    have ih := body_mass f
    have hv : ∀ bs v r', (match (generalizing := false) bs with | [] => none | c :: r => body f c r) = some (v, r') →
        ∃ u, bs.length = u + r'.length ∧ mass v ≤ 37 * u := by
      intro bs v r h
      cases bs with
      | nil => cases h
      | cons c bs =>
        obtain ⟨u, h1, h2, -⟩ := ih c bs v r h
        exact ⟨u + 1, by rw [List.length_cons]; omega, h2⟩
    unfold body at h
    dsimp only at h
    by_cases h0 : c = 0
    · rw [if_pos h0] at h
      split at h
      · cases h
      · next d r hd =>
        simp only [Option.map_eq_some_iff, Prod.mk.injEq] at h
        obtain ⟨⟨v, r'⟩, hv', rfl, rfl⟩ := h
        obtain ⟨u, h1, h2⟩ := hv _ _ _ hd
        obtain ⟨u', h3, h4⟩ := hv _ _ _ hv'
        dsimp only
        refine ⟨u + u', by omega, ?_, fun hn => absurd h0 hn⟩
        rw [← masses_lt (by simp), masses, masses, masses]
        simp only [ink]
        omega
    · rw [if_neg h0] at h
      by_cases h45 : c = 0x45
      · rw [if_pos h45] at h
        simp only [Option.some.injEq, Prod.mk.injEq] at h
        obtain ⟨rfl, rfl⟩ := h
        refine ⟨0, by omega, by simp [mass, masses, ink], fun _ hs => by simp [solid, Node.val, Node.kids] at hs⟩
      · rw [if_neg h45] at h
        cases hf : fixed c.toNat with
        | some x =>
          obtain ⟨w, mk⟩ := x
          simp only [hf, Option.map_eq_some_iff, Prod.mk.injEq] at h
          obtain ⟨⟨l, r⟩, hl, rfl, rfl⟩ := h
          obtain ⟨hl1, hl2⟩ := split_spec hl
          obtain ⟨h1, h2, h3⟩ := ink_fixed hf hl1
          refine ⟨w, hl2, ?_, fun _ hs => by simp [h3] at hs⟩
          rw [← masses_lt h2, masses]
          omega
        | none =>
          simp only [hf] at h
          cases hs : sized c.toNat with
          | some x =>
            obtain ⟨w, mk⟩ := x
            simp only [hs] at h
            cases hl : split w bs with
            | none => simp only [hl] at h; cases h
            | some y =>
              obtain ⟨l, r⟩ := y
              simp only [hl, Option.map_eq_some_iff, Prod.mk.injEq] at h
              obtain ⟨⟨t, r'⟩, ht, rfl, rfl⟩ := h
              obtain ⟨hl1, hl2⟩ := split_spec hl
              obtain ⟨ht1, ht2⟩ := split_spec ht
              obtain ⟨h1, h2, h3⟩ := ink_sized hs (t.map unit)
              rw [List.length_map] at h2
              have hm : mass (.mk (mk (t.map unit)) []) = t.length + 1 := by
                rw [← masses_lt h3, masses, h2]; omega
              dsimp only
              rw [hm]
              exact ⟨w + be l, by omega, by omega, fun _ _ => by omega⟩
          | none =>
            simp only [hs] at h
            cases hc : compound c.toNat with
            | some x =>
              obtain ⟨w, a⟩ := x
              simp only [hc] at h
              cases hl : split w bs with
              | none => simp only [hl] at h; cases h
              | some y =>
                obtain ⟨l, r⟩ := y
                simp only [hl] at h
                cases hi : split (be l) r with
                | none => simp only [hi] at h; cases h
                | some y =>
                  obtain ⟨inner, r'⟩ := y
                  simp only [hi] at h
                  cases hn : split w inner with
                  | none => simp only [hn] at h; cases h
                  | some y =>
                    obtain ⟨cnt, inner'⟩ := y
                    simp only [hn, Option.map_eq_some_iff, Prod.mk.injEq] at h
                    obtain ⟨ks, hk, rfl, rfl⟩ := h
                    have hm := many_masses hv _ _ _ hk
                    obtain ⟨hl1, hl2⟩ := split_spec hl
                    obtain ⟨hi1, hi2⟩ := split_spec hi
                    obtain ⟨hn1, hn2⟩ := split_spec hn
                    obtain ⟨h1, h2, h3⟩ := ink_compound hc
                    rw [← masses_lt h3, h2]
                    exact ⟨w + be l, by omega, by omega, fun _ _ => by omega⟩
            | none =>
              simp only [hc] at h
              cases ha : arrayWidth c.toNat with
              | none => simp only [ha] at h; cases h
              | some w =>
                simp only [ha] at h
                cases hl : split w bs with
                | none => simp only [hl] at h; cases h
                | some y =>
                  obtain ⟨l, r⟩ := y
                  simp only [hl] at h
                  cases hi : split (be l) r with
                  | none => simp only [hi] at h; cases h
                  | some y =>
                    obtain ⟨inner, r'⟩ := y
                    simp only [hi] at h
                    split at h
                    · next cnt e inner' hn =>
                      by_cases he : e = 0
                      · rw [if_pos he] at h; cases h
                      · rw [if_neg he] at h
                        simp only [Option.map_eq_some_iff, Prod.mk.injEq] at h
                        obtain ⟨ks, hk, rfl, rfl⟩ := h
                        have hm := many_solids (one := body f e) (fun bs v r hb => by
                          obtain ⟨u, h1, -, h3⟩ := ih e bs v r hb
                          exact ⟨u, h1, h3 he⟩) _ _ _ hk
                        obtain ⟨hl1, hl2⟩ := split_spec hl
                        obtain ⟨hi1, hi2⟩ := split_spec hi
                        obtain ⟨hn1, hn2⟩ := split_spec hn
                        have h1 := arrayWidth_pos ha
                        rw [List.length_cons] at hn2
                        rw [mass, if_pos rfl]
                        simp only [ink]
                        exact ⟨w + be l, by omega, by omega, fun _ _ => by omega⟩
                    · cases h

theorem decode_mass {bs : List Byte} {u : Nat} {n : Node} (h : decode bs = some (u, n)) : mass n ≤ 37 * u ∧ u ≤ bs.length := by
  unfold decode at h
  cases bs with
  | nil => cases h
  | cons c r =>
    simp only [Option.map_eq_some_iff, Prod.mk.injEq] at h
    obtain ⟨⟨m, rest⟩, hb, rfl, rfl⟩ := h
    obtain ⟨u, h1, h2, -⟩ := body_mass _ _ _ _ _ hb
    rw [List.length_cons]
    simp only
    omega

end Wire
end Corda
