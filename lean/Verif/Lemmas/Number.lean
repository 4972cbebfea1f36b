import Verif.Lemmas.Readers
import Verif.Spec.Number

/-
`std::to_string`: numerals and rounding.
-/

namespace Corda
open Spec

/-! ### Numerals -/

theorem digitValue_digit {n : Nat} (h : n < 10) : digitValue (digit n) = some n := by
  have : n = 0 ∨ n = 1 ∨ n = 2 ∨ n = 3 ∨ n = 4 ∨ n = 5 ∨ n = 6 ∨ n = 7 ∨ n = 8 ∨ n = 9 := by omega
  rcases this with h | h | h | h | h | h | h | h | h | h <;> subst h <;> decide

theorem digit_ne {n : Nat} (h : n < 10) : digit n ≠ '.' ∧ digit n ≠ '-' := by
  have : n = 0 ∨ n = 1 ∨ n = 2 ∨ n = 3 ∨ n = 4 ∨ n = 5 ∨ n = 6 ∨ n = 7 ∨ n = 8 ∨ n = 9 := by omega
  rcases this with h | h | h | h | h | h | h | h | h | h <;> subst h <;> decide

theorem digitsValue_append (a b : Str) (k : Nat) :
    digitsValue k (a ++ b) = (digitsValue k a).bind fun j => digitsValue j b := by
  induction a generalizing k with
  | nil => rfl
  | cons c a ih =>
    rw [List.cons_append, digitsValue, digitsValue]
    cases digitValue c with
    | none => rfl
    | some d => exact ih _

theorem decimalNat_ne (n : Nat) : decimalNat n ≠ [] := by
  rw [decimalNat]; split <;> simp

theorem decimalNat_chars (n : Nat) : ∀ c ∈ decimalNat n, c ≠ '.' ∧ c ≠ '-' := by
  induction n using Nat.strongRecOn with
  | _ n ih =>
    rw [decimalNat]
    by_cases h : n < 10
    · rw [if_pos h]; intro c hc; rw [List.mem_singleton] at hc; subst hc; exact digit_ne h
    · rw [if_neg h]
      intro c hc
      rcases List.mem_append.mp hc with hc | hc
      · exact ih (n / 10) (by omega) c hc
      · rw [List.mem_singleton] at hc; subst hc; exact digit_ne (Nat.mod_lt _ (by omega))

/-- Reading on with a numeral. -/
theorem digitsValue_decimalNat (n k : Nat) : digitsValue k (decimalNat n) = some (k * 10 ^ (decimalNat n).length + n) := by
  induction n using Nat.strongRecOn generalizing k with
  | _ n ih =>
    rw [decimalNat]
    by_cases h : n < 10
    · rw [if_pos h, digitsValue, digitValue_digit h]
      simp only [digitsValue, List.length_cons, List.length_nil]
      congr 1; omega
    · rw [if_neg h, digitsValue_append, ih (n / 10) (by omega)]
      simp only [Option.bind_some]
      rw [digitsValue, digitValue_digit (Nat.mod_lt _ (by omega))]
      simp only [digitsValue, List.length_append, List.length_cons, List.length_nil]
      congr 1
      rw [Nat.pow_add, Nat.mul_add, ← Nat.mul_assoc]
      have : 10 ^ (0 + 1) = 10 := rfl
      rw [this, Nat.mul_comm 10 k, Nat.mul_right_comm k, Nat.mul_assoc]
      omega

theorem numeralValue_decimalNat (n : Nat) : numeralValue (decimalNat n) = some n := by
  rw [numeralValue, if_neg (decimalNat_ne n), digitsValue_decimalNat]; simp

theorem decimalNat_length (k : Nat) : ∀ n, n < 10 ^ (k + 1) → (decimalNat n).length ≤ k + 1 := by
  induction k with
  | zero => intro n h; rw [decimalNat, if_pos (by simpa using h)]; simp
  | succ k ih =>
    intro n h
    rw [decimalNat]
    split
    · simp
    · have : n / 10 < 10 ^ (k + 1) := by
        rw [Nat.div_lt_iff_lt_mul (by omega)]
        rw [Nat.pow_succ] at h; exact h
      have := ih _ this
      simp only [List.length_append, List.length_cons, List.length_nil]; omega

theorem digitsValue_zeros (k : Nat) (s : Str) : digitsValue 0 (List.replicate k '0' ++ s) = digitsValue 0 s := by
  induction k with
  | zero => rfl
  | succ k ih =>
    rw [List.replicate_succ, List.cons_append, digitsValue]
    have : digitValue '0' = some 0 := by decide
    rw [this]
    exact ih

theorem pad6_length {n : Nat} (h : n < 10 ^ 6) : (pad6 n).length = 6 := by
  have := decimalNat_length 5 n h
  rw [pad6, natStr_eq, List.length_append, List.length_replicate]; omega

theorem numeralValue_pad6 (n : Nat) : numeralValue (pad6 n) = some n := by
  have h : pad6 n ≠ [] := by
    rw [pad6, natStr_eq]; intro e
    exact decimalNat_ne n (List.append_eq_nil_iff.mp e).2
  rw [numeralValue, if_neg h, pad6, digitsValue_zeros, natStr_eq, digitsValue_decimalNat]; simp

/-! ### Fractions -/

theorem takeWhile_to_point (a b : Str) (h : ∀ c ∈ a, c ≠ '.') :
    (a ++ '.' :: b).takeWhile (· != '.') = a ∧ (a ++ '.' :: b).dropWhile (· != '.') = '.' :: b := by
  induction a with
  | nil => exact ⟨rfl, rfl⟩
  | cons c a ih =>
    have h1 : (c != '.') = true := by simpa using h c (by simp)
    have h2 := ih fun d hd => h d (by simp [hd])
    rw [List.cons_append, List.takeWhile_cons, List.dropWhile_cons, if_pos h1, if_pos h1, h2.1, h2.2]
    exact ⟨rfl, rfl⟩

theorem ten6 : (10 : Rat) ^ 6 = ((10 ^ 6 : Nat) : Rat) := by rw [Rat.natCast_pow]; rfl

/-- A number of millionths in six decimals. -/
theorem pointValue_six (q : Nat) :
    pointValue (natStr (q / 10 ^ 6) ++ '.' :: pad6 (q % 10 ^ 6)) = some ((q : Rat) / 10 ^ 6) := by
  have hc : ∀ c ∈ natStr (q / 10 ^ 6), c ≠ '.' := by
    rw [natStr_eq]; exact fun c hc => (decimalNat_chars _ c hc).1
  have h := takeWhile_to_point _ (pad6 (q % 10 ^ 6)) hc
  rw [pointValue, h.1, h.2]
  simp only
  rw [natStr_eq, numeralValue_decimalNat, numeralValue_pad6, pad6_length (Nat.mod_lt _ (by omega))]
  simp only [Option.some.injEq]
  have e : (q : Rat) = ((10 ^ 6 : Nat) : Rat) * ((q / 10 ^ 6 : Nat) : Rat) + ((q % 10 ^ 6 : Nat) : Rat) := by
    rw [← Rat.natCast_mul, ← Rat.natCast_add, Nat.div_add_mod]
  rw [ten6]
  generalize ((q / 10 ^ 6 : Nat) : Rat) = a at e ⊢
  generalize ((q % 10 ^ 6 : Nat) : Rat) = b at e ⊢
  have hne : ((10 ^ 6 : Nat) : Rat) ≠ 0 := by
    intro e; have := Rat.natCast_inj.mp (e.trans (by rfl : (0 : Rat) = ((0 : Nat) : Rat))); omega
  generalize ((10 ^ 6 : Nat) : Rat) = t at e hne ⊢
  rw [e]
  grind

/-! ### Rounding -/

/-- The quotient rounded as in `fixed6` is the nearest integer. -/
theorem nearest_quotient (num den : Nat) (hd : 0 < den) :
    Nearest (if den < 2 * (num % den) ∨ (2 * (num % den) = den ∧ num / den % 2 = 1) then num / den + 1 else num / den)
      ((num : Rat) / den) := by
  have hD : (0 : Rat) < den := by
    have := (Rat.natCast_lt_natCast (a := 0) (b := den)).mpr hd; simpa using this
  have e : (num : Rat) = (den : Rat) * ((num / den : Nat) : Rat) + ((num % den : Nat) : Rat) := by
    rw [← Rat.natCast_mul, ← Rat.natCast_add, Nat.div_add_mod]
  have hr : num % den < den := Nat.mod_lt _ hd
  generalize hq : num / den = q at e ⊢
  generalize hr' : num % den = r at e hr ⊢
  have hy : (num : Rat) / den = q + r / den := by rw [e]; grind
  rw [hy]
  have h2 : ((2 * r : Nat) : Rat) = 2 * (r : Rat) := by rw [Rat.natCast_mul]; rfl
  have key : ∀ a b : Rat, a * den ≤ b * den → a ≤ b := fun a b h => Rat.le_of_mul_le_mul_right h hD
  have hz : (r : Rat) / den * den = r := by grind
  by_cases c : den < 2 * r
  · rw [if_pos (Or.inl c)]
    have c' : (den : Rat) < 2 * r := h2 ▸ Rat.natCast_lt_natCast.mpr c
    have c2 : (r : Rat) < den := Rat.natCast_lt_natCast.mpr hr
    have g1 : (1 : Rat) / 2 < r / den := by
      refine Rat.not_le.mp fun h => ?_
      have := Rat.mul_le_mul_of_nonneg_right h (Rat.le_of_lt hD); rw [hz] at this; grind
    have g2 : (r : Rat) / den < 1 := by
      refine Rat.not_le.mp fun h => ?_
      have := Rat.mul_le_mul_of_nonneg_right h (Rat.le_of_lt hD); rw [hz] at this; grind
    rw [Nearest, Rat.natCast_add]
    have : ((1 : Nat) : Rat) = 1 := rfl
    rw [this]
    refine ⟨by grind, by grind, fun h => ?_⟩
    grind
  · by_cases t : 2 * r = den
    · have t' : (den : Rat) = 2 * r := by rw [← t, h2]
      have g : (r : Rat) / den = 1 / 2 := by grind
      rw [g]
      by_cases o : q % 2 = 1
      · rw [if_pos (Or.inr ⟨t, o⟩), Nearest, Rat.natCast_add]
        have : ((1 : Nat) : Rat) = 1 := rfl
        rw [this]
        exact ⟨by grind, by grind, fun _ => by omega⟩
      · rw [if_neg (by omega), Nearest]
        exact ⟨by grind, by grind, fun _ => by omega⟩
    · rw [if_neg (by omega), Nearest]
      have c' : (2 : Rat) * r < den := h2 ▸ Rat.natCast_lt_natCast.mpr (by omega)
      have c2 : (0 : Rat) ≤ r := by
        have := (Rat.natCast_le_natCast (a := 0) (b := r)).mpr (by omega); simpa using this
      have g1 : (r : Rat) / den < 1 / 2 := by
        refine Rat.not_le.mp fun h => ?_
        have := Rat.mul_le_mul_of_nonneg_right h (Rat.le_of_lt hD); rw [hz] at this; grind
      have g2 : (0 : Rat) ≤ r / den := key _ _ (by rw [hz]; grind)
      exact ⟨by grind, by grind, fun h => by grind⟩

/-- Only one integer is nearest. -/
theorem nearest_unique {q p : Nat} {y : Rat} (hq : Nearest q y) (hp : Nearest p y) : q = p := by
  rcases Nat.lt_trichotomy q p with h | h | h
  · have h1 : (q : Rat) + 1 ≤ p := by
      have := Rat.natCast_le_natCast.mpr (show q + 1 ≤ p from h); rwa [Rat.natCast_add] at this
    obtain ⟨a1, a2, a3⟩ := hq; obtain ⟨b1, b2, b3⟩ := hp
    have e1 : (q : Rat) = y - 1 / 2 := by grind
    have e2 : (p : Rat) = y + 1 / 2 := by grind
    have := a3 (Or.inl e1); have := b3 (Or.inr e2)
    have : (p : Rat) = ((q + 1 : Nat) : Rat) := by rw [Rat.natCast_add, e1, e2]; grind
    have := Rat.natCast_inj.mp this
    omega
  · exact h
  · have h1 : (p : Rat) + 1 ≤ q := by
      have := Rat.natCast_le_natCast.mpr (show p + 1 ≤ q from h); rwa [Rat.natCast_add] at this
    obtain ⟨a1, a2, a3⟩ := hq; obtain ⟨b1, b2, b3⟩ := hp
    have e1 : (p : Rat) = y - 1 / 2 := by grind
    have e2 : (q : Rat) = y + 1 / 2 := by grind
    have := b3 (Or.inl e1); have := a3 (Or.inr e2)
    have : (q : Rat) = ((p + 1 : Nat) : Rat) := by rw [Rat.natCast_add, e1, e2]; grind
    have := Rat.natCast_inj.mp this
    omega

/-! ### Scaling by powers of two -/

theorem two_ne : (2 : Rat) ≠ 0 := by decide

/-- A number times a power of two as a quotient of integers. -/
theorem scaled (m : Nat) (e : Int) :
    ((m * 10 ^ 6 * 2 ^ e.toNat : Nat) : Rat) / ((2 ^ (-e).toNat : Nat) : Rat) = (m : Rat) * 2 ^ e * 10 ^ 6 := by
  rw [Rat.natCast_mul, Rat.natCast_mul, Rat.natCast_pow, Rat.natCast_pow, Rat.natCast_pow]
  have h2 : ((2 : Nat) : Rat) = 2 := rfl
  have h10 : ((10 : Nat) : Rat) = 10 := rfl
  rw [h2, h10]
  rcases Int.le_total 0 e with h | h
  · obtain ⟨n, rfl⟩ := Int.eq_ofNat_of_zero_le h
    have e1 : (-(n : Int)).toNat = 0 := by omega
    rw [e1, Int.toNat_natCast, Rat.zpow_natCast, Rat.pow_zero]
    grind
  · obtain ⟨n, hn⟩ := Int.eq_ofNat_of_zero_le (show 0 ≤ -e by omega)
    have e0 : e = -(n : Int) := by omega
    subst e0
    have e1 : (-(n : Int)).toNat = 0 := by omega
    rw [e1, Int.neg_neg, Int.toNat_natCast, Rat.zpow_neg, Rat.zpow_natCast, Rat.pow_zero, Rat.div_def]
    grind

/-- Moving the fraction's denominator into the exponent. -/
theorem shifted (t f : Nat) (k : Int) : (2 : Rat) ^ k * ((t : Rat) / 2 ^ f) = (t : Rat) * 2 ^ (k - f) := by
  have : k - (f : Int) = k + -(f : Int) := by omega
  rw [this, Rat.zpow_add two_ne, Rat.zpow_neg, Rat.zpow_natCast, Rat.div_def]
  grind

/-- The same with the implicit leading bit. -/
theorem shifted_normal (t f : Nat) (k : Int) :
    (2 : Rat) ^ k * (1 + (t : Rat) / 2 ^ f) = ((t + 2 ^ f : Nat) : Rat) * 2 ^ (k - f) := by
  have h2 : ((2 : Nat) : Rat) = 2 := rfl
  have hne : (2 : Rat) ^ f ≠ 0 := by
    have : (2 : Rat) ^ f = ((2 ^ f : Nat) : Rat) := by rw [Rat.natCast_pow, h2]
    rw [this]; intro e
    have := Rat.natCast_inj.mp (e.trans (by rfl : (0 : Rat) = ((0 : Nat) : Rat)))
    have := Nat.two_pow_pos f
    omega
  have e : (1 : Rat) + (t : Rat) / 2 ^ f = ((t + 2 ^ f : Nat) : Rat) / 2 ^ f := by
    rw [Rat.natCast_add, Rat.natCast_pow, h2]
    generalize (2 : Rat) ^ f = a at hne ⊢
    grind
  rw [e, shifted]

/-! ### The text -/

/-- Millionths in six decimals, with the sign. -/
def millionths (neg : Bool) (q : Nat) : Str :=
  (if neg then ['-'] else []) ++ natStr (q / 10 ^ 6) ++ '.' :: pad6 (q % 10 ^ 6)

theorem fractionValue_millionths (neg : Bool) (q : Nat) :
    fractionValue (millionths neg q) = some (if neg then -((q : Rat) / 10 ^ 6) else (q : Rat) / 10 ^ 6) := by
  have h := pointValue_six q
  cases neg with
  | true =>
    rw [millionths, if_pos rfl, if_pos rfl]
    simp only [List.cons_append, List.nil_append]
    rw [fractionValue, h]; rfl
  | false =>
    rw [millionths, if_neg (by decide), if_neg (by decide), List.nil_append]
    rw [fractionValue]
    · exact h
    · intro s hs
      have hd : ∀ c ∈ natStr (q / 10 ^ 6), c ≠ '-' := by
        rw [natStr_eq]; exact fun c hc => (decimalNat_chars _ c hc).2
      cases hn : natStr (q / 10 ^ 6) with
      | nil => rw [natStr_eq] at hn; exact absurd hn (decimalNat_ne _)
      | cons c cs =>
        rw [hn] at hs hd
        injection hs with h1 _
        exact hd c (by simp) h1

theorem fixed6_nearest (neg : Bool) (m : Nat) (e : Int) :
    ∃ q, Nearest q ((m : Rat) * 2 ^ e * 10 ^ 6) ∧ fixed6 neg m e = millionths neg q := by
  refine ⟨_, scaled m e ▸ nearest_quotient _ _ (Nat.two_pow_pos _), ?_⟩
  rw [fixed6, millionths]
  simp only [List.append_assoc, List.cons_append, List.nil_append]

theorem negative_eq (w f bits : Nat) : (decide (bits / 2 ^ (w + f) % 2 = 1)) = negative w f bits := by
  rw [negative, Nat.testBit_eq_decide_div_mod_eq]

theorem ieeeStr_nearest (w f bits : Nat) (x : Rat) (h : magnitude w f bits = some x) :
    ∃ q, Nearest q (x * 10 ^ 6) ∧ ieeeStr w f bits = millionths (negative w f bits) q := by
  rw [magnitude] at h
  rw [ieeeStr]
  rw [negative_eq]
  by_cases h1 : bits / 2 ^ f % 2 ^ w = 2 ^ w - 1
  · rw [if_pos h1] at h; cases h
  · rw [if_neg h1] at h ⊢
    by_cases h2 : bits / 2 ^ f % 2 ^ w = 0
    · rw [if_pos h2] at h ⊢
      injection h with h
      obtain ⟨q, a, b⟩ := fixed6_nearest (negative w f bits) (bits % 2 ^ f) (1 - (2 ^ (w - 1) - 1 + (f : Int)))
      refine ⟨q, ?_, b⟩
      rw [← h, shifted]
      have e : (1 : Int) - (2 ^ (w - 1) - 1) - f = 1 - (2 ^ (w - 1) - 1 + (f : Int)) := by omega
      rw [e]; exact a
    · rw [if_neg h2] at h ⊢
      injection h with h
      obtain ⟨q, a, b⟩ := fixed6_nearest (negative w f bits) (bits % 2 ^ f + 2 ^ f)
        (((bits / 2 ^ f % 2 ^ w : Nat) : Int) - (2 ^ (w - 1) - 1 + (f : Int)))
      refine ⟨q, ?_, b⟩
      rw [← h, shifted_normal]
      have e : ((bits / 2 ^ f % 2 ^ w : Nat) : Int) - (2 ^ (w - 1) - 1) - f
          = ((bits / 2 ^ f % 2 ^ w : Nat) : Int) - (2 ^ (w - 1) - 1 + (f : Int)) := by omega
      rw [e]; exact a

end Corda
