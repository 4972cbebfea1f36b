import Verif.Lemmas.Number

/-
C81: numbers are shown correctly.
-/

namespace Corda.Props
open Corda Spec

/-- C81: the text of an integer reads as that integer. -/
theorem C81_integers (n : Int) : integerValue (intStr n) = some n := by
  rw [intStr_eq, decimal]
  split
  · rename_i h
    rw [integerValue, numeralValue_decimalNat]
    show some (-((n.natAbs : Nat) : Int)) = some n
    congr 1; omega
  · rename_i h
    rw [integerValue]
    · rw [numeralValue_decimalNat]
      show some ((n.natAbs : Nat) : Int) = some n
      congr 1; omega
    · intro s hs
      exact (decimalNat_chars n.natAbs '-' (by rw [hs]; simp)).2 rfl

/-- C81: different integers are shown differently. -/
theorem C81_integers_differ (n m : Int) (h : intStr n = intStr m) : n = m := by
  have := C81_integers n
  rw [h, C81_integers m] at this
  exact (Option.some.inj this).symm

/-- C81: the text of a finite number in an IEEE 754 format: a sign if the sign bit is set, the integral part without
leading zeros, a point and six digits; it reads as the number rounded to millionths, half to even. -/
theorem C81_format (w f bits : Nat) (x : Rat) (h : magnitude w f bits = some x) :
    ∃ (q : Nat) (places : Str), Nearest q (x * 10 ^ 6)
      ∧ ieeeStr w f bits = (if negative w f bits then ['-'] else []) ++ decimalNat (q / 10 ^ 6) ++ '.' :: places
      ∧ places.length = 6 ∧ numeralValue places = some (q % 10 ^ 6)
      ∧ fractionValue (ieeeStr w f bits) = some (if negative w f bits then -((q : Rat) / 10 ^ 6) else (q : Rat) / 10 ^ 6) := by
  obtain ⟨q, a, b⟩ := ieeeStr_nearest w f bits x h
  refine ⟨q, pad6 (q % 10 ^ 6), a, ?_, pad6_length (Nat.mod_lt _ (by omega)), numeralValue_pad6 _, ?_⟩
  · rw [b, millionths, natStr_eq]
  · rw [b, fractionValue_millionths]

/-- C81: the text of a finite double. -/
theorem C81_double (bits : Nat) (x : Rat) (h : magnitude 11 52 bits = some x) :
    ∃ (q : Nat) (places : Str), Nearest q (x * 10 ^ 6)
      ∧ doubleStr bits = (if negative 11 52 bits then ['-'] else []) ++ decimalNat (q / 10 ^ 6) ++ '.' :: places
      ∧ places.length = 6 ∧ numeralValue places = some (q % 10 ^ 6)
      ∧ fractionValue (doubleStr bits) = some (if negative 11 52 bits then -((q : Rat) / 10 ^ 6) else (q : Rat) / 10 ^ 6) :=
  C81_format 11 52 bits x h

/-- C81: the text of a finite float. -/
theorem C81_float (bits : Nat) (x : Rat) (h : magnitude 8 23 bits = some x) :
    ∃ (q : Nat) (places : Str), Nearest q (x * 10 ^ 6)
      ∧ floatStr bits = (if negative 8 23 bits then ['-'] else []) ++ decimalNat (q / 10 ^ 6) ++ '.' :: places
      ∧ places.length = 6 ∧ numeralValue places = some (q % 10 ^ 6)
      ∧ fractionValue (floatStr bits) = some (if negative 8 23 bits then -((q : Rat) / 10 ^ 6) else (q : Rat) / 10 ^ 6) :=
  C81_format 8 23 bits x h

/-- C81: the rounded number is the only one that is nearest. -/
theorem C81_rounding_unique (q p : Nat) (y : Rat) (hq : Nearest q y) (hp : Nearest p y) : q = p := nearest_unique hq hp

/-- C81: infinities and what is not a number. -/
theorem C81_special (bits : Nat) :
    (magnitude 11 52 bits = none → doubleStr bits = (if negative 11 52 bits then ['-'] else [])
      ++ (if bits % 2 ^ 52 = 0 then "inf".toList else "nan".toList))
    ∧ (magnitude 8 23 bits = none → floatStr bits = (if negative 8 23 bits then ['-'] else [])
      ++ (if bits % 2 ^ 23 = 0 then "inf".toList else "nan".toList)) := by
  have key : ∀ w f, magnitude w f bits = none → ieeeStr w f bits = (if negative w f bits then ['-'] else [])
      ++ (if bits % 2 ^ f = 0 then "inf".toList else "nan".toList) := by
    intro w f h
    rw [magnitude] at h
    rw [ieeeStr]
    by_cases h1 : bits / 2 ^ f % 2 ^ w = 2 ^ w - 1
    · rw [if_pos h1, negative_eq]; rfl
    · rw [if_neg h1] at h
      split at h <;> cases h
  exact ⟨key 11 52, key 8 23⟩

/-- C81 is false for telling apart different numbers: the two smallest doubles have the same text, and so have two
floats next to each other that are ordinary numbers. -/
theorem C81_distinct_violated :
    (magnitude 11 52 0 ≠ magnitude 11 52 1 ∧ doubleStr 0 = doubleStr 1)
    ∧ (magnitude 8 23 0x3dcccccd ≠ magnitude 8 23 0x3dccccce ∧ floatStr 0x3dcccccd = floatStr 0x3dccccce) := by
  refine ⟨⟨?_, by decide +kernel⟩, ⟨?_, by decide +kernel⟩⟩ <;> decide +kernel

/-- C81: numbers half a millionth or less apart from the same millionth are the only ones that share their text: if
two finite doubles of the same sign have the same text, they differ by at most a millionth. -/
theorem C81_distinct_partial (a b : Nat) (x y : Rat) (hx : magnitude 11 52 a = some x) (hy : magnitude 11 52 b = some y)
    (hs : negative 11 52 a = negative 11 52 b) (h : doubleStr a = doubleStr b) :
    x - y ≤ 1 / 10 ^ 6 ∧ y - x ≤ 1 / 10 ^ 6 := by
  obtain ⟨q, _, nq, _, _, _, fq⟩ := C81_double a x hx
  obtain ⟨p, _, np, _, _, _, fp⟩ := C81_double b y hy
  rw [h, fp, hs] at fq
  have e : (p : Rat) / 10 ^ 6 = (q : Rat) / 10 ^ 6 := by
    have := Option.some.inj fq
    cases hn : negative 11 52 b with
    | true => rw [hn, if_pos rfl, if_pos rfl] at this; grind
    | false => rw [hn] at this; simpa using this
  obtain ⟨n1, n2, _⟩ := nq
  obtain ⟨m1, m2, _⟩ := np
  have t : (10 : Rat) ^ 6 = 1000000 := by decide +kernel
  rw [t] at *
  constructor <;> grind

/-! Concrete numbers: 0.1, a tie going to the even side each way (0.0000005 is no double, but 2 ^ -7 = 0.0078125 and
3 * 2 ^ -7 = 0.0234375 lie between millionths), a negative number, a large one, the smallest. -/

example : magnitude 11 52 0x3fc0000000000000 = some (1 / 8) := by decide +kernel
example : doubleStr 0x3fb999999999999a = "0.100000".toList := by decide +kernel
example : doubleStr 0x3f80000000000000 = "0.007812".toList := by decide +kernel
example : doubleStr 0x3f98000000000000 = "0.023438".toList := by decide +kernel
example : doubleStr 0xc00599999999999a = "-2.700000".toList := by decide +kernel
example : floatStr 0x7f7fffff = "340282346638528859811704183484516925440.000000".toList := by decide +kernel
example : doubleStr 0xfff0000000000000 = "-inf".toList ∧ doubleStr 0x7ff8000000000000 = "nan".toList := by
  decide +kernel
example : fractionValue "-2.700000".toList = some (-27 / 10) ∧ fractionValue "2.".toList = none := by decide +kernel
example : integerValue "-120".toList = some (-120) ∧ integerValue "-".toList = none := by decide +kernel

#print axioms C81_integers
#print axioms C81_integers_differ
#print axioms C81_format
#print axioms C81_double
#print axioms C81_float
#print axioms C81_rounding_unique
#print axioms C81_special
#print axioms C81_distinct_violated
#print axioms C81_distinct_partial

end Corda.Props
