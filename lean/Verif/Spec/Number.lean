import Verif.Model.Basic

/-
What numerals mean, and which number an IEEE 754 bit pattern stands for.
-/

namespace Corda.Spec
open Corda

/-- The value of a decimal digit. -/
def digitValue (c : Char) : Option Nat := if '0' ≤ c ∧ c ≤ '9' then some (c.toNat - '0'.toNat) else none

/-- The value of further digits behind a number. -/
def digitsValue : Nat → Str → Option Nat
  | n, [] => some n
  | n, c :: cs =>
    match digitValue c with
    | some d => digitsValue (10 * n + d) cs
    | none => none

/-- The value of a numeral: one or more digits. -/
def numeralValue (s : Str) : Option Nat := if s = [] then none else digitsValue 0 s

/-- The value of a numeral, possibly with a minus sign in front. -/
def integerValue : Str → Option Int
  | '-' :: s => (numeralValue s).map fun n => -(n : Int)
  | s => (numeralValue s).map fun n => (n : Int)

/-- The value of two numerals with a point between them. -/
def pointValue (s : Str) : Option Rat :=
  match s.dropWhile (· != '.') with
  | '.' :: places =>
    match numeralValue (s.takeWhile (· != '.')), numeralValue places with
    | some a, some b => some (a + b / 10 ^ places.length)
    | _, _ => none
  | _ => none

/-- The value of a decimal fraction, possibly with a minus sign in front. -/
def fractionValue : Str → Option Rat
  | '-' :: s => (pointValue s).map fun x => -x
  | s => pointValue s

/-- IEEE 754-2008, 3.4: the sign bit of a number with `w` bits of exponent and `f` bits of fraction. -/
def negative (w f bits : Nat) : Bool := bits.testBit (w + f)

/-- IEEE 754-2008, 3.4: the absolute value of such a number; `none` for infinities and what is not a number. -/
def magnitude (w f bits : Nat) : Option Rat :=
  let exponent := bits / 2 ^ f % 2 ^ w
  let fraction : Rat := (bits % 2 ^ f : Nat) / 2 ^ f
  let bias : Int := 2 ^ (w - 1) - 1
  if exponent = 2 ^ w - 1 then none
  else if exponent = 0 then some (2 ^ (1 - bias) * fraction)
  else some (2 ^ (exponent - bias) * (1 + fraction))

/-- The integer nearest to a number, the even one if there are two. -/
def Nearest (q : Nat) (y : Rat) : Prop :=
  y - 1 / 2 ≤ q ∧ q ≤ y + 1 / 2 ∧ ((q : Rat) = y - 1 / 2 ∨ (q : Rat) = y + 1 / 2 → q % 2 = 0)

end Corda.Spec
