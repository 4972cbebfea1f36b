import Verif.Spec.AnyObject
import Verif.Lemmas.Meaning
import Verif.Lemmas.Accepted
import Verif.Props.RoundTrip

/-
Lemmas for C88 and C103: the checks and the primitives, wherever the cursor is.
-/

namespace Corda.ObjectAt
open Corda Prog Spec

theorem val_of {c : Cursor} {n : Option Node} (h : c.cur = n) : c.val = valueOf n := by
  rw [Cursor.val, h]; rfl

theorem type_of {c : Cursor} {n : Option Node} (h : c.cur = n) :
    c.type = match valueOf n with | some a => a.type | none => .invalid := by
  rw [Cursor.type, h]; cases n <;> rfl

theorem narrow_signed (n : Nat) : narrow n = signedByte n := by
  unfold narrow signedByte
  split <;> omega

theorem primGet_at (t : PrimType) (n : Option Node) (c : Cursor) (h : c.cur = n) :
    primGet t c = (primAt t n, c) := by
  have hv := val_of h
  have ht := type_of h
  have no : ∀ (pt : PnType) (m : String) (f : Unit → Prog Prim), c.type ≠ pt →
      (attest pt m >>= f) c = (.throw m, c) := fun pt m f hne => bind_of_throw (attest_no hne)
  have yes : ∀ (pt : PnType) (m : String) (f : Unit → Prog Prim), c.type = pt →
      (attest pt m >>= f) c = f () c := fun pt m f he => bind_of_ok (attest_ok he)
  unfold primAt
  cases ha : valueOf n with
  | none =>
    rw [ha] at ht hv
    simp only at ht
    cases t <;> simp only [primGet, attestInt, attestBool, attestFloat, attestDouble, attestLong, attestChar]
    case string => simp [bind_def, attestString, ht, lookR, cString, hv]
    all_goals rw [no _ _ _ (by rw [ht]; simp)]
  | some a =>
    rw [ha] at ht hv
    simp only at ht
    cases t <;> simp only [primGet, attestInt, attestBool, attestFloat, attestDouble, attestLong, attestChar]
    case string => cases a <;> simp [bind_def, attestString, ht, lookR, cString, hv, Atom.type, pure_def]
    all_goals
      cases a <;>
        first
        | (refine (no _ _ _ ?_).trans ?_
           · rw [ht]; exact PnType.noConfusion
           · rfl)
        | refine (yes _ _ _ ht).trans ?_
          simp [bind_def, look, getInt, getBool, getFloat, getDouble, getLong, getChar, hv, pure_def, narrow_signed]

theorem attestDescribed_at (n : Option Node) (c : Cursor) (h : c.cur = n) :
    (∃ ks, describedParts n = .ok ks ∧ attestDescribed c = (.ok (), c)) ∨
      ∃ m, describedParts n = .throw m ∧ attestDescribed c = (.throw m, c) := by
  have ht := type_of h
  unfold describedParts
  cases hv : valueOf n with
  | none =>
    rw [hv] at ht
    exact .inr ⟨_, rfl, attest_no (by rw [ht]; exact PnType.noConfusion)⟩
  | some a =>
    rw [hv] at ht
    cases a
    case described => exact .inl ⟨_, rfl, attest_ok ht⟩
    all_goals exact .inr ⟨_, rfl, attest_no (by rw [ht]; exact PnType.noConfusion)⟩

theorem attestList_at (n : Option Node) (c : Cursor) (h : c.cur = n) :
    (∃ ks, listParts n = .ok ks ∧ attestList c = (.ok (), c)) ∨
      ∃ m, listParts n = .throw m ∧ attestList c = (.throw m, c) := by
  have ht := type_of h
  unfold listParts
  cases hv : valueOf n with
  | none =>
    rw [hv] at ht
    exact .inr ⟨_, rfl, attest_no (by rw [ht]; exact PnType.noConfusion)⟩
  | some a =>
    rw [hv] at ht
    cases a
    case list => exact .inl ⟨_, rfl, attest_ok ht⟩
    all_goals exact .inr ⟨_, rfl, attest_no (by rw [ht]; exact PnType.noConfusion)⟩

end Corda.ObjectAt
