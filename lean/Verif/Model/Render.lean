import Verif.Model.SchemaUtils

/-
Model of the values a dump produces and their text: libs/amqp/src/serialiser/serialisers/reader/Reader.h and
Reader.cxx, with `std::to_string` for the numbers.
-/

namespace Corda

/-- An `IValue` (Reader.h:18-164).  The template arguments of `TypedPair` and `TypedSingle` that occur are
`std::string`, `sList<uPtr<IValue>>` and `sVec<uPtr<IValue>>`; no pointer in them is ever null. -/
inductive Val where
  /-- `NullTypedSingle` -/
  | nullSingle
  /-- `NullTypedPair` -/
  | nullPair (property : Str)
  /-- `TypedSingle<std::string>` -/
  | single (value : Str)
  /-- `TypedPair<std::string>` -/
  | pair (property value : Str)
  /-- `TypedSingle<sList<uPtr<IValue>>>` -/
  | singleList (vs : List Val)
  /-- `TypedSingle<sVec<uPtr<IValue>>>` -/
  | singleVec (vs : List Val)
  /-- `TypedPair<sList<uPtr<IValue>>>` -/
  | pairList (property : Str) (vs : List Val)
  /-- `TypedPair<sVec<uPtr<IValue>>>` -/
  | pairVec (property : Str) (vs : List Val)
  /-- `ValuePair` -/
  | valuePair (key value : Val)

namespace Val

mutual

/-- Equality of dumped values is decidable (for examples). Framework of the model, for all of /repo: no code of its own. -/
def decEq : (a b : Val) → Decidable (a = b)
  | nullSingle, nullSingle => isTrue rfl
  | nullPair p, nullPair q => if h : p = q then isTrue (by rw [h]) else isFalse (by intro e; injection e; contradiction)
  | single p, single q => if h : p = q then isTrue (by rw [h]) else isFalse (by intro e; injection e; contradiction)
  | pair p v, pair q w =>
    if h : p = q ∧ v = w then isTrue (by rw [h.1, h.2])
    else isFalse (by intro e; injection e with e1 e2; exact h ⟨e1, e2⟩)
  | singleList a, singleList b =>
    match decEqs a b with
    | isTrue h => isTrue (by rw [h])
    | isFalse h => isFalse (by intro e; injection e; contradiction)
  | singleVec a, singleVec b =>
    match decEqs a b with
    | isTrue h => isTrue (by rw [h])
    | isFalse h => isFalse (by intro e; injection e; contradiction)
  | pairList p a, pairList q b =>
    if g : p = q then
      match decEqs a b with
      | isTrue h => isTrue (by rw [g, h])
      | isFalse h => isFalse (by intro e; injection e; contradiction)
    else isFalse (by intro e; injection e; contradiction)
  | pairVec p a, pairVec q b =>
    if g : p = q then
      match decEqs a b with
      | isTrue h => isTrue (by rw [g, h])
      | isFalse h => isFalse (by intro e; injection e; contradiction)
    else isFalse (by intro e; injection e; contradiction)
  | valuePair k v, valuePair l w =>
    match decEq k l with
    | isTrue g =>
      match decEq v w with
      | isTrue h => isTrue (by rw [g, h])
      | isFalse h => isFalse (by intro e; injection e; contradiction)
    | isFalse g => isFalse (by intro e; injection e; contradiction)
  | nullSingle, nullPair _ => isFalse nofun
  | nullSingle, single _ => isFalse nofun
  | nullSingle, pair _ _ => isFalse nofun
  | nullSingle, singleList _ => isFalse nofun
  | nullSingle, singleVec _ => isFalse nofun
  | nullSingle, pairList _ _ => isFalse nofun
  | nullSingle, pairVec _ _ => isFalse nofun
  | nullSingle, valuePair _ _ => isFalse nofun
  | nullPair _, nullSingle => isFalse nofun
  | nullPair _, single _ => isFalse nofun
  | nullPair _, pair _ _ => isFalse nofun
  | nullPair _, singleList _ => isFalse nofun
  | nullPair _, singleVec _ => isFalse nofun
  | nullPair _, pairList _ _ => isFalse nofun
  | nullPair _, pairVec _ _ => isFalse nofun
  | nullPair _, valuePair _ _ => isFalse nofun
  | single _, nullSingle => isFalse nofun
  | single _, nullPair _ => isFalse nofun
  | single _, pair _ _ => isFalse nofun
  | single _, singleList _ => isFalse nofun
  | single _, singleVec _ => isFalse nofun
  | single _, pairList _ _ => isFalse nofun
  | single _, pairVec _ _ => isFalse nofun
  | single _, valuePair _ _ => isFalse nofun
  | pair _ _, nullSingle => isFalse nofun
  | pair _ _, nullPair _ => isFalse nofun
  | pair _ _, single _ => isFalse nofun
  | pair _ _, singleList _ => isFalse nofun
  | pair _ _, singleVec _ => isFalse nofun
  | pair _ _, pairList _ _ => isFalse nofun
  | pair _ _, pairVec _ _ => isFalse nofun
  | pair _ _, valuePair _ _ => isFalse nofun
  | singleList _, nullSingle => isFalse nofun
  | singleList _, nullPair _ => isFalse nofun
  | singleList _, single _ => isFalse nofun
  | singleList _, pair _ _ => isFalse nofun
  | singleList _, singleVec _ => isFalse nofun
  | singleList _, pairList _ _ => isFalse nofun
  | singleList _, pairVec _ _ => isFalse nofun
  | singleList _, valuePair _ _ => isFalse nofun
  | singleVec _, nullSingle => isFalse nofun
  | singleVec _, nullPair _ => isFalse nofun
  | singleVec _, single _ => isFalse nofun
  | singleVec _, pair _ _ => isFalse nofun
  | singleVec _, singleList _ => isFalse nofun
  | singleVec _, pairList _ _ => isFalse nofun
  | singleVec _, pairVec _ _ => isFalse nofun
  | singleVec _, valuePair _ _ => isFalse nofun
  | pairList _ _, nullSingle => isFalse nofun
  | pairList _ _, nullPair _ => isFalse nofun
  | pairList _ _, single _ => isFalse nofun
  | pairList _ _, pair _ _ => isFalse nofun
  | pairList _ _, singleList _ => isFalse nofun
  | pairList _ _, singleVec _ => isFalse nofun
  | pairList _ _, pairVec _ _ => isFalse nofun
  | pairList _ _, valuePair _ _ => isFalse nofun
  | pairVec _ _, nullSingle => isFalse nofun
  | pairVec _ _, nullPair _ => isFalse nofun
  | pairVec _ _, single _ => isFalse nofun
  | pairVec _ _, pair _ _ => isFalse nofun
  | pairVec _ _, singleList _ => isFalse nofun
  | pairVec _ _, singleVec _ => isFalse nofun
  | pairVec _ _, pairList _ _ => isFalse nofun
  | pairVec _ _, valuePair _ _ => isFalse nofun
  | valuePair _ _, nullSingle => isFalse nofun
  | valuePair _ _, nullPair _ => isFalse nofun
  | valuePair _ _, single _ => isFalse nofun
  | valuePair _ _, pair _ _ => isFalse nofun
  | valuePair _ _, singleList _ => isFalse nofun
  | valuePair _ _, singleVec _ => isFalse nofun
  | valuePair _ _, pairList _ _ => isFalse nofun
  | valuePair _ _, pairVec _ _ => isFalse nofun

/-- Framework of the model, for all of /repo: no code of its own. -/
def decEqs : (as bs : List Val) → Decidable (as = bs)
  | [], [] => isTrue rfl
  | [], _ :: _ => isFalse (by simp)
  | _ :: _, [] => isFalse (by simp)
  | a :: as, b :: bs =>
    match decEq a b with
    | isTrue h =>
      match decEqs as bs with
      | isTrue g => isTrue (by rw [h, g])
      | isFalse g => isFalse (by intro e; injection e; contradiction)
    | isFalse h => isFalse (by intro e; injection e; contradiction)

end

instance : DecidableEq Val := decEq

end Val

/-! The literals of Reader.cxx. -/

/-- Reader.cxx:17 -/
def pairMapOpen : Str := " : { ".toList
/-- Reader.cxx:23 -/
def mapOpen : Str := "{ ".toList
/-- Reader.cxx:27 -/
def mapClose : Str := " }".toList
/-- Reader.cxx:38 -/
def pairListOpen : Str := " : [ ".toList
/-- Reader.cxx:44 -/
def listOpen : Str := "[ ".toList
/-- Reader.cxx:48 -/
def listClose : Str := " ]".toList
/-- Reader.cxx:62, 80 -/
def elemSep : Str := ", ".toList
/-- Reader.cxx:101, Reader.h:218, 225 -/
def pairSep : Str := " : ".toList
/-- Reader.cxx:149 -/
def nullPairText : Str := " : <<NULL>>".toList
/-- Reader.cxx:161 -/
def nullText : Str := "<<NULL>>".toList

mutual

/-- `IValue::dump()`: Reader.cxx:96-182 and Reader.h:174-186, 214-226. -/
def Val.dump : Val → Str
  | .nullSingle => nullText
  | .nullPair p => p ++ nullPairText
  | .single s => s
  | .pair p s => p ++ pairSep ++ s
  | .singleList vs => listOpen ++ dumpRange vs ++ listClose
  | .singleVec vs => mapOpen ++ dumpRange vs ++ mapClose
  | .pairList p vs => p ++ pairListOpen ++ dumpRange vs ++ listClose
  | .pairVec p vs => p ++ pairMapOpen ++ dumpRange vs ++ mapClose
  | .valuePair k v => k.dump ++ pairSep ++ v.dump

/-- Reader.cxx:59-64 (and 77-82): the first element, then the others. -/
def dumpRange : List Val → Str
  | [] => []
  | v :: vs => v.dump ++ dumpRest vs

/-- Reader.cxx:61-63 (and 79-81): the loop over the remaining elements. -/
def dumpRest : List Val → Str
  | [] => []
  | v :: vs => elemSep ++ v.dump ++ dumpRest vs

end

/-! `std::to_string`. -/

/-- `std::to_string` of an unsigned number. Not in /repo (standard library); called in AMQPBlob.cxx:95, 101, BinaryPropertyReader.cxx:39. -/
def natStr (n : Nat) : Str := Nat.toDigits 10 n

/-- `std::to_string` of a signed number. Not in /repo (standard library); called in AMQPBlob.cxx:93, 99, IntPropertyReader.cxx:25, 46, 51,
66, LongPropertyReader.cxx:22, 36, 48. -/
def intStr (n : Int) : Str :=
  match n with
  | .ofNat k => natStr k
  | .negSucc k => '-' :: natStr (k + 1)

/-- `std::to_string (bool)`: the bool is promoted to `int`. Not in /repo (standard library); called in BoolPropertyReader.cxx:22, 36, 48. -/
def boolStr (b : Bool) : Str := if b then natStr 1 else natStr 0

/-- Six decimals. Not in /repo (standard library); part of `std::to_string (double)`, DoublePropertyReader.cxx:22. -/
def pad6 (n : Nat) : Str := List.replicate (6 - (natStr n).length) '0' ++ natStr n

/-- `printf ("%f")` of the finite number `m * 2^e`: six decimals, correctly rounded, ties to even (glibc, default rounding mode). Not in
/repo (standard library); part of `std::to_string (double)`, DoublePropertyReader.cxx:22. -/
def fixed6 (neg : Bool) (m : Nat) (e : Int) : Str :=
  let num := m * 10 ^ 6 * 2 ^ e.toNat
  let den := 2 ^ (-e).toNat
  let q := num / den
  let r := num % den
  let q' := if den < 2 * r ∨ (2 * r = den ∧ q % 2 = 1) then q + 1 else q
  (if neg then ['-'] else []) ++ natStr (q' / 10 ^ 6) ++ ['.'] ++ pad6 (q' % 10 ^ 6)

/-- `printf ("%f")` of an IEEE 754 number with `ew` exponent bits and `fw` fraction bits. Not in /repo (standard library); part of
`std::to_string (double)`, DoublePropertyReader.cxx:22. -/
def ieeeStr (ew fw : Nat) (bits : Nat) : Str :=
  let neg : Bool := bits / 2 ^ (ew + fw) % 2 = 1
  let ex := bits / 2 ^ fw % 2 ^ ew
  let frac := bits % 2 ^ fw
  let bias : Int := 2 ^ (ew - 1) - 1 + fw
  if ex = 2 ^ ew - 1 then
    (if neg then ['-'] else []) ++ (if frac = 0 then ['i', 'n', 'f'] else ['n', 'a', 'n'])
  else if ex = 0 then fixed6 neg frac (1 - bias)
  else fixed6 neg (frac + 2 ^ fw) (ex - bias)

/-- `std::to_string (double)`. Not in /repo (standard library); called in AMQPBlob.cxx:105, DoublePropertyReader.cxx:22, 36, 48. -/
def doubleStr (bits : Nat) : Str := ieeeStr 11 52 bits

/-- `std::to_string (float)`: the float is promoted to `double`, which is exact. Not in /repo (standard library); called in
AMQPBlob.cxx:103. -/
def floatStr (bits : Nat) : Str := ieeeStr 8 23 bits

end Corda
