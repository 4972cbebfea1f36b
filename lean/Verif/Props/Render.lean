import Verif.Lemmas.Readers

/-
C47: the text of dumped values.
-/

namespace Corda.Props
open Corda Spec

/-- **Specification**: what a canonical text of values is.  `colon a b` is `a : b`, `braces [a, b]` is `{ a, b }`,
`brackets [a, b]` is `[ a, b ]`; without elements there are two blanks. -/
structure Canonical (f : Val → Str) : Prop where
  nullSingle : f .nullSingle = "<<NULL>>".toList
  nullPair : ∀ n, f (.nullPair n) = colon n "<<NULL>>".toList
  single : ∀ s, f (.single s) = s
  pair : ∀ n s, f (.pair n s) = colon n s
  singleList : ∀ vs, f (.singleList vs) = brackets (vs.map f)
  pairList : ∀ n vs, f (.pairList n vs) = colon n (brackets (vs.map f))
  singleVec : ∀ vs, f (.singleVec vs) = braces (vs.map f)
  pairVec : ∀ n vs, f (.pairVec n vs) = colon n (braces (vs.map f))
  valuePair : ∀ a b, f (.valuePair a b) = colon (f a) (f b)

/-- **C47.** The text of any dumped value, however deep, is the canonical one. -/
theorem C47_format : Canonical Val.dump := by
  refine ⟨?_, fun n => ?_, fun s => ?_, fun n s => ?_, fun vs => ?_, fun n vs => ?_, fun vs => ?_, fun n vs => ?_,
    fun a b => ?_⟩
  · exact null_dump none
  · exact null_dump (some n)
  · exact text_dump none s
  · exact text_dump (some n) s
  · exact pairList_dump none vs
  · exact pairList_dump (some n) vs
  · exact pairVec_dump none vs
  · exact pairVec_dump (some n) vs
  · rw [Val.dump]; rfl

mutual

private theorem canonical_unique {f g : Val → Str} (hf : Canonical f) (hg : Canonical g) : (v : Val) → f v = g v
  | .nullSingle => by rw [hf.nullSingle, hg.nullSingle]
  | .nullPair n => by rw [hf.nullPair, hg.nullPair]
  | .single s => by rw [hf.single, hg.single]
  | .pair n s => by rw [hf.pair, hg.pair]
  | .singleList vs => by rw [hf.singleList, hg.singleList, canonical_uniques hf hg vs]
  | .pairList n vs => by rw [hf.pairList, hg.pairList, canonical_uniques hf hg vs]
  | .singleVec vs => by rw [hf.singleVec, hg.singleVec, canonical_uniques hf hg vs]
  | .pairVec n vs => by rw [hf.pairVec, hg.pairVec, canonical_uniques hf hg vs]
  | .valuePair a b => by rw [hf.valuePair, hg.valuePair, canonical_unique hf hg a, canonical_unique hf hg b]

private theorem canonical_uniques {f g : Val → Str} (hf : Canonical f) (hg : Canonical g) :
    (vs : List Val) → vs.map f = vs.map g
  | [] => rfl
  | v :: vs => by rw [List.map_cons, List.map_cons, canonical_unique hf hg v, canonical_uniques hf hg vs]

end

/-- **C47, only one.** There is exactly one canonical text. -/
theorem C47_only (f : Val → Str) (hf : Canonical f) : f = Val.dump :=
  funext (canonical_unique hf C47_format)

/-- **C47, numbers.** Integers are shown in decimal, without leading zeros. -/
theorem C47_integers (n : Int) : intStr n = decimal n := intStr_eq n

example : Val.dump (.pairVec "a".toList [.pair "x".toList "1".toList, .pairList "l".toList [.single "2".toList, .single "3".toList],
      .nullPair "n".toList, .singleVec [.valuePair (.single "k".toList) (.single "v".toList)], .singleList []])
    = "a : { x : 1, l : [ 2, 3 ], n : <<NULL>>, { k : v }, [  ] }".toList := by decide +kernel
example : intStr (-1200) = "-1200".toList ∧ intStr 0 = "0".toList := by decide +kernel

#print axioms C47_format
#print axioms C47_only
#print axioms C47_integers

end Corda.Props
