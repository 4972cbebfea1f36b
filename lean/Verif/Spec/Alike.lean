import Verif.Spec.Readers

/-
What can be told from the text of a value.
-/

namespace Corda.Spec
open Corda

/-- The values differ at most in what the text does not show: doubles beyond their text, the bytes of a binary value,
the ordinal of an enumeration constant. -/
inductive Alike : PVal → PVal → Prop
  | int (n : Int) : Alike (.int n) (.int n)
  | long (n : Int) : Alike (.long n) (.long n)
  | double (a b : Nat) : doubleStr a = doubleStr b → Alike (.double a) (.double b)
  | bool (b : Bool) : Alike (.bool b) (.bool b)
  | str (s : Str) : Alike (.str s) (.str s)
  | bin (s t : Str) : s.length = t.length → Alike (.bin s) (.bin t)
  | null : Alike .null .null
  | enum (d c : Str) (o p : Int) : Alike (.enum d c o) (.enum d c p)
  | obj (d : Str) (ns : List Str) (vs ws : List PVal) : vs.length = ws.length →
      (∀ p ∈ vs.zip ws, Alike p.1 p.2) → Alike (.obj d ns vs) (.obj d ns ws)
  | list (d : Str) (es fs : List PVal) : es.length = fs.length → (∀ p ∈ es.zip fs, Alike p.1 p.2) →
      Alike (.list d es) (.list d fs)
  | map (d : Str) (es fs : List PEntry) : es.length = fs.length → (∀ p ∈ es.zip fs, Alike p.1.key p.2.key) →
      (∀ p ∈ es.zip fs, Alike p.1.value p.2.value) → Alike (.map d es) (.map d fs)

/-- No text in the value contains a quotation mark, and the constants of enumerations are words. -/
inductive Legible : PVal → Prop
  | int (n : Int) : Legible (.int n)
  | long (n : Int) : Legible (.long n)
  | double (b : Nat) : Legible (.double b)
  | bool (b : Bool) : Legible (.bool b)
  | str (s : Str) : '"' ∉ s → Legible (.str s)
  | bin (s : Str) : Legible (.bin s)
  | null : Legible .null
  | enum (d c : Str) (o : Int) : c ≠ [] → ' ' ∉ c → ',' ∉ c → Legible (.enum d c o)
  | obj (d : Str) (ns : List Str) (vs : List PVal) : (∀ v ∈ vs, Legible v) → Legible (.obj d ns vs)
  | list (d : Str) (es : List PVal) : (∀ v ∈ es, Legible v) → Legible (.list d es)
  | map (d : Str) (es : List PEntry) : (∀ e ∈ es, Legible e.key) → (∀ e ∈ es, Legible e.value) → Legible (.map d es)

/-- Nothing in the value is shown inexactly. -/
inductive Exact : PVal → Prop
  | int (n : Int) : Exact (.int n)
  | long (n : Int) : Exact (.long n)
  | bool (b : Bool) : Exact (.bool b)
  | str (s : Str) : Exact (.str s)
  | null : Exact .null
  | obj (d : Str) (ns : List Str) (vs : List PVal) : (∀ v ∈ vs, Exact v) → Exact (.obj d ns vs)
  | list (d : Str) (es : List PVal) : (∀ v ∈ es, Exact v) → Exact (.list d es)
  | map (d : Str) (es : List PEntry) : (∀ e ∈ es, Exact e.key) → (∀ e ∈ es, Exact e.value) → Exact (.map d es)

end Corda.Spec
