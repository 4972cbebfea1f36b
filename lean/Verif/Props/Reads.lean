import Verif.Model.Reads

/-
C80: reading a value through its serialiser.
-/

namespace Corda.Spec

/-- The value a serialiser of the given primitive type has to deliver, for a well-typed node.  (Both strings and
symbols are text.) -/
def readAs : PrimReader → Atom → Option AnyVal
  | .int, .int n => some (.int32 n)
  | .long, .long n => some (.int64 n)
  | .double, .double b => some (.double b)
  | .boolean, .bool b => some (.bool b)
  | .string, .string s => some (.string s)
  | .string, .symbol s => some (.string s)
  | _, _ => none

/-- How a value is written as text. -/
def anyText : AnyVal → Str
  | .int32 n => intStr n
  | .int64 n => intStr n
  | .double b => doubleStr b
  | .bool b => if b then ['1'] else ['0']
  | .string s => s
  | .nullptr => []

/-- The text with quotes around strings, as the inspector shows it. -/
def anyShown : AnyVal → Str
  | .string s => '"' :: s ++ ['"']
  | v => anyText v

end Corda.Spec

namespace Corda.Props
open Corda Spec

theorem boolStr_eq (b : Bool) : boolStr b = if b then ['1'] else ['0'] := by cases b <;> decide

/-- **C80, primitive types other than `float` and `binary`.** Where a node of the right type is the current one,
`read` delivers its value and goes on to the next node. -/
theorem C80_read_partial (p : PrimReader) (c : Cursor) (a : Atom) (v : AnyVal) (h : c.val = some a)
    (hv : readAs p a = some v) : Prog.readAny p c = (.ok v, c.next.2) := by
  cases p <;> cases a <;> simp only [readAs, Option.some.injEq, reduceCtorEq] at hv <;> subst hv <;>
    simp [Prog.readAny, Prog.readInt32, Prog.readInt64, Prog.readDouble, Prog.readBool, Prog.readString, Prog.autoNext,
      Prog.look, Prog.getInt, Prog.getLong, Prog.getDouble, Prog.getBool, Prog.bind, bind, pure, h]

/-- **C80, the three ways agree.** At every position whatever, well-typed or not, `readString` gives the text of what
`read` gives, and the inspector's text is the same with strings in quotes; each leaves the data at the same place. -/
theorem C80_agree_partial (p : PrimReader) (hp : p ≠ .binary) (c : Cursor) :
    Prog.readText p c = (anyText <$> (Prog.readAny p c).1, (Prog.readAny p c).2)
    ∧ Prog.propertyText p c = (anyShown <$> (Prog.readAny p c).1, (Prog.readAny p c).2) := by
  cases p with
  | int => exact ⟨rfl, rfl⟩
  | long => exact ⟨rfl, rfl⟩
  | double => exact ⟨rfl, rfl⟩
  | boolean =>
    have e : ∀ b, boolStr b = anyText (.bool b) := boolStr_eq
    constructor
    · simp only [Prog.readText, Prog.readAny, e]; rfl
    · simp only [Prog.propertyText, Prog.readAny, e]; rfl
  | string =>
    constructor
    · simp only [Prog.readText, Prog.readAny, bind, Prog.bind]
      cases hr : Prog.readString (tolerate := false) c with
      | mk r c' => cases r <;> rfl
    · simp only [Prog.propertyText, Prog.readAny, bind, Prog.bind]
      cases hr : Prog.readString (tolerate := false) c with
      | mk r c' => cases r <;> rfl
  | float => exact ⟨rfl, rfl⟩
  | binary => exact absurd rfl hp

/-- A `float` can be read in none of the three ways. -/
theorem C80_float_violated (c : Cursor) :
    (Prog.readAny .float c).1.Throws ∧ (Prog.readText .float c).1.Throws ∧ (Prog.propertyText .float c).1.Throws :=
  ⟨trivial, trivial, trivial⟩

/-- **C10 fails for `Float` too**: there is a reader for the type, but it throws whatever it is given. -/
theorem C10_float_violated (c : Cursor) :
    ∃ r, makePropertyReader (unbox "java.lang.Float".toList) = .ok r ∧ (Prog.propertyText r c).1.Throws :=
  ⟨.float, by decide, trivial⟩

/-- **C80 fails for binary values**: whatever the bytes, `read` delivers `false` and `readString` throws. -/
theorem C80_binary_violated (c : Cursor) (s : Str) (h : c.val = some (.binary s)) :
    Prog.readAny .binary c = (.ok (.bool false), c.next.2) ∧ (Prog.readText .binary c).1.Throws := by
  refine ⟨?_, trivial⟩
  simp [Prog.readAny, Prog.readBool, Prog.autoNext, Prog.look, Prog.getBool, Prog.bind, bind, pure, h]

/-- **C80 fails for everything that is not primitive**: `read` delivers 1 (a null pointer for a public key) and does
not move, `readString` delivers a fixed word; neither looks at the data. -/
theorem C80_objects_violated (o : Ser) (h : ∀ p, o.kind ≠ .prim p) (c d : Cursor) :
    (Prog.serRead o c).1 = (Prog.serRead o d).1 ∧ (Prog.serRead o c).2 = c
    ∧ (Prog.serReadString o c).1 = (Prog.serReadString o d).1 := by
  unfold Prog.serRead Prog.serReadString
  cases hk : o.kind with
  | prim p => exact absurd hk (h p)
  | composite => exact ⟨rfl, rfl, rfl⟩
  | list => exact ⟨rfl, rfl, rfl⟩
  | array => exact ⟨rfl, rfl, rfl⟩
  | map => exact ⟨rfl, rfl, rfl⟩
  | enum cs => exact ⟨rfl, rfl, rfl⟩
  | custom n => exact ⟨rfl, rfl, rfl⟩

/-- **C80 fails for writing**: no `write` puts anything, whatever the value; that of a public key throws, all others do as if they had written it. -/
theorem C80_write_violated (o : Ser) (v : AnyVal) (c : Cursor) :
    (Prog.serWrite o v c).2 = c ∧ ((∃ n, o.kind = .custom n) → (Prog.serWrite o v c).1.Throws)
    ∧ ((∀ n, o.kind ≠ .custom n) → (Prog.serWrite o v c).1 = .ok ()) := by
  unfold Prog.serWrite
  cases hk : o.kind with
  | custom n => exact ⟨rfl, fun _ => trivial, fun h => absurd rfl (h n)⟩
  | _ => exact ⟨rfl, fun ⟨n, h⟩ => (by cases h), fun _ => rfl⟩

/-- A list of the numbers 3 and 4, the first being the current node. -/
def twoInts : Cursor := ⟨[], some (.mk (.int 3) []), [.mk (.int 4) []], []⟩

example : Prog.readAny .int twoInts = (.ok (.int32 3), ⟨[.mk (.int 3) []], some (.mk (.int 4) []), [], []⟩) := by
  decide +kernel
example : (Prog.readText .string (Cursor.root (.mk (.string "hi".toList) []))).1 = .ok "hi".toList := by decide +kernel
example : (Prog.propertyText .string (Cursor.root (.mk (.string "hi".toList) []))).1 = .ok "\"hi\"".toList := by
  decide +kernel
example : (Prog.readAny .binary (Cursor.root (.mk (.binary "abc".toList) []))).1 = .ok (.bool false) := by decide +kernel
example : (Prog.serReadString ⟨.list, "java.util.List<int>".toList, [0]⟩ twoInts).1 = .ok "hello".toList := by
  decide +kernel
example : (Prog.serWrite ⟨.prim .int, "int".toList, []⟩ (.int32 5) twoInts) = (.ok (), twoInts) := rfl
example : (Prog.serWrite ⟨.custom 0, "java.security.PublicKey".toList, []⟩ .nullptr twoInts).1 = .throw "NOT IMPLEMENTED" := rfl
/-- `readString` of a composite even moves on to the next node before it answers. -/
example : (Prog.serReadString ⟨.composite, "A".toList, [0]⟩ twoInts).2.val = some (.int 4) := by decide +kernel

#print axioms C10_float_violated
#print axioms C80_read_partial
#print axioms C80_agree_partial
#print axioms C80_float_violated
#print axioms C80_binary_violated
#print axioms C80_objects_violated
#print axioms C80_write_violated

end Corda.Props
