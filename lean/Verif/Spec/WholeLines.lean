import Verif.Spec.Meaning
import Verif.Spec.SchemaDump

/-
What it means that a text is found at the end of an output.
-/

namespace Corda.Spec
open Corda

/-- A piece of output after which a new line begins. -/
def EndsLine (s : Str) : Prop := ∃ t, s = t ++ ['\n']

/-- The text begins where a line begins, and is followed by a line end and nothing else. -/
def AtTheEnd (s out : Str) : Prop := ∃ before, (before = [] ∨ EndsLine before) ∧ out = before ++ s ++ ['\n']

/-- The last line of an output. -/
def IsLastLine (s out : Str) : Prop := OneLine s ∧ AtTheEnd s out

/-- No text or symbol in the tree has a line end. -/
def NoLineEnds (n : Node) : Prop := ∀ m s, Inside m n → (m.val = .string s ∨ m.val = .symbol s) → OneLine s

/-- No name of a property has a line end. -/
def PlainNames (ts : List TypeNotation) : Prop := ∀ c f, .comp c ∈ ts → f ∈ c.fields → OneLine f.name

end Corda.Spec
