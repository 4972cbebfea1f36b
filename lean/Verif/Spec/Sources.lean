import Verif.Model.Sources

/-
What the tools take for the content of a file.
-/

namespace Corda.Spec
open Corda

/-- The size says how much: more is not looked at, and zeros stand for what is not there. -/
def seen (s : Source) : List Byte := (s.bytes ++ List.replicate s.size 0).take s.size

/-- The machine on which each name stands for an ordinary file with the content that is seen. -/
def Machine.seen (m : Machine) : System := ⟨fun path => (m.source path).map Spec.seen, m.decode⟩

/-- Memory is smaller than half of the addresses; in C++ no array is larger (`PTRDIFF_MAX`). -/
def Machine.Bounded (m : Machine) : Prop := ∀ n, 2 ^ 63 ≤ n → m.room n = false

/-- Reading the name, and holding it in memory, goes well. -/
structure Readable (m : Machine) (s : Source) : Prop where
  preamble : 8 ≤ s.bytes.length
  large : 8 ≤ s.size
  small : s.size < 2 ^ 63
  fits : m.room (s.size - 8) = true

end Corda.Spec
