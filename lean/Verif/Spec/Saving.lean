import Verif.Model.Saving
import Verif.Props.CordaBytes

/-
What is to be on a disk after a file was saved.
-/

namespace Corda.Spec
open Corda Programs
open Corda.Props (magic)

/-- What a saved blob is to look like. -/
def wholeFile (encoded : List Byte) : List Byte := magic ++ 0 :: encoded

/-- What is there afterwards: of the file as much as there is room for, the others as they were; all as it was if the file could not be opened. -/
def leftOn (d : Disk) (path : Str) (whole : List Byte) : Str → Option (List Byte) := fun p =>
  if p = path then
    match d.room path with
    | none => d.files path
    | some k => some (whole.take k)
  else d.files p

/-- There is room for all of the file. -/
def HasRoom (d : Disk) (path : Str) (whole : List Byte) : Prop := ∃ k, d.room path = some k ∧ whole.length ≤ k

end Corda.Spec
