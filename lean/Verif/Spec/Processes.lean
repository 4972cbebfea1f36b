import Verif.Model.Processes
import Verif.Props.CordaBytes
import Verif.Spec.ReadTrace

/-
What the sample programs are to do: said about files, trees and lines of output.
-/

namespace Corda.Spec
open Corda Programs
open Corda.Props (magic)

/-- The file has the header, one of the three section numbers, and something that decodes to this tree without a rest. -/
def HoldsTree (sys : System) (path : Str) (n : Node) : Prop :=
  ∃ (e : Byte) (payload : List Byte), e.toNat ≤ 2 ∧ sys.file path = some (magic ++ e :: payload)
    ∧ sys.decode payload = some (payload.length, n)

/-- The payload of the tree is an object with these two numbers first; if there is just one, it counts twice. -/
def FirstInts (n : Node) (a b : Int) : Prop :=
  ∃ ks ls es vs, n = .mk .described ks ∧ nth ks 1 = some (.mk .list ls) ∧ nth ls 0 = some (.mk .described es)
    ∧ nth es 1 = some (.mk .list vs) ∧ valueOf (nth vs 0) = some (.int a) ∧ valueOf (nth vs 1) = some (.int b)

/-- What is printed when the name of a class that is in no namespace is asked for. -/
def namesAsked (f : ProgFiles) (name : String) : List Str :=
  [remark f.types "125".toList ("javaTypeName = ".toList ++ name.toList), remark f.types "138".toList ("javaTypeName RTN = ".toList ++ name.toList)]

/-- What is printed when a file is saved. -/
def savingLine (f : ProgFiles) (path : Str) : Str := remark f.bytes "97".toList ("toFile - ".toList ++ path)

/-- The file that is there afterwards, if it could be opened. -/
def fileMade (world : World) (path : Str) (n : Node) : List (Str × List Byte) :=
  if world.creates path then [(path, magic ++ 0 :: world.encode n)] else []

/-- The line between writing and reading. -/
def dividing (f : ProgFiles) (line : String) : Str := "[".toList ++ f.main ++ "::".toList ++ line.toList ++ "] \n\nDESERIALISE\n\n".toList

/-- Nothing happened. -/
def turnedAway : Process := ⟨.exit 1 [], [], []⟩

end Corda.Spec
