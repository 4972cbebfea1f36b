import Verif.Model.StdErr
import Verif.Props.Tools
import Verif.Spec.Readers

/-
What the tools are to say on standard error.
-/

namespace Corda.Spec
open Corda
open Corda.Props (magic)

/-- The number a byte is shown as. -/
def asNumber (signed : Bool) (b : Byte) : Int := if signed ∧ ¬ b.toNat < 128 then -(256 - b.toNat : Int) else b.toNat

/-- The line about a header that is none. -/
def headerLine (signed : Bool) (header : List Byte) : Str :=
  "Bad Header: ".toList ++ (header.map fun b => decimal (asNumber signed b) ++ [' ']).flatten ++ ['\n']

/-- What is said about the first seven bytes of a file, if the header is not insisted on. -/
def aboutHeader (signed : Bool) (content : List Byte) : List ErrPiece :=
  if content.take 7 = magic then [] else [.text (headerLine signed (content.take 7))]

/-- The line about another encoding than 0. -/
def encodingLine (e : Byte) : Str := "BAD ENCODING ".toList ++ decimalNat e.toNat ++ " != 0\n".toList

/-- An exception and a line end. -/
def exceptionLine (m : String) : List ErrPiece := [.what m, .text ['\n']]

/-- A file whose eighth byte names another encoding than 0. -/
def OtherEncoding (content : List Byte) (e : Byte) : Prop := content[7]? = some e ∧ (e = 1 ∨ e = 2)

/-- Why a file of which the header is insisted on gives the exception `m`: the header is not there, the encoding is unknown, or what is in the file
cannot be shown. -/
def Raises (sys : System) (dump : Cursor → Res Str) (content : List Byte) (m : String) : Prop :=
  (content.take 7 ≠ magic ∧ m = "Not a Corda stream")
  ∨ (content[7]? = some 3 ∧ m = "Unknown encoding encountered")
  ∨ ∃ payload n, content = magic ++ 0 :: payload ∧ sys.decode payload = some (payload.length, n) ∧ dump (Cursor.root n) = .throw m

/-- A file of which the header is insisted on, and what is said about it by a tool that fails: the encoding, or the exception. -/
def Explained (sys : System) (dump : Cursor → Res Str) (content : List Byte) (err : List ErrPiece) : Prop :=
  (∃ e, content.take 7 = magic ∧ OtherEncoding content e ∧ err = [.text (encodingLine e)])
  ∨ ∃ m, Raises sys dump content m ∧ isRuntimeError m = true ∧ err = exceptionLine m

end Corda.Spec
