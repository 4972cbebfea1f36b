import Verif.Model.Proton

/-
The Corda encoding of schema elements as AMQP trees, written down independently of the code
(Corda AMQP serialisation scheme: a described value holding an unsigned long and a list).
-/

namespace Corda.Spec
open Corda

/-- The Corda descriptor identifiers: 0xc562 in the top 16 bits, the element number below. -/
def cordaId (k : Nat) : Nat := 0xc562 * 2 ^ 48 + k

def str (s : Str) : Node := .mk (.string s) []
def sym (s : Str) : Node := .mk (.symbol s) []
def strList (ss : List Str) : Node := .mk .list (ss.map str)

/-- A schema element: its number and its parts. -/
def element (k : Nat) (parts : List Node) : Node :=
  .mk .described [.mk (.ulong (cordaId k)) [], .mk .list parts]

def fieldTree (name type : Str) (requires : List Str) (default label : Str) (mandatory multiple : Bool) : Node :=
  element 4 [str name, str type, strList requires, str default, str label, .mk (.bool mandatory) [],
    .mk (.bool multiple) []]

/-- The fingerprint of a type. -/
def objectTree (fingerprint : Str) : Node := element 3 [sym fingerprint, .mk .null []]

def compositeTree (name label : Str) (provides : List Str) (fingerprint : Str) (fields : List Node) : Node :=
  element 5 [str name, str label, strList provides, objectTree fingerprint, .mk .list fields]

/-- An enumeration constant. -/
def choiceTree (name : Str) (parts : List Node) : Node := element 7 (str name :: parts)

def restrictedTree (name label : Str) (provides : List Str) (source fingerprint : Str) (choices : List Node) : Node :=
  element 6 [str name, str label, strList provides, str source, objectTree fingerprint, .mk .list choices]

def schemaTree (types : List Node) : Node := element 2 [.mk .list types]

def envelopeTree (payload schema transforms : Node) : Node := element 1 [payload, schema, transforms]

end Corda.Spec
