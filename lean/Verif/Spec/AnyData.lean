import Verif.Spec.RawDump
import Verif.Spec.Meaning

/-
What a dump of the data makes of any payload, well-formed or not.  This is said about trees; there are no cursors here.
-/

namespace Corda.Spec
open Corda

/-- The type of what is there, if anything is. -/
def typeHere (n : Option Node) : PnType :=
  match valueOf n with
  | some a => a.type
  | none => .invalid

/-- A part as it is shown, depending on what it is taken for. -/
abbrev Showing : Type := PnType → Res Str

/-- Part `i`, or the last one, taken for `t`. -/
def showAt (fs : List Showing) (i : Nat) (t : PnType) : Res Str :=
  match fs[min i (fs.length - 1)]? with
  | some f => f t
  | none => .ok []

/-- The entries of a map with the parts `ns`: the `i`-th shows the parts `3 i + 1` and `3 i + 2` (or the last), each taken for
what the part in front of it is. -/
def slippedTaken (ns : List Node) (fs : List Showing) : Res (List Str) :=
  if ns = [] then .ok ["<<<Empty Map>>>".toList]
  else all ((List.range ((ns.length + 1) / 2)).map fun i => do
    let k ← showAt fs (3 * i + 1) (typeHere (nth ns (3 * i)))
    let v ← showAt fs (3 * i + 2) (typeHere (nth ns (3 * i + 1)))
    pure (colon k v))

mutual

/-- What is shown for a node that is taken for something of type `t`. -/
def taken : Node → Showing
  | .mk a ks, t =>
    if t = .list then
      if a.type = .list then (fun l => brackets (elements l)) <$> all (takenAll ks) else .throw "Expected a List"
    else if t = .map then
      if a.type = .map then brackets <$> slippedTaken ks (takenParts ks) else .throw "Expected a Map"
    else if t = .described then do
      let d ← textOf (nth ks 0)
      if typeHere (nth ks 1) = .list ∨ typeHere (nth ks 1) = .map then
        colon d <$> showAt (takenParts ks) 1 (typeHere (nth ks 1))
      else .throw "Described data must be either a list or map"
    else .ok (leafText a)

/-- Each taken for what it is. -/
def takenAll : List Node → List (Res Str)
  | [] => []
  | n :: ns => taken n n.val.type :: takenAll ns

def takenParts : List Node → List Showing
  | [] => []
  | n :: ns => taken n :: takenParts ns

end

/-- An unsigned long, or zero. -/
def numberHere (n : Option Node) : Nat :=
  match valueOf n with
  | some (.ulong id) => id
  | _ => 0

/-- The first part of the list in an envelope must be described. -/
def firstText (ps : List Node) : Res Str := do
  let _ ← describedParts (nth ps 0)
  match nth ps 0 with
  | some p => taken p .described
  | none => .ok []

/-- What a dump of the data makes of a tree: it must be described by the number of an envelope, and what is described must be
a list; all but the first part of the list is ignored. -/
def dataText (n : Option Node) : Res Str := do
  if typeHere n = .described then
    if numberHere (nth (kidsOf n) 0) % 2 ^ 32 = 1 then do
      let ps ← listParts (nth (kidsOf n) 1)
      firstText ps
    else .ub "assert"
  else .ub "null value"

end Corda.Spec
