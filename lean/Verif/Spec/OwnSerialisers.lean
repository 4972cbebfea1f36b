import Verif.Spec.Meaning

/-
What is shown of a blob if a program has serialisers of its own.  Said about trees.
-/

namespace Corda.Spec
open Corda

/-- What a serialiser makes of a value: whether it is a named property, and what stands there (perhaps nothing). -/
abbrev OwnText : Type := Bool → Option Node → Res Str

/-- What the serialisers make of a type, if one of them is for it.  The one installed last counts. -/
def theirs : List (Str × OwnText) → Str → Option OwnText
  | [], _ => none
  | (t, f) :: own, k =>
    match theirs own k with
    | some g => some g
    | none => if k = t then some f else none

/-- The text for a value of the type named `t`: what the program's own serialiser says if there is one, even if `t` is the
name of a primitive type or of a type of the schema; everything else as by `textAs`. -/
def textOwn (own : List (Str × OwnText)) (leftFirst : Bool) (ts : List TypeNotation) : Nat → Texts
  | 0, _, _, _ => .ub "fuel"
  | depth + 1, named, t, n =>
    match theirs own t with
    | some f => f named n
    | none =>
      match primNamed t with
      | some p => primText p n
      | none =>
        match typeNamed ts t with
        | none => .ub "no such type"
        | some (.comp c) =>
          if valueOf n = some .null then .ok absent
          else braces <$> objectTexts ts (textOwn own leftFirst ts depth) c n
        | some (.restr r) =>
          match r.kind with
          | .enum _ => enumText n
          | .list l => brackets <$> listTexts ts (textOwn own leftFirst ts depth) l n
          | .array l => brackets <$> listTexts ts (textOwn own leftFirst ts depth) l n
          | .map k v => braces <$> mapTexts leftFirst ts (textOwn own leftFirst ts depth) k v n

/-- The text for a payload with descriptor `d`. -/
def payloadOwn (own : List (Str × OwnText)) (leftFirst : Bool) (ts : List TypeNotation) (d : Str) (payload : Node) : Res Str :=
  match ts.find? (fun u => u.descriptor == d) with
  | none => .ub "assert"
  | some u => do
    let s ← textOwn own leftFirst ts payload.height true u.name (some payload)
    pure ("{ Parsed : ".toList ++ s ++ " }".toList)

/-- Neither the types nor the properties, elements, keys and values of them have one of these names. -/
structure Unmentioned (own : List Str) (ts : List TypeNotation) : Prop where
  types : ∀ t ∈ ts, t.name ∉ own
  fields : ∀ c, .comp c ∈ ts → ∀ f ∈ c.fields, ∀ t, fieldTypeName f = some t → t ∉ own
  elems : ∀ r l, .restr r ∈ ts → r.kind = .list l ∨ r.kind = .array l → l ∉ own
  pairs : ∀ r k v, .restr r ∈ ts → r.kind = .map k v → k ∉ own ∧ v ∉ own

end Corda.Spec
