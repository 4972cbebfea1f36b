import Verif.Model.Basic

/-
Specification of generic type names, independent of the code: a grammar of bracket-balanced names, and type
trees with their rendering and pre-order listing.
-/

namespace Corda.Spec
open Corda

/-- `WF inside s`: `s` is a well-formed piece of a type name.  Angle brackets are balanced; commas occur only
inside brackets (`inside = true`, or within a nested pair). -/
inductive WF : Bool → Str → Prop
  | nil (b : Bool) : WF b []
  | chr (b : Bool) (c : Char) (s : Str) : c ≠ '<' → c ≠ '>' → c ≠ ',' → WF b s → WF b (c :: s)
  | comma (s : Str) : WF true s → WF true (',' :: s)
  | brackets (b : Bool) (s t : Str) : WF true s → WF b t → WF b ('<' :: (s ++ '>' :: t))

/-- A well-formed type name: brackets balanced, no top-level comma, no leading blank. -/
def TypeName (s : Str) : Prop := WF false s ∧ s.head? ≠ some ' '

/-- The eight boxed Java types and the primitive each stands for. -/
def boxed : List (String × String) :=
  [("java.lang.Integer", "int"), ("java.lang.Boolean", "bool"), ("java.lang.Byte", "char"),
   ("java.lang.Short", "short"), ("java.lang.Character", "char"), ("java.lang.Float", "float"),
   ("java.lang.Long", "long"), ("java.lang.Double", "double")]

/-- Replace a boxed Java type by its primitive, leave everything else alone. -/
def unboxed (s : Str) : Str :=
  match boxed.find? (fun p => p.1.toList == s) with
  | some p => p.2.toList
  | none => s

/-- A type tree. -/
inductive Ty where
  | leaf (name : Str)
  | list (elem : Ty)
  | map (key value : Ty)
  deriving DecidableEq, Repr

/-- The text around the argument of a list type. -/
def listOpen : Str := "java.util.List<".toList
/-- The text around the arguments of a map type. -/
def mapOpen : Str := "java.util.Map<".toList

/-- How Corda writes a type. `sep` is what stands between key and value, `","` or `", "`. -/
def Ty.render (sep : Str) : Ty → Str
  | .leaf n => n
  | .list t => listOpen ++ t.render sep ++ ['>']
  | .map k v => mapOpen ++ k.render sep ++ sep ++ v.render sep ++ ['>']

/-- The types strictly inside a type, in pre-order, as names with boxed types replaced. -/
def Ty.inner (sep : Str) : Ty → List Str
  | .leaf _ => []
  | .list t => unboxed (t.render sep) :: t.inner sep
  | .map k v => unboxed (k.render sep) :: k.inner sep ++ unboxed (v.render sep) :: v.inner sep

/-- A leaf name: a well-formed type name that is neither a list nor a map. -/
def LeafName (n : Str) : Prop :=
  TypeName n ∧ ¬ ("java.util.List".toList <+: n) ∧ ¬ ("java.util.Map".toList <+: n)

/-- All leaves of the tree are leaf names. -/
def Ty.Ok : Ty → Prop
  | .leaf n => LeafName n
  | .list t => t.Ok
  | .map k v => k.Ok ∧ v.Ok

end Corda.Spec
