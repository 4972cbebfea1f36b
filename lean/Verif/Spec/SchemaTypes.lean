import Verif.Model.SchemaTypes
import Verif.Spec.TypeNames

/-
Specification of what schema types mention, and of how fields and restricted types are classified.
-/

namespace Corda.Spec
open Corda

/-- The type of a field as Corda means it: the declared type, or for `*` the first requirement. -/
def fieldTypeName (f : Field) : Option Str :=
  match f.kind with
  | .restricted => f.requires.head?
  | .custom => f.requires.head?
  | _ => some f.type

/-- `t` directly mentions the type named `n`: as element, key, value or field type. -/
def mentions (t : TypeNotation) (n : Str) : Bool :=
  match t with
  | .comp c => c.fields.any (fun f => fieldTypeName f == some n)
  | .restr r =>
    match r.kind with
    | .list l => l == n
    | .map a b => a == n || b == n
    | .array a => a == n
    | .enum _ => false

/-- `a` needs `b`. -/
def needs (a b : TypeNotation) : Bool := mentions a b.name

/-- Specification: the name ends in `[]` or `[p]`. -/
def HasArraySuffix (s : Str) : Prop := "[]".toList <:+ s ∨ "[p]".toList <:+ s

instance (s : Str) : Decidable (HasArraySuffix s) := by unfold HasArraySuffix; infer_instance

/-- The eight primitive type names of a schema. -/
def primNames : List Str :=
  ["string", "long", "boolean", "bool", "float", "int", "double", "binary"].map String.toList

/-- The name of a list, map or array type. -/
def ContainerName (s : Str) : Prop :=
  HasArraySuffix s ∨ "java.util.List".toList <+: s ∨ "java.util.Map".toList <+: s

instance (s : Str) : Decidable (ContainerName s) := by unfold ContainerName; infer_instance

/-- How a field description is to be classified; `none` is an error. -/
def fieldKind (type : Str) (requires : List Str) : Option FieldKind :=
  if type ∈ primNames then some .primitive
  else if HasArraySuffix type then some .array
  else if type = "*".toList then
    match requires with
    | [] => some .custom
    | r :: _ => if ContainerName r then some .restricted else none
  else some .composite

/-- What a field of a class says it is: the text of `fieldType ()` and the value of `AMQPType ()`. -/
def fieldReports : FieldKind → Str × AMQPFieldType
  | .primitive => ("primitive".toList, .primitive_t)
  | .array => ("array".toList, .restricted_t)
  | .custom => ("custom".toList, .custom_t)
  | .restricted => ("restricted".toList, .restricted_t)
  | .composite => ("composite".toList, .composite_t)

end Corda.Spec
