import Verif.Model.Proton

/-
The words for the types of AMQP values.
-/

namespace Corda.Spec
open Corda

def wordUnsigned : Str := "unsigned ".toList
def wordDecimal : Str := "decimal-".toList
def wordByte : Str := "byte".toList
def wordShort : Str := "short".toList
def wordInt : Str := "int".toList
def wordLong : Str := "long".toList

/-- The word for a type: AMQP's own, save that unsigned integers are named after their signed counterparts, the
decimals have a hyphen and the truth values are the C++ ones. -/
def typeWord : PnType → Str
  | .byte => wordByte
  | .short => wordShort
  | .int => wordInt
  | .long => wordLong
  | .ubyte => wordUnsigned ++ wordByte
  | .ushort => wordUnsigned ++ wordShort
  | .uint => wordUnsigned ++ wordInt
  | .ulong => wordUnsigned ++ wordLong
  | .decimal32 => wordDecimal ++ "32".toList
  | .decimal64 => wordDecimal ++ "64".toList
  | .decimal128 => wordDecimal ++ "128".toList
  | .float => "float".toList
  | .double => "double".toList
  | .bool => "bool".toList
  | .char => "char".toList
  | .timestamp => "timestamp".toList
  | .uuid => "uuid".toList
  | .binary => "binary".toList
  | .string => "string".toList
  | .symbol => "symbol".toList
  | .null => "null".toList
  | .list => "list".toList
  | .map => "map".toList
  | .array => "array".toList
  | .described => "described".toList
  | .invalid => "invalid".toList

/-- The word for what a value is, from the value itself. -/
def valueWord : Atom → Str
  | .byte _ => wordByte
  | .short _ => wordShort
  | .int _ => wordInt
  | .long _ => wordLong
  | .ubyte _ => wordUnsigned ++ wordByte
  | .ushort _ => wordUnsigned ++ wordShort
  | .uint _ => wordUnsigned ++ wordInt
  | .ulong _ => wordUnsigned ++ wordLong
  | .decimal32 _ => wordDecimal ++ "32".toList
  | .decimal64 _ => wordDecimal ++ "64".toList
  | .decimal128 _ => wordDecimal ++ "128".toList
  | .float _ => "float".toList
  | .double _ => "double".toList
  | .bool _ => "bool".toList
  | .char _ => "char".toList
  | .timestamp _ => "timestamp".toList
  | .uuid _ => "uuid".toList
  | .binary _ => "binary".toList
  | .string _ => "string".toList
  | .symbol _ => "symbol".toList
  | .null => "null".toList
  | .list => "list".toList
  | .map => "map".toList
  | .array => "array".toList
  | .described => "described".toList

/-- AMQP 1.0, part 1, 1.1: a primitive type is a scalar one, a list, a map or an array; scalar are all the types of
single values, among them null and points in time. -/
def Scalar (t : PnType) : Prop := t ∉ [PnType.list, .map, .array, .described, .invalid]

/-- The values the code calls primitive: single values, without null and points in time. -/
def singleValue : Atom → Bool
  | .list | .map | .array | .described | .null | .timestamp _ => false
  | _ => true

instance (t : PnType) : Decidable (Scalar t) := by unfold Scalar; infer_instance

end Corda.Spec
