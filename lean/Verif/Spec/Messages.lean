import Verif.Model.Messages
import Verif.Spec.Number

/-
What the message of a failed check is to say: what was expected, what is there, and where in the program.
-/

namespace Corda.Spec
open Corda

/-- The checks that say all of it, with what they expect in words. -/
def complete : List (Check × String × PnType) :=
  [(.described, "Expected a Described type", .described), (.int, "Expected an Integer type", .int), (.binary, "Expected a binary type", .binary),
   (.bool, "Expected a boolean type", .bool), (.float, "Expected a float type", .float), (.long, "Expected a long type", .long),
   (.char, "Expected a char type", .char), (.double, "Expected a double type", .double), (.list, "Expected a List", .list), (.map, "Expected a Map", .map)]

/-- The names of the AMQP types in messages. -/
def typeWords : PnType → String
  | .null => "null" | .bool => "bool" | .ubyte => "unsigned byte" | .byte => "byte" | .ushort => "unsigned short" | .short => "short"
  | .uint => "unsigned int" | .int => "int" | .char => "char" | .ulong => "unsigned long" | .long => "long" | .timestamp => "timestamp"
  | .float => "float" | .double => "double" | .decimal32 => "decimal-32" | .decimal64 => "decimal-64" | .decimal128 => "decimal-128" | .uuid => "uuid"
  | .binary => "binary" | .string => "string" | .symbol => "symbol" | .described => "described" | .array => "array" | .list => "list" | .map => "map"
  | .invalid => "invalid"

/-- The message tells what is there: from the same place, two messages are the same only if what is there is of the same type. -/
def TellsType (k : Check) : Prop :=
  ∀ file line c c' m, k.message file line c = some m → k.message file line c' = some m → c.type = c'.type

/-- The message is the same whatever is there. -/
def TellsNothing (k : Check) : Prop :=
  ∀ file line c c' m m', k.message file line c = some m → k.message file line c' = some m' → m = m'

end Corda.Spec
