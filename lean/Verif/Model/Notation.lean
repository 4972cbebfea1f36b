import Verif.Model.Listing

/-
Model of the printing of a type of which only the common base class is known, and of the elements that consist of one text:
libs/amqp/src/schema/AMQPTypeNotation.cxx, libs/amqp/src/schema/described-types/Choice.cxx and Descriptor.cxx.
-/

namespace Corda

/-- libs/amqp/src/schema/AMQPTypeNotation.cxx:23-36, `operator <<` of `AMQPTypeNotation`. -/
def printNotation : TypeNotation → Str
  | .comp c => printComposite c
  | .restr r => printRestricted r

/-- libs/amqp/src/schema/described-types/Choice.cxx:7-12, `operator <<` of `Choice`. -/
def printChoice (choice : Str) : Str := choice

/-- libs/amqp/src/schema/described-types/Descriptor.cxx:7-12, `operator <<` of `Descriptor`. -/
def printDescriptor (name : Str) : Str := name

end Corda
