import Verif.Model.SchemaTypes
import Verif.Model.Ordering
import Verif.Model.Render

/-
The `operator <<` of the schema classes: what a program sees when it prints a schema, a type or a field.
`std::endl` is a line feed.  The stream is one whose format has not been changed by the caller (no width, decimal).
-/

namespace Corda

/-- OrderedTypeNotations.h:92 -/
def levelWord : Str := "level ".toList
/-- OrderedTypeNotations.h:94 -/
def bulletWord : Str := "    * ".toList

/-- OrderedTypeNotations.h:92-96, one level: its number, its types one per line, and an empty line. -/
def printLevel (idx : Nat) (names : List Str) : Str :=
  levelWord ++ natStr idx ++ ['\n'] ++ names.flatMap (fun n => bulletWord ++ n ++ ['\n']) ++ ['\n']

/-- OrderedTypeNotations.h:91-97, the loop over the levels; `idx` is `idx1` before the increment. -/
def printLevelsFrom : Nat → List (List Str) → Str
  | _, [] => []
  | idx, l :: ls => printLevel (idx + 1) l ++ printLevelsFrom (idx + 1) ls

/-- OrderedTypeNotations.h:84-100, `operator <<` of `OrderedTypeNotations`. -/
def printLevels (levels : List (List TypeNotation)) : Str :=
  printLevelsFrom 0 (levels.map (List.map TypeNotation.name))

/-- AMQPTypeNotation.h:40, Composite.cxx:63-66, Restricted.cxx:174-177: the number of `type()`. -/
def TypeNotation.kindDigit : TypeNotation → Char
  | .comp _ => '0'
  | .restr _ => '1'

/-- Schema.cxx:21-31, `operator <<` of `Schema`; Envelope.cxx:10-17 prints the envelope's schema the same way. -/
def printSchema (types : List (List TypeNotation)) : Str :=
  types.flatMap fun l => l.flatMap fun t => t.name ++ [' ', t.kindDigit, '\n']

/-- Field.cxx:26 -/
def fieldSep : Str := " : ".toList
/-- Field.cxx:27 -/
def fieldOpen : Str := " : [".toList

/-- Field.cxx:20-30, `operator <<` of `Field`. -/
def printField (f : Field) : Str :=
  f.name ++ fieldSep ++ f.type ++ fieldOpen ++ f.requires.flatten ++ [']', '\n']

/-- Composite.cxx:18, Restricted.cxx:27 -/
def nameHead : Str := "name       : ".toList
/-- Composite.cxx:19, Restricted.cxx:28 -/
def labelHead : Str := "label      : ".toList
/-- Composite.cxx:20, Restricted.cxx:29 -/
def descriptorHead : Str := "descriptor : ".toList
/-- Composite.cxx:21 -/
def fieldsHead : Str := "fields     : ".toList
/-- Restricted.cxx:30 -/
def sourceHead : Str := "source     : ".toList
/-- Restricted.cxx:31 -/
def providesHead : Str := "provides   : [".toList
/-- `std::setw (13) << " "`. Composite.cxx:23. -/
def pad13 : Str := "             ".toList
/-- Restricted.cxx:34 -/
def pad14 : Str := "              ".toList

/-- Composite.cxx:15-27, `operator <<` of `Composite`: every field is followed by the padding. -/
def printComposite (c : Composite) : Str :=
  nameHead ++ c.name ++ ['\n'] ++ labelHead ++ c.label ++ ['\n'] ++ descriptorHead ++ c.descriptor ++ ['\n']
    ++ fieldsHead ++ c.fields.flatMap (fun f => printField f ++ pad13)

/-- Restricted.cxx:54 -/
def listWord : Str := "list".toList
/-- Restricted.cxx:58 -/
def mapWord : Str := "map".toList
/-- Restricted.cxx:62 -/
def enumWord : Str := "enum".toList
/-- Restricted.cxx:66 -/
def arrayWord : Str := "array".toList

/-- Restricted.cxx:47-72, `operator <<` of `RestrictedTypes`; the constructors List.cxx:37, Map.cxx:26, Enum.cxx:24,
Array.cxx:62 choose it. -/
def RKind.word : RKind → Str
  | .list _ => listWord
  | .map _ _ => mapWord
  | .enum _ => enumWord
  | .array _ => arrayWord

/-- Restricted.cxx:21-39, `operator <<` of `Restricted`. -/
def printRestricted (r : Restricted) : Str :=
  nameHead ++ r.name ++ ['\n'] ++ labelHead ++ r.label ++ ['\n'] ++ descriptorHead ++ r.descriptor ++ ['\n']
    ++ sourceHead ++ r.kind.word ++ ['\n'] ++ providesHead ++ ['\n']
    ++ r.provides.flatMap (fun p => pad14 ++ p ++ ['\n']) ++ pad13 ++ [']', '\n']

end Corda
