import Verif.Model.SchemaDump

/-
Model of what the checks in libs/proton-wrapper/src/proton_wrapper.cxx say when they throw: all of the text, of which Model/Wrapper has the beginning.
-/

namespace Corda

/-- The functions of the wrapper that throw if something else is there than they expect. proton_wrapper.cxx:136-392, 569-594. -/
inductive Check where
  | ulong | symbol | described | int | binary | bool | float | long | char | double | list | map
  | string (allowNull : Bool)
  | getString (allowNull : Bool)
  | getBoolean
  | getInt
  | readString (tolerate : Bool)
  deriving DecidableEq

/-- What ten of them say: proton_wrapper.cxx:175-178, 193-196, 207-210, 221-224, 235-238, 249-252, 263-266, 277-280, 291-295, 308-312. -/
def gotText (expected : Str) (t : PnType) (file : Str) (line : Int) : Str :=
  expected ++ ", got ".toList ++ t.str.toList ++ ", ".toList ++ file ++ "::".toList ++ intStr line ++ nl

/-- The text of the exception, if there is one; `file` and `line` are those the caller passes. proton_wrapper.cxx:136-392, 569-594. -/
def Check.message (file : Str) (line : Int) (c : Cursor) : Check → Option Str
  | .ulong => if c.type ≠ .ulong then some ("Expected an unsigned long but received ".toList ++ c.type.name) else none   -- 136-144
  | .symbol => if c.type ≠ .symbol then some "Expected an unsigned long".toList else none                              -- 163-168
  | .described => if c.type ≠ .described then some (gotText "Expected a Described type".toList c.type file line) else none -- 174-185
  | .int => if c.type ≠ .int then some (gotText "Expected an Integer type".toList c.type file line) else none          -- 192-199
  | .binary => if c.type ≠ .binary then some (gotText "Expected a binary type".toList c.type file line) else none      -- 206-213
  | .bool => if c.type ≠ .bool then some (gotText "Expected a boolean type".toList c.type file line) else none         -- 220-227
  | .float => if c.type ≠ .float then some (gotText "Expected a float type".toList c.type file line) else none         -- 234-241
  | .long => if c.type ≠ .long then some (gotText "Expected a long type".toList c.type file line) else none            -- 248-255
  | .char => if c.type ≠ .char then some (gotText "Expected a char type".toList c.type file line) else none            -- 262-269
  | .double => if c.type ≠ .double then some (gotText "Expected a double type".toList c.type file line) else none      -- 276-283
  | .list => if c.type ≠ .list then some (gotText "Expected a List".toList c.type file line) else none                 -- 290-300
  | .map => if c.type ≠ .map then some (gotText "Expected a Map".toList c.type file line) else none                    -- 307-315
  | .string allowNull =>                                                                                               -- 330-339
    if c.type ≠ .string then
      if allowNull && decide (c.type ≠ .null) then
        some ("Expected a String: attest_is_string, loc ".toList ++ file ++ "::".toList ++ intStr line ++ nl)
      else none
    else none
  | .getString allowNull =>                                                                                            -- 345-355
    if c.type = .string then none
    else if allowNull && decide (c.type = .null) then none
    else some ("Expected a String: get_string".toList ++ nl)
  | .getBoolean => if c.type = .bool then none else some "Expected a boolean".toList                                   -- 378-382
  | .getInt => if c.type = .int then none else some "Expected an Integer".toList                                       -- 388-392
  | .readString tolerate =>                                                                                            -- 581-593
    if c.type = .string then none
    else if c.type = .symbol then none
    else if tolerate && decide (c.type = .null) then none
    else some ("Expected a String but found [".toList ++ c.shown ++ "] :: ".toList ++ file ++ "::".toList ++ intStr line)

/-- What `attest_is_described` writes to standard error besides, libs/proton-wrapper/src/proton_wrapper.cxx:180-182, with the colours of
libs/corda-utils/include/colours.h:6-7. -/
def describedErr (c : Cursor) : Str :=
  if c.type = .int then
    "attest_is_described::".toList ++ '\x1b' :: "[31m".toList ++ "not desc is int ".toList ++ '\x1b' :: "[0m".toList ++ intStr (Prog.getInt c) ++ nl
  else []

namespace Prog

/-- proton_wrapper.cxx:387-393, `get_int`; not used. -/
def getIntChecked : Prog Int := fun c =>
  match c.val with
  | some (.int n) => (.ok n, c)
  | _ => (.throw "Expected an Integer", c)

/-- Whether the check throws, by the functions of Model/Wrapper. proton_wrapper.cxx:136-392, 569-594. -/
def runCheck : Check → Prog Unit
  | .ulong => isUlong
  | .symbol => isSymbol
  | .described => attestDescribed
  | .int => attestInt
  | .binary => attestBinary
  | .bool => attestBool
  | .float => attestFloat
  | .long => attestLong
  | .char => attestChar
  | .double => attestDouble
  | .list => attestList
  | .map => isMapP
  | .string b => attestString b
  | .getString b => do let _ ← getString b; pure ()
  | .getBoolean => do let _ ← getBoolean; pure ()
  | .getInt => do let _ ← getIntChecked; pure ()
  | .readString b => do let _ ← readString b; pure ()

end Prog

end Corda
