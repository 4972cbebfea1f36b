import Verif.Model.Proton

/-
Model of libs/proton-wrapper/src/proton_wrapper.cxx: type checks, typed reads and reading-and-advancing.
-/

namespace Corda

/-- proton_wrapper.cxx:25-52, the table `protonToString`, first component. -/
def PnType.str : PnType → String
  | .null => "null" | .bool => "bool" | .ubyte => "unsigned byte" | .byte => "byte"
  | .ushort => "unsigned short" | .short => "short" | .uint => "unsigned int" | .int => "int" | .char => "char"
  | .ulong => "unsigned long" | .long => "long" | .timestamp => "timestamp" | .float => "float"
  | .double => "double" | .decimal32 => "decimal-32" | .decimal64 => "decimal-64"
  | .decimal128 => "decimal-128" | .uuid => "uuid" | .binary => "binary" | .string => "string"
  | .symbol => "symbol" | .described => "described" | .array => "array" | .list => "list" | .map => "map"
  | .invalid => "invalid"

/-- proton_wrapper.cxx:25-52, second component: `PRIMITIVE`. -/
def PnType.primitive : PnType → Bool
  | .null | .timestamp | .described | .array | .list | .map | .invalid => false
  | _ => true

namespace Prog

/-- proton_wrapper.cxx:56-59, `typeToString`. -/
def typeToString : Prog Str := look (fun c => c.type.str.toList)

/-- proton_wrapper.cxx:320-324, `is_primitive`. -/
def isPrimitive : Prog Bool := look (fun c => c.type.primitive)

/-- proton_wrapper.cxx:129-132, `is_described`. -/
def isDescribed : Prog Bool := look (fun c => decide (c.type = .described))

/-- proton_wrapper.cxx:156-159, `is_null`. -/
def isNull : Prog Bool := look (fun c => decide (c.type = .null))

/-- The common shape of the checks: throw unless the current type is `t`. proton_wrapper.cxx:136-316. -/
def attest (t : PnType) (msg : String) : Prog Unit := fun c =>
  if c.type = t then (.ok (), c) else (.throw msg, c)

/-- proton_wrapper.cxx:136-144, `is_ulong`. -/
def isUlong : Prog Unit := attest .ulong "Expected an unsigned long"

/-- proton_wrapper.cxx:163-168, `is_symbol` (the message names the wrong type in the source). -/
def isSymbol : Prog Unit := attest .symbol "Expected an unsigned long"

/-- proton_wrapper.cxx:172-186. -/
def attestDescribed : Prog Unit := attest .described "Expected a Described type"
/-- proton_wrapper.cxx:190-200. -/
def attestInt : Prog Unit := attest .int "Expected an Integer type"
/-- proton_wrapper.cxx:204-214. -/
def attestBinary : Prog Unit := attest .binary "Expected a binary type"
/-- proton_wrapper.cxx:218-228. -/
def attestBool : Prog Unit := attest .bool "Expected a boolean type"
/-- proton_wrapper.cxx:232-242. -/
def attestFloat : Prog Unit := attest .float "Expected a float type"
/-- proton_wrapper.cxx:246-256. -/
def attestLong : Prog Unit := attest .long "Expected a long type"
/-- proton_wrapper.cxx:260-270. -/
def attestChar : Prog Unit := attest .char "Expected a char type"
/-- proton_wrapper.cxx:274-284. -/
def attestDouble : Prog Unit := attest .double "Expected a double type"
/-- proton_wrapper.cxx:288-301. -/
def attestList : Prog Unit := attest .list "Expected a List"
/-- proton_wrapper.cxx:305-316, `is_map`. -/
def isMapP : Prog Unit := attest .map "Expected a Map"

/-- proton_wrapper.cxx:328-340, `attest_is_string`; `allowNull` defaults to false. -/
def attestString (allowNull : Bool := false) : Prog Unit := fun c =>
  if c.type ≠ .string then
    if allowNull && decide (c.type ≠ .null) then (.throw "Expected a String", c) else (.ok (), c)
  else (.ok (), c)

/-! `pn_data_get_*`: the value if the current node has the type, otherwise zero (proton/codec.c). -/

/-- Not in /repo (proton, codec.c); called in proton_wrapper.cxx:88, 519. -/
def getInt : Cursor → Int := fun c => match c.val with | some (.int n) => n | _ => 0
/-- Not in /repo (proton, codec.c); called in proton_wrapper.cxx:549. -/
def getUint : Cursor → Nat := fun c => match c.val with | some (.uint n) => n | _ => 0
/-- Not in /repo (proton, codec.c); called in proton_wrapper.cxx:534. -/
def getLong : Cursor → Int := fun c => match c.val with | some (.long n) => n | _ => 0
/-- Not in /repo (proton, codec.c); called in proton_wrapper.cxx:71, 564. -/
def getUlong : Cursor → Nat := fun c => match c.val with | some (.ulong n) => n | _ => 0
/-- Not in /repo (proton, codec.c); called in PrimToSerializer.h:171. -/
def getChar : Cursor → Nat := fun c => match c.val with | some (.char n) => n | _ => 0
/-- Not in /repo (proton, codec.c); called in proton_wrapper.cxx:93, 380, 608. -/
def getBool : Cursor → Bool := fun c => match c.val with | some (.bool b) => b | _ => false
/-- Not in /repo (proton, codec.c); called in PrimToSerializer.h:114. -/
def getFloat : Cursor → Nat := fun c => match c.val with | some (.float b) => b | _ => 0
/-- Not in /repo (proton, codec.c); called in proton_wrapper.cxx:623. -/
def getDouble : Cursor → Nat := fun c => match c.val with | some (.double b) => b | _ => 0
/-- `pn_data_get_binary`; the null `start` of a mismatch has size 0 and is only copied from with size 0. Not in /repo (proton, codec.c);
called in proton_wrapper.cxx:639, 660. -/
def getBinary : Cursor → Str := fun c => match c.val with | some (.binary s) => s | _ => []
/-- `pn_data_get_symbol`, likewise. Not in /repo (proton, codec.c); called in proton_wrapper.cxx:98, 364, 585. -/
def getSymbolRaw : Cursor → Str := fun c => match c.val with | some (.symbol s) => s | _ => []

/-- proton_wrapper.cxx:344-356, `get_string`. -/
def getString (allowNull : Bool := false) : Prog Str := fun c =>
  match c.val with
  | some (.string s) => (.ok s, c)
  | some .null => if allowNull then (.ok [], c) else (.throw "Expected a String", c)
  | _ => (.throw "Expected a String", c)

/-- proton_wrapper.cxx:360-366, `get_symbol<std::string>`. -/
def getSymbol : Prog Str := do
  isSymbol
  look getSymbolRaw

/-- proton_wrapper.cxx:377-383, `get_boolean`. -/
def getBoolean : Prog Bool := fun c =>
  match c.val with
  | some (.bool b) => (.ok b, c)
  | _ => (.throw "Expected a boolean", c)

/-! `readAndNext<T>`, proton_wrapper.cxx:507-662. -/

/-- proton_wrapper.cxx:509-520 -/
def readInt32 : Prog Int := autoNext (look getInt)
/-- proton_wrapper.cxx:524-535 -/
def readInt64 : Prog Int := autoNext (look getLong)
/-- proton_wrapper.cxx:539-550 -/
def readUint32 : Prog Nat := autoNext (look getUint)
/-- proton_wrapper.cxx:554-565 -/
def readUint64 : Prog Nat := autoNext (look getUlong)
/-- proton_wrapper.cxx:598-609 -/
def readBool : Prog Bool := autoNext (look getBool)
/-- proton_wrapper.cxx:613-624 -/
def readDouble : Prog Nat := autoNext (look getDouble)
/-- The `std::pair<size_t, char *>` form. proton_wrapper.cxx:649-666. -/
def readBinary : Prog Str := autoNext (look getBinary)

/-- proton_wrapper.cxx:569-594. -/
def readString (tolerate : Bool := false) : Prog Str := autoNext (fun c =>
  match c.val with
  | some (.string s) => (.ok s, c)
  | some (.symbol s) => (.ok s, c)
  | some .null => if tolerate then (.ok [], c) else (.throw "Expected a String but found", c)
  | _ => (.throw "Expected a String but found", c))

end Prog

end Corda
