import Verif.Model.Basic

/-
Model of libs/amqp/src/schema/SchemaUtils.cxx, of `Array::isArrayType`/`arrayType`
(libs/amqp/src/schema/restricted-types/Array.cxx), of `RestrictedDescriptor::makePrim`
(libs/amqp/src/schema/descriptors/corda-descriptors/RestrictedDescriptor.cxx) and of `javaTypeName`
(libs/corda-utils/include/types.h): everything that takes type names apart.
-/

namespace Corda

/-- SchemaUtils.cxx:14-23, `boxedToUnboxed`. -/
def boxedToUnboxed : List (Str × Str) :=
  [ ("java.lang.Integer".toList, "int".toList),
    ("java.lang.Boolean".toList, "bool".toList),
    ("java.lang.Byte".toList, "char".toList),
    ("java.lang.Short".toList, "short".toList),
    ("java.lang.Character".toList, "char".toList),
    ("java.lang.Float".toList, "float".toList),
    ("java.lang.Long".toList, "long".toList),
    ("java.lang.Double".toList, "double".toList) ]

/-- SchemaUtils.cxx:45-51, `unbox`. -/
def unbox (type_ : Str) : Str :=
  match boxedToUnboxed.lookup type_ with
  | none => type_
  | some u => u

/-- SchemaUtils.cxx:55-64, `listType`. -/
def listType (list_ : Str) : Res (Str × Str) := do
  let pos := findChar '<' list_
  let a ← substr list_ 0 pos
  let b ← substr list_ (addW pos 1) (subW (subW list_.length pos) 2)
  pure (unbox a, unbox b)

/-- SchemaUtils.cxx:73-82, the loop of `mapType`: how far `idx` moves from the start of `s` before it
stops at a comma at nesting level zero, or at the end.  (`nesting` is a C++ `int`; its overflow at 2^31
nested brackets is not modelled.) -/
def scanComma (nesting : Int) : Str → Nat
  | [] => 0
  | c :: cs =>
    if c = '<' then 1 + scanComma (nesting + 1) cs
    else if c = '>' then 1 + scanComma (nesting - 1) cs
    else if c = ',' ∧ nesting = 0 then 0
    else 1 + scanComma nesting cs

/-- `s.erase(0, s.find_first_not_of(' '))` (SchemaUtils.cxx:86, 88). -/
def trimLeft (s : Str) : Str := s.dropWhile (· == ' ')

/-- SchemaUtils.cxx:68-91, `mapType`. -/
def mapType (map_ : Str) : Res (Str × Str × Str) := do
  let pos := findChar '<' map_
  let start := addW pos 1
  let idx := start + scanComma 0 (map_.drop start)
  let map ← substr map_ 0 pos
  let of_ ← substr map_ (addW pos 1) (subW (subW idx pos) 1)
  let of_ := trimLeft of_
  let to_ ← substr map_ (addW idx 1) (subW map_.length (addW idx 2))
  let to_ := trimLeft to_
  pure (map, unbox of_, unbox to_)

/-- SchemaUtils.cxx:139-143, `isList`: `find` returns 0 iff the string starts with the pattern. -/
def isList (type_ : Str) : Bool := "java.util.List".toList.isPrefixOf type_

/-- SchemaUtils.cxx:147-151, `isMap`. -/
def isMap (type_ : Str) : Bool := "java.util.Map".toList.isPrefixOf type_

/-- `std::equal (s.rbegin(), s.rbegin() + pat.size(), pat.rbegin(), pat.rend())`, both strings given reversed. Comparison stops at the first
difference; going past the beginning of `s` reads outside it. SchemaUtils.cxx:129-135. -/
def equalFromEnd : Str → Str → Res Bool
  | _, [] => .ok true
  | [], _ :: _ => .ub "read before the start of the string"
  | c :: cs, p :: ps => if c = p then equalFromEnd cs ps else .ok false

/-- SchemaUtils.cxx:129-135, `isArray`; the same expression is `Array::isArrayType`, Array.cxx:33-42. -/
def isArray (type_ : Str) : Res Bool := do
  let a ← equalFromEnd type_.reverse "[]".toList.reverse
  if a then pure true else equalFromEnd type_.reverse "[p]".toList.reverse

/-- SchemaUtils.cxx:114-121, `isContainer`. -/
def isContainer (type_ : Str) : Res Bool := do
  let a ← isArray type_
  pure (a || isList type_ || isMap type_)

/-- SchemaUtils.cxx:95-110, `nestedGenericTypes`.  The C++ recursion has no explicit bound; `fuel` bounds it
here and `nestedGenericTypes` supplies enough (see `nested_fuel_enough`). -/
def nestedGo : Nat → Str → Res (List Str)
  | 0, _ => .ub "fuel"
  | n + 1, type_ =>
    if isList type_ then do
      let v ← listType type_
      let r ← nestedGo n v.2
      pure (type_ :: r)
    else if isMap type_ then do
      let v ← mapType type_
      let r1 ← nestedGo n v.2.1
      let r2 ← nestedGo n v.2.2
      pure (type_ :: (r1 ++ r2))
    else pure [type_]

/-- SchemaUtils.cxx:95-110 -/
def nestedGenericTypes (type_ : Str) : Res (List Str) := nestedGo (type_.length + 1) type_

/-- restricted-types/Array.cxx:23-28, `arrayType`: the part of the name before the first `[`
(`find` = npos keeps everything). -/
def arrayType (array_ : Str) : Str := array_.takeWhile (· != '[')

/-- The body of every pattern in RestrictedDescriptor.cxx:19-52 as a regular expression: the two dots match
any character except a line terminator (ECMAScript `.`). -/
inductive PatChar where
  | lit (c : Char)
  | any
  deriving DecidableEq, Repr

/-- A string used as a `std::regex` that has no special characters but `.`. RestrictedDescriptor.cxx:19-52. -/
def toPat (s : Str) : List PatChar := s.map (fun c => if c = '.' then .any else .lit c)

/-- One regex atom against one character. Not in /repo (standard library); RestrictedDescriptor.cxx:64. -/
def PatChar.matches : PatChar → Char → Bool
  | .lit c, d => c == d
  | .any, d => d != '\n' && d != '\r'

/-- The pattern matches at the start of the string. Not in /repo (standard library); RestrictedDescriptor.cxx:64. -/
def matchHere : List PatChar → Str → Bool
  | [], _ => true
  | _ :: _, [] => false
  | p :: ps, c :: cs => p.matches c && matchHere ps cs

/-- `std::regex_replace (s, pat, rep)`: replace every non-overlapping match, left to right. `skip` counts the characters of the current
match still to be dropped. Not in /repo (standard library); called in RestrictedDescriptor.cxx:64. -/
def regexReplace (pat : List PatChar) (rep : Str) : Nat → Str → Str
  | _, [] => []
  | skip + 1, _ :: cs => regexReplace pat rep skip cs
  | 0, c :: cs =>
    if matchHere pat (c :: cs) then rep ++ regexReplace pat rep (pat.length - 1) cs
    else c :: regexReplace pat rep 0 cs

/-- RestrictedDescriptor.cxx:19-52, `regexs` in `std::map` (alphabetical) order. -/
def regexs : List (Str × Str) :=
  [ ("java.lang.Boolean".toList, "bool".toList),
    ("java.lang.Byte".toList, "char".toList),
    ("java.lang.Character".toList, "char".toList),
    ("java.lang.Double".toList, "double".toList),
    ("java.lang.Float".toList, "float".toList),
    ("java.lang.Integer".toList, "int".toList),
    ("java.lang.Long".toList, "long".toList),
    ("java.lang.Short".toList, "short".toList) ]

/-- RestrictedDescriptor.cxx:60-68, `makePrim`. -/
def makePrim (name_ : Str) : Str :=
  regexs.foldl (fun name r => regexReplace (toPat r.1) r.2 0 name) name_

/-- `while ((pos = str.find (find, pos)) != npos) { str.replace (pos, find.length(), rep); pos += step }`
(types.h:128-136) for `find` non-empty: scan left to right; at a match drop it, emit `rep` and go on.  With
`step = rep.length()` (132-136) and also with `rep = ""`, `step = 0` (128-130) the search resumes just behind
the emitted replacement. -/
def replaceAll (find rep : Str) : Nat → Str → Str
  | _, [] => []
  | skip + 1, _ :: cs => replaceAll find rep skip cs
  | 0, c :: cs =>
    if find.isPrefixOf (c :: cs) then rep ++ replaceAll find rep (find.length - 1) cs
    else c :: replaceAll find rep 0 cs

/-- types.h:115, `anon`. -/
def anon : Str := "(anonymous namespace)::".toList

/-- libs/corda-utils/include/types.h:123-140, the part of `javaTypeName` that rewrites the demangled class
name.  Note on the first loop (128-130): `pos` is not advanced, the text behind the removed match is searched
again from the same position; a match there starts at or after `pos`, which is what `replaceAll` does. -/
def javaClassName (demangled : Str) : Str :=
  replaceAll "::".toList ".".toList 0 (replaceAll anon [] 0 demangled)

/-- The C++ types `javaTypeName<T>` distinguishes (types.h:78-106 and the specialisations in
SerializableVector.h:153-158, SerializableMap.h:102-107): vectors, maps, and any other type, given by its
demangled name. -/
inductive CppType where
  | other (demangled : Str)
  | vector (elem : CppType)
  | map (key value : CppType)
  deriving DecidableEq, Repr

/-- types.h:88, the text in front of a vector's element type. -/
def cppListOpen : Str := "java.util.List<".toList
/-- types.h:104, the text in front of a map's key type. -/
def cppMapOpen : Str := "java.util.Map<".toList

/-- types.h:110-141, `javaTypeName<T> ()`, with types.h:78-106 (`fun`). -/
def javaTypeName : CppType → Str
  | .other n => javaClassName n
  | .vector t => cppListOpen ++ javaTypeName t ++ ['>']
  | .map k v => cppMapOpen ++ javaTypeName k ++ [','] ++ javaTypeName v ++ ['>']

/-- SerialiserFactoryInternal.h:34-74, `makePropertyReader`: the reader class chosen for a primitive type. -/
inductive PrimReader where
  | int | long | double | boolean | string | float | binary
  deriving DecidableEq, Repr

/-- SerialiserFactoryInternal.h:34-74 -/
def makePropertyReader (type_ : Str) : Res PrimReader :=
  if type_ = "int".toList then .ok .int
  else if type_ = "long".toList then .ok .long
  else if type_ = "double".toList then .ok .double
  else if type_ = "boolean".toList then .ok .boolean
  else if type_ = "string".toList then .ok .string
  else if type_ = "float".toList then .ok .float
  else if type_ = "binary".toList then .ok .binary
  else .throw "THIS IS BAD"

end Corda
