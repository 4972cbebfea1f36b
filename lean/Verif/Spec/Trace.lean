import Verif.Spec.AnyData

/-
What is printed while the data is dumped.  This is said about trees; there are no cursors here.
-/

namespace Corda.Spec
open Corda

/-- An outcome, and what is printed on the way to it. -/
structure Told (α : Type) where
  res : Res α
  out : List Str

namespace Told

def bind {α β : Type} (r : Told α) (k : α → Told β) : Told β :=
  match r with
  | ⟨.ok a, o⟩ => ⟨(k a).res, o ++ (k a).out⟩
  | ⟨.throw m, o⟩ => ⟨.throw m, o⟩
  | ⟨.ub w, o⟩ => ⟨.ub w, o⟩

instance : Monad Told where
  pure a := ⟨.ok a, []⟩
  bind := bind

/-- Without a word. -/
def silent {α : Type} (r : Res α) : Told α := ⟨r, []⟩

/-- A line. -/
def line (s : Str) : Told Unit := ⟨.ok (), [s ++ "\n".toList]⟩

/-- One after the other, up to the first that fails. -/
def all {α : Type} : List (Told α) → Told (List α)
  | [] => pure []
  | r :: rs => do
    let a ← r
    let as ← all rs
    pure (a :: as)

end Told
open Told

/-- The names of the two source files that print, as the compiler saw them. -/
structure Sources where
  blob : Str
  wrapper : Str

/-- How the types are called in the trace. -/
def typeLabel : PnType → Str
  | .null => "PN_NULL 1".toList
  | .bool => "PN_BOOL 2".toList
  | .ubyte => "PN_UBYTE 3".toList
  | .byte => "PN_BYTE 4".toList
  | .ushort => "PN_USHORT 5".toList
  | .short => "PN_SHORT 6".toList
  | .uint => "PN_UINT 7".toList
  | .int => "PN_INT 8".toList
  | .char => "PN_CHAR 9".toList
  | .ulong => "PN_ULONG 10".toList
  | .long => "PN_LONG 11".toList
  | .timestamp => "PN_TIMESTAMP 12".toList
  | .float => "PN_FLOAT 13".toList
  | .double => "PN_DOUBLE 14".toList
  | .decimal32 => "PN_DECIMAL32 15".toList
  | .decimal64 => "PN_DECIMAL64 16".toList
  | .decimal128 => "PN_DECIMAL128 17".toList
  | .uuid => "PN_UUID 18".toList
  | .binary => "PN_BINARY 19".toList
  | .string => "PN_STRING 20".toList
  | .symbol => "PN_SYMBOL 21".toList
  | .described => "PN_DESCRIBED 22".toList
  | .array => "PN_ARRAY 23".toList
  | .list => "PN_LIST 24".toList
  | .map => "PN_MAP 25".toList
  | .invalid => "<UNKNOWN> -1".toList

/-! The lines of the trace. -/

def listLine (s : Sources) : Str := "[".toList ++ s.wrapper ++ "::299] YEP! it's a list".toList
def mapLine (s : Sources) : Str := "[".toList ++ s.blob ++ "::170] MAP IS NOT EMPTY".toList
def keyLine (s : Sources) (t : PnType) : Str := "[".toList ++ s.blob ++ "::179]   ".toList ++ typeLabel t
def valueLine (s : Sources) (t : PnType) : Str := "[".toList ++ s.blob ++ "::188]   ".toList ++ typeLabel t
def describedLine (s : Sources) : Str := "[".toList ++ s.blob ++ "::212] dumpDescribed".toList
def stringLine : Str := "STRING".toList
def nameLine (s : Sources) (d : Str) : Str := "[".toList ++ s.blob ++ "::217]   FINGERPRINT: ".toList ++ d

/-- A part as it is shown, depending on what it is taken for, and what is printed meanwhile. -/
abbrev Telling : Type := PnType → Told Str

/-- Part `i`, or the last one, taken for `t`. -/
def tellAt (fs : List Telling) (i : Nat) (t : PnType) : Told Str :=
  match fs[min i (fs.length - 1)]? with
  | some f => f t
  | none => pure []

/-- The entries of a map, as in `slippedTaken`. -/
def slippedTold (s : Sources) (ns : List Node) (fs : List Telling) : Told (List Str) :=
  if ns = [] then pure ["<<<Empty Map>>>".toList]
  else do
    line (mapLine s)
    Told.all ((List.range ((ns.length + 1) / 2)).map fun i => do
      line (keyLine s (typeHere (nth ns (3 * i))))
      let k ← tellAt fs (3 * i + 1) (typeHere (nth ns (3 * i)))
      line (valueLine s (typeHere (nth ns (3 * i + 1))))
      let v ← tellAt fs (3 * i + 2) (typeHere (nth ns (3 * i + 1)))
      pure (colon k v))

mutual

/-- What is shown for a node that is taken for something of type `t`, as in `taken`, and what is printed meanwhile. -/
def told (s : Sources) : Node → Telling
  | .mk a ks, t =>
    if t = .list then
      if a.type = .list then do
        line (listLine s)
        let l ← Told.all (toldAll s ks)
        pure (brackets (elements l))
      else silent (.throw "Expected a List")
    else if t = .map then
      if a.type = .map then do
        let l ← slippedTold s ks (toldParts s ks)
        pure (brackets l)
      else silent (.throw "Expected a Map")
    else if t = .described then do
      line (describedLine s)
      line stringLine
      let d ← silent (textOf (nth ks 0))
      line (nameLine s d)
      if typeHere (nth ks 1) = .list ∨ typeHere (nth ks 1) = .map then do
        let x ← tellAt (toldParts s ks) 1 (typeHere (nth ks 1))
        pure (colon d x)
      else silent (.throw "Described data must be either a list or map")
    else pure (leafText a)

/-- Each taken for what it is. -/
def toldAll (s : Sources) : List Node → List (Told Str)
  | [] => []
  | n :: ns => told s n n.val.type :: toldAll s ns

def toldParts (s : Sources) : List Node → List Telling
  | [] => []
  | n :: ns => told s n :: toldParts s ns

end

/-- As `firstText`. -/
def firstTold (s : Sources) (ps : List Node) : Told Str := do
  let _ ← silent (describedParts (nth ps 0))
  match nth ps 0 with
  | some p => told s p .described
  | none => pure []

/-- What a dump of the data makes of a tree, as in `dataText`, and what is printed meanwhile. -/
def dataTold (s : Sources) (n : Option Node) : Told Str :=
  if typeHere n = .described then
    if numberHere (nth (kidsOf n) 0) % 2 ^ 32 = 1 then do
      let ps ← silent (listParts (nth (kidsOf n) 1))
      line (listLine s)
      firstTold s ps
    else silent (.ub "assert")
  else silent (.ub "null value")

mutual

/-- What is printed while a payload is dumped, if all maps are empty: a line for every list and three for every described value, the third
of which shows its descriptor. -/
def script (s : Sources) : Raw → List Str
  | .leaf _ => []
  | .list es => (listLine s ++ "\n".toList) :: scripts s es
  | .map _ => []
  | .describedList d es =>
    [describedLine s ++ "\n".toList, stringLine ++ "\n".toList, nameLine s d ++ "\n".toList, listLine s ++ "\n".toList] ++ scripts s es
  | .describedMap d _ => [describedLine s ++ "\n".toList, stringLine ++ "\n".toList, nameLine s d ++ "\n".toList]

def scripts (s : Sources) : List Raw → List Str
  | [] => []
  | e :: es => script s e ++ scripts s es

end

mutual

/-- All maps are empty, and the leaves are leaves. -/
def Mapless : Raw → Prop
  | .leaf n => n.val.type ≠ .list ∧ n.val.type ≠ .map ∧ n.val.type ≠ .described
  | .list es => MaplessAll es
  | .map es => es = []
  | .describedList _ es => MaplessAll es
  | .describedMap _ es => es = []

def MaplessAll : List Raw → Prop
  | [] => True
  | e :: es => Mapless e ∧ MaplessAll es

end

mutual

/-- A payload without the values in it. -/
def outline : Raw → Raw
  | .leaf _ => .leaf (.mk .null [])
  | .list es => .list (outlines es)
  | .map es => .map (outlines es)
  | .describedList d es => .describedList d (outlines es)
  | .describedMap d es => .describedMap d (outlines es)

def outlines : List Raw → List Raw
  | [] => []
  | e :: es => outline e :: outlines es

end

end Corda.Spec
