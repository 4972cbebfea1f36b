import Verif.Model.ReadTrace
import Verif.Spec.AnyObject
import Verif.Spec.AnySchemaDump
import Verif.Spec.Trace
import Verif.Spec.InspectSaid

/-
What the library prints while an object is deserialised from any tree.  This is said about trees; there are no cursors here.
-/

namespace Corda.Spec
open Corda Told

/-- A line of the trace. -/
def saying (w : ReadCompiled) (file : RSrc) (line : String) (text : Str) : Told Unit :=
  ⟨.ok (), [remark (w.file file) line.toList text]⟩

/-- What is said at the end as well, unless there was undefined behaviour. -/
def Told.closed {α : Type} (t : Told α) (lines : List Str) : Told α :=
  match t.res with
  | .ub _ => t
  | _ => ⟨t.res, t.out ++ lines⟩

/-- The number in a descriptor; 0 if it is none. -/
def numberIn (n : Option Node) : Nat :=
  match valueOf n with
  | some (.ulong k) => k
  | _ => 0

/-- A datum in brief; or that there is none. -/
def inBrief (n : Option Node) : Str :=
  match n with
  | some m => brief m
  | none => "-1 <UNKNOWN>".toList

/-- How a value is printed. -/
def primReadText (w : ReadCompiled) : Prim → Str
  | .int n => decimal n
  | .long n => decimal n
  | .string s => s
  | .bool true => "1".toList
  | .bool false => "0".toList
  | .float n => w.float n
  | .double n => w.double n
  | .char n => [Char.ofNat (n % 256).toNat]

/-- The line with a value: a `float` is called a `bool`. -/
def primLine (w : ReadCompiled) (v : Prim) : Str :=
  match v with
  | .int _ => remark (w.file .prims) "58".toList ("PrimToSerializer<int>::get - return ".toList ++ primReadText w v)
  | .string _ => remark (w.file .prims) "77".toList ("PrimToSerializer<std::string>::get - return ".toList ++ primReadText w v)
  | .bool _ => remark (w.file .prims) "96".toList ("PrimToSerializer<bool>::get - return ".toList ++ primReadText w v)
  | .float _ => remark (w.file .prims) "115".toList ("PrimToSerializer<bool>::get - return ".toList ++ primReadText w v)
  | .double _ => remark (w.file .prims) "134".toList ("PrimToSerializer<double>::get - return ".toList ++ primReadText w v)
  | .long _ => remark (w.file .prims) "153".toList ("PrimToSerializer<long>::get - return ".toList ++ primReadText w v)
  | .char _ => remark (w.file .prims) "172".toList ("PrimToSerializer<char>::get - return ".toList ++ primReadText w v)

/-- The parts of a list, which is said to be one. -/
def listSaid (w : ReadCompiled) (n : Option Node) : Told (List Node) := do
  let ks ← silent (listParts n)
  saying w .wrapper "299" "YEP! it's a list".toList
  pure ks

/-- The parts of an object: the number in its descriptor is said and what it stands for, and how many parts there are. -/
def partsSaid (w : ReadCompiled) (n : Option Node) : Told (List Node) := do
  saying w .blob "358" "startComposite".toList
  let ks ← silent (describedParts n)
  saying w .blob "362" ("startComposite::".toList ++ elementName (numberIn (nth ks 0)) ++ " ".toList ++ dec (numberIn (nth ks 0)))
  let ls ← listSaid w (nth ks 1)
  saying w .blob "364" ("startComposite:: list sz ".toList ++ dec ls.length)
  pure ls

/-- The payload: its descriptor is shown. -/
def payloadSaid (w : ReadCompiled) (n : Option Node) : Told (Option Node) := do
  saying w .blob "329" "readyPayload".toList
  let ks ← silent (describedParts n)
  let id := numberIn (nth ks 0)
  saying w .blob "336" ("KEY == ".toList ++ dec id)
  let _ ← (if id % 2 ^ 32 = 1 then pure () else saying w .blob "340" ("Strip Key ".toList ++ dec (id % 2 ^ 32) ++ " != 1".toList))
  let ls ← listSaid w (nth ks 1)
  let es ← silent (describedParts (nth ls 0))
  saying w .blob "348" ("readyPayload::".toList ++ inBrief (nth es 0) ++ " ".toList ++ elementName (numberIn (nth es 0)))
  pure (nth ls 0)

mutual

/-- A property read from a node. -/
def valueSaid (w : ReadCompiled) : NProp → Option Node → Told RVal
  | .prim _ t, n => do
    saying w .readers "50" ("read::Primitive::".toList ++ w.primName t)
    saying w .readers "40" "AutoPrim".toList
    saying w .blob "386" "startPrim".toList
    Told.closed (do
        let v ← silent (primAt t n)
        ⟨.ok (.prim v), [primLine w v]⟩)
      [remark (w.file .readers) "45".toList "~AutoPrim".toList]
  | .obj ptr name s, n => do
    saying w .readers "64" ("read::Composite::".toList ++ name)
    saying w .readers "70" "AutoComposite".toList
    let ks ← partsSaid w n
    Told.closed (do
        let _ ← (if ptr then saying w .nonPrim "55" ("read<".toList ++ name ++ ", true>".toList)
          else saying w .nonPrim "35" ("read<".toList ++ name ++ ", is_ptr 0>".toList))
        ⟨.ok (), w.before name⟩
        let v ← classSaid w s ks
        ⟨.ok v, w.after name v⟩)
      [remark (w.file .readers) "75".toList "~AutoComposite".toList, remark (w.file .blob) "375".toList "endComposite".toList]
  | .vector name, n => do
    saying w .readers "64" ("read::Composite::".toList ++ name)
    saying w .readers "70" "AutoComposite".toList
    let ks ← partsSaid w n
    Told.closed (do
        saying w .nonPrim "77" "read".toList
        let _ ← listSaid w (nth ks 0)
        let _ ← listSaid w (nth ks 0)
        saying w .vector "122" "ARSE".toList
        silent (.ub "missing return"))
      [remark (w.file .readers) "75".toList "~AutoComposite".toList, remark (w.file .blob) "375".toList "endComposite".toList]

def classSaid (w : ReadCompiled) : NShape → List Node → Told RVal
  | .mk ps, ks => do
    let vs ← propsSaid w ps ks 0
    pure (.obj vs)

/-- Each from the next part. -/
def propsSaid (w : ReadCompiled) : List NProp → List Node → Nat → Told (List RVal)
  | [], _, _ => pure []
  | p :: ps, ks, i => do
    saying w .factory "93" ("read - ".toList ++ p.name w)
    let v ← valueSaid w p (nth ks i)
    let vs ← propsSaid w ps ks (i + 1)
    pure (v :: vs)

end

/-- An object read from a blob. -/
def objectSaid (w : ReadCompiled) (p : NProp) (n : Option Node) : Told RVal := do
  saying w .factory "109" ("deserialise:-:".toList ++ p.name w)
  let m ← payloadSaid w n
  valueSaid w p m

mutual

/-- The primitives in what was read, in order. -/
def primsIn : RVal → List Prim
  | .prim v => [v]
  | .obj vs => primsInAll vs

def primsInAll : List RVal → List Prim
  | [] => []
  | v :: vs => primsIn v ++ primsInAll vs

end

end Corda.Spec
