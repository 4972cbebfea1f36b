import Verif.Model.Readers

/-
Model of the dump of the payload without the schema: libs/amqp/src/AMQPBlob.cxx:67-265.
-/

namespace Corda

/-! The literals of AMQPBlob.cxx. -/

/-- AMQPBlob.cxx:107 -/
def trueText : Str := "true".toList
/-- AMQPBlob.cxx:107 -/
def falseText : Str := "false".toList
/-- AMQPBlob.cxx:109 -/
def symbolText : Str := "<<SYMBOL>>".toList
/-- AMQPBlob.cxx:127 -/
def emptyListText : Str := "<<<Empty List>>>".toList
/-- AMQPBlob.cxx:165 -/
def emptyMapText : Str := "<<<Empty Map>>>".toList

namespace Prog

/-- AMQPBlob.cxx:89-113, `dumpPrimitive`. -/
def rawPrimitive : Prog Val := do
  let t ← look Cursor.type
  match t with
  | .long => do let n ← look getLong; pure (.single (intStr n))
  | .ulong => do let n ← look getUlong; pure (.single (natStr n))
  | .string => do let s ← getString; pure (.single s)
  | .int => do let n ← look getInt; pure (.single (intStr n))
  | .uint => do let n ← look getUint; pure (.single (natStr n))
  | .float => do let b ← look getFloat; pure (.single (floatStr b))
  | .double => do let b ← look getDouble; pure (.single (doubleStr b))
  | .bool => do let b ← look getBool; pure (.single (if b then trueText else falseText))
  | .symbol => pure (.single symbolText)
  | _ => do let s ← typeToString; pure (.single s)

/-- AMQPBlob.cxx:115-150, `dumpList`.  `rec t` dumps the current node as something of type `t`. -/
def rawList (rec : PnType → Prog Val) : Prog (List Val) := do
  attestList
  autoListEnter (fun _ => do
    let t ← look Cursor.type
    if t = .invalid then pure [.single emptyListText]
    else do
      let elem : Prog Val := do
        let t ← look Cursor.type
        rec t
      let v ← elem
      let vs ← whileNext elem
      pure (v :: vs)) true

/-- AMQPBlob.cxx:178-185 (and 187-194): the type of the current node, a step forward at the end of the full
expression (the destructor of the temporary `auto_next`), and the dump of the node now current as something of that
type. -/
def rawStep (rec : PnType → Prog Val) : Prog Val := do
  let t ← autoNext (look Cursor.type)
  rec t

/-- AMQPBlob.cxx:175-203: one iteration of the loop. -/
def rawPair (rec : PnType → Prog Val) : Prog Val := do
  let k ← rawStep rec
  let v ← rawStep rec
  let _ ← next
  pure (.valuePair k v)

/-- AMQPBlob.cxx:153-207, `dumpMap`. -/
def rawMap (rec : PnType → Prog Val) : Prog (List Val) := do
  isMapP
  autoMapEnter (fun n => do
    let t ← look Cursor.type
    if t = .invalid then pure [.single emptyMapText]
    else times (rawPair rec) ((n + 1) / 2)) true

/-- AMQPBlob.cxx:210-229, `dumpDescribed`. -/
def rawDescribed (rec : PnType → Prog Val) : Prog Val :=
  autoEnter (do
    let fp ← Prog.readString
    let t ← look Cursor.type
    if t = .list then do
      let vs ← rawList rec
      pure (.pairList fp vs)
    else if t = .map then do
      let vs ← rawMap rec
      pure (.pairList fp vs)
    else throw "Described data must be either a list or map")

/-- AMQPBlob.cxx:138-146, 180-185: the dump of the current node as something of the given type.  `fuel` bounds the
nesting; the height of the tree always suffices. -/
def rawAs : Nat → PnType → Prog Val
  | 0, _ => ub "fuel"
  | fuel + 1, t =>
    match t with
    | .list => do
      let vs ← rawList (rawAs fuel)
      pure (.singleList vs)
    | .map => do
      let vs ← rawMap (rawAs fuel)
      pure (.singleList vs)
    | .described => rawDescribed (rawAs fuel)
    | _ => rawPrimitive

/-- AMQPBlob.cxx:239-265, `dumpData`.  `rtn` is null if the data is not described. -/
def dumpData : Prog Str := fun c =>
  (do
    let d ← isDescribed
    if d then do
      attestDescribed
      autoEnter (do
        let key ← readUint64
        if stripCorda key = ENVELOPE then pure () else ub "assert")
      let v ← autoEnter (do
        attestList
        autoListEnter (fun _ => do
          attestDescribed
          rawDescribed (rawAs c.fuel)) true) true
      pure v.dump
    else ub "null value" : Prog Str) c

end Prog

end Corda
