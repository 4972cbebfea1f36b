import Verif.Model.Tools

/-
Model of what the data dumper prints on standard output: the trace of the library (`DBG`, libs/corda-utils/include/debug.h:18, switched
on unconditionally in line 5) and the dump.  The functions of AMQPBlob.cxx:115-265 once more, with the prints in their places.
-/

namespace Corda

/-- What `__FILE__` is in the two files that print. It depends on how the compiler is called. AMQPBlob.cxx, proton_wrapper.cxx. -/
structure Files where
  blob : Str
  wrapper : Str
  deriving DecidableEq, Repr

/-- A program that also prints: `Prog` with what has been printed, piece by piece.  What was printed before an exception stays printed
(each piece ends in `std::endl`, which flushes).  Framework of the model: the functions taking a `pn_data_t *` in AMQPBlob.cxx:115-265. -/
abbrev TProg (α : Type) : Type := Cursor → (Res α × Cursor) × List Str

namespace TProg

/-- Sequencing; an exception or undefined behaviour stops the rest. Framework of the model: no code of its own in /repo. -/
def bind {α β : Type} (p : TProg α) (f : α → TProg β) : TProg β := fun c =>
  match p c with
  | ((.ok a, c'), out) => ((f a c').1, out ++ (f a c').2)
  | ((.throw m, c'), out) => ((.throw m, c'), out)
  | ((.ub w, c'), out) => ((.ub w, c'), out)

instance : Monad TProg where
  pure a := fun c => ((.ok a, c), [])
  bind := bind

/-- A program that prints nothing. Framework of the model: no code of its own in /repo. -/
def quiet {α : Type} (p : Prog α) : TProg α := fun c => (p c, [])

/-- Print a line. `std::cout << ... << std::endl`, proton_wrapper.cxx:578. -/
def print (s : Str) : TProg Unit := fun c => ((.ok (), c), [s ++ nl])

/-- `DBG (text << std::endl)` in line `line` of `file`: libs/corda-utils/include/debug.h:18. -/
def dbg (file : Str) (line : Nat) (text : Str) : TProg Unit :=
  print ("[".toList ++ file ++ "::".toList ++ natStr line ++ "] ".toList ++ text)

/-- As `Prog.scope`: proton_wrapper.cxx:402-415, 445-461, 477-493. -/
def scope {α : Type} (ctor : Cursor → Cursor) (body : TProg α) : TProg α := fun c =>
  let r := body (ctor c)
  ((r.1.1, r.1.2.exit), r.2)

/-- As `Prog.autoEnter`: proton_wrapper.cxx:402-415. -/
def autoEnter {α : Type} (body : TProg α) (next_ : Bool := false) : TProg α :=
  scope (fun c => let c1 := c.enter.next.2; if next_ then c1.next.2 else c1) body

/-- As `Prog.autoListEnter`, with `next_`: proton_wrapper.cxx:445-461. -/
def autoListEnter {α : Type} (body : Nat → TProg α) : TProg α := fun c =>
  scope (fun c => c.enter.next.2) (body c.getList) c

/-- As `Prog.autoMapEnter`, with `next_`: proton_wrapper.cxx:477-493. -/
def autoMapEnter {α : Type} (body : Nat → TProg α) : TProg α := fun c =>
  scope (fun c => c.enter.next.2) (body c.getMap) c

/-- As `Prog.whileNextGo`: AMQPBlob.cxx:135-147. -/
def whileNextGo {α : Type} (body : TProg α) : Nat → TProg (List α)
  | 0 => quiet (Prog.ub "fuel")
  | fuel + 1 => do
    if ← quiet Prog.next then do
      let a ← body
      let as ← whileNextGo body fuel
      pure (a :: as)
    else pure []

/-- As `Prog.whileNext`: AMQPBlob.cxx:135-147. -/
def whileNext {α : Type} (body : TProg α) : TProg (List α) := fun c =>
  whileNextGo body (c.rest.length + 1) c

/-- As `Prog.times`: the loop of AMQPBlob.cxx:175-203. -/
def times {α : Type} (p : TProg α) : Nat → TProg (List α)
  | 0 => pure []
  | n + 1 => do
    let a ← p
    let as ← times p n
    pure (a :: as)

/-- proton_wrapper.cxx:286-301, `attest_is_list`: when it is one, line 299 says so. -/
def attestList (f : Files) : TProg Unit := do
  quiet Prog.attestList
  dbg f.wrapper 299 "YEP! it's a list".toList

/-- proton_wrapper.cxx:569-594, `readAndNext<std::string>`: line 578 prints before anything is looked at. -/
def readString : TProg Str := do
  print "STRING".toList
  quiet Prog.readString

/-- `pn_type_name`. Not in /repo (proton, codec.c); called in AMQPBlob.cxx:179, 188. -/
def pnTypeName : PnType → Str
  | .null => "PN_NULL".toList
  | .bool => "PN_BOOL".toList
  | .ubyte => "PN_UBYTE".toList
  | .byte => "PN_BYTE".toList
  | .ushort => "PN_USHORT".toList
  | .short => "PN_SHORT".toList
  | .uint => "PN_UINT".toList
  | .int => "PN_INT".toList
  | .char => "PN_CHAR".toList
  | .ulong => "PN_ULONG".toList
  | .long => "PN_LONG".toList
  | .timestamp => "PN_TIMESTAMP".toList
  | .float => "PN_FLOAT".toList
  | .double => "PN_DOUBLE".toList
  | .decimal32 => "PN_DECIMAL32".toList
  | .decimal64 => "PN_DECIMAL64".toList
  | .decimal128 => "PN_DECIMAL128".toList
  | .uuid => "PN_UUID".toList
  | .binary => "PN_BINARY".toList
  | .string => "PN_STRING".toList
  | .symbol => "PN_SYMBOL".toList
  | .described => "PN_DESCRIBED".toList
  | .array => "PN_ARRAY".toList
  | .list => "PN_LIST".toList
  | .map => "PN_MAP".toList
  | .invalid => "<UNKNOWN>".toList

/-- The numbers of the enumerators of `pn_type_t`. Not in /repo (proton, codec.h); printed in AMQPBlob.cxx:179, 188. -/
def pnTypeNumber : PnType → Int
  | .null => 1
  | .bool => 2
  | .ubyte => 3
  | .byte => 4
  | .ushort => 5
  | .short => 6
  | .uint => 7
  | .int => 8
  | .char => 9
  | .ulong => 10
  | .long => 11
  | .timestamp => 12
  | .float => 13
  | .double => 14
  | .decimal32 => 15
  | .decimal64 => 16
  | .decimal128 => 17
  | .uuid => 18
  | .binary => 19
  | .string => 20
  | .symbol => 21
  | .described => 22
  | .array => 23
  | .list => 24
  | .map => 25
  | .invalid => -1

/-- AMQPBlob.cxx:115-150, `dumpList`. -/
def rawList (f : Files) (rec : PnType → TProg Val) : TProg (List Val) := do
  attestList f
  autoListEnter (fun _ => do
    let t ← quiet (Prog.look Cursor.type)
    if t = .invalid then pure [.single emptyListText]
    else do
      let elem : TProg Val := do
        let t ← quiet (Prog.look Cursor.type)
        rec t
      let v ← elem
      let vs ← whileNext elem
      pure (v :: vs))

/-- AMQPBlob.cxx:178-185 and 187-194; `line` is the line of the `DBG`, 179 or 188. -/
def rawStep (f : Files) (line : Nat) (rec : PnType → TProg Val) : TProg Val := do
  let t ← quiet (Prog.autoNext (Prog.look Cursor.type))
  dbg f.blob line ("  ".toList ++ pnTypeName t ++ " ".toList ++ intStr (pnTypeNumber t))
  rec t

/-- AMQPBlob.cxx:175-203: one iteration of the loop. -/
def rawPair (f : Files) (rec : PnType → TProg Val) : TProg Val := do
  let k ← rawStep f 179 rec
  let v ← rawStep f 188 rec
  let _ ← quiet Prog.next
  pure (.valuePair k v)

/-- AMQPBlob.cxx:153-207, `dumpMap`. -/
def rawMap (f : Files) (rec : PnType → TProg Val) : TProg (List Val) := do
  quiet Prog.isMapP
  autoMapEnter (fun n => do
    let t ← quiet (Prog.look Cursor.type)
    if t = .invalid then pure [.single emptyMapText]
    else do
      dbg f.blob 170 "MAP IS NOT EMPTY".toList
      times (rawPair f rec) ((n + 1) / 2))

/-- AMQPBlob.cxx:210-229, `dumpDescribed`. -/
def rawDescribed (f : Files) (rec : PnType → TProg Val) : TProg Val := do
  dbg f.blob 212 "dumpDescribed".toList
  autoEnter (do
    let fp ← readString
    dbg f.blob 217 ("  FINGERPRINT: ".toList ++ fp)
    let t ← quiet (Prog.look Cursor.type)
    if t = .list then do
      let vs ← rawList f rec
      pure (.pairList fp vs)
    else if t = .map then do
      let vs ← rawMap f rec
      pure (.pairList fp vs)
    else quiet (Prog.throw "Described data must be either a list or map"))

/-- AMQPBlob.cxx:138-146, 180-185; `fuel` as in `Prog.rawAs`. -/
def rawAs (f : Files) : Nat → PnType → TProg Val
  | 0, _ => quiet (Prog.ub "fuel")
  | fuel + 1, t =>
    match t with
    | .list => do
      let vs ← rawList f (rawAs f fuel)
      pure (.singleList vs)
    | .map => do
      let vs ← rawMap f (rawAs f fuel)
      pure (.singleList vs)
    | .described => rawDescribed f (rawAs f fuel)
    | _ => quiet Prog.rawPrimitive

/-- AMQPBlob.cxx:239-265, `dumpData`. -/
def dumpData (f : Files) : TProg Str := fun c =>
  (do
    let d ← quiet Prog.isDescribed
    if d then do
      quiet Prog.attestDescribed
      quiet (Prog.autoEnter (do
        let key ← Prog.readUint64
        if stripCorda key = ENVELOPE then pure () else Prog.ub "assert"))
      let v ← autoEnter (do
        attestList f
        autoListEnter (fun _ => do
          quiet Prog.attestDescribed
          rawDescribed f (rawAs f c.fuel))) true
      pure v.dump
    else quiet (Prog.ub "null value") : TProg Str) c

end TProg

/-- bin/data-dumper/main.cxx:30-43, as `loadAndDump`, with all of the standard output, piece by piece: the trace comes while the argument of
`std::cout << dataDumper.dump()` (35) is computed, the dump after it. -/
def loadAndPrint (f : Files) (sys : System) (path : Str) : Res Ended × List Str :=
  match CordaBytes.load {} (sys.file path) with
  | .ok cb =>
    if cb.encoding = 0 then
      match AMQPBlob.make sys cb with
      | .ok c =>
        match TProg.dumpData f c with
        | ((.ok s, _), out) => (.ok (.exit exitSuccess (s ++ nl)), out ++ [s ++ nl])
        | ((.throw m, _), out) => (.throw m, out)
        | ((.ub w, _), out) => (.ub w, out)
      | .throw m => (.throw m, [])
      | .ub w => (.ub w, [])
    else (.ok (.exit exitFailure []), [])
  | .throw m => (.throw m, [])
  | .ub w => (.ub w, [])

/-- bin/data-dumper/main.cxx:17-48: how the data dumper ends, and what it printed on standard output. -/
def dataDumperOutput (f : Files) (sys : System) (args : List Str) : Ended × List Str :=
  match args with
  | [path] =>
    match sys.file path with
    | none => (.exit exitFailure [], [])
    | some _ => (catchRuntime (loadAndPrint f sys path).1, (loadAndPrint f sys path).2)
  | _ => (.exit exitFailure [], [])

end Corda
