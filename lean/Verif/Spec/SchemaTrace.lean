import Verif.Spec.Trace
import Verif.Spec.AnyAvro

/-
What is printed while a schema is dumped.  This is said about trees; there are no cursors here.
-/

namespace Corda.Spec
open Corda Told

/-- The names of the source files that print, as the compiler saw them. -/
structure Speakers where
  wrapper : Str
  descriptor : Str
  envelope : Str
  schema : Str
  composite : Str
  object : Str

/-! The lines of the trace: there are no others. -/

def yepLine (s : Speakers) : Str := "[".toList ++ s.wrapper ++ "::299] YEP! it's a list".toList
def textLine : Str := "STRING".toList
def descriptorLine (s : Speakers) : Str := "[".toList ++ s.descriptor ++ "::136] readAvro::Descriptor".toList
def envelopeLine (s : Speakers) : Str := "[".toList ++ s.envelope ++ "::76] readAvro::Envelope".toList
def schemaLine (s : Speakers) : Str := "[".toList ++ s.schema ++ "::108] readAvro::Schema".toList
def compositeLine (s : Speakers) : Str := "[".toList ++ s.composite ++ "::165] readAvro::Composite".toList
def objectLine (s : Speakers) : Str := "[".toList ++ s.object ++ "::77] readAvro::Object".toList

/-- Something that may go wrong, silently. -/
def quietly {α : Type} (r : Res α) : Told Unit := silent ((fun _ => ()) <$> r)

/-- One after the other, up to the first that fails. -/
def inTurn : List (Told Unit) → Told Unit
  | [] => pure ()
  | r :: rs => do
    r
    inTurn rs

/-- What is printed on the way through a node, and whether all goes well. -/
abbrev Saying : Type := Option Node → Told Unit

/-- Everything inside a node. -/
def eachSaid (f : Saying) (n : Option Node) : Told Unit := inTurn ((kidsOf n).map fun m => f (some m))

/-- A part that has to be an element. -/
def elementSaid (rec : Saying) : Saying := fun n =>
  match valueOf n with
  | some .described => rec n
  | _ => silent (.ub "null registry entry")

/-! ### The raw text -/

def compositeSaid (s : Speakers) (rec : Saying) (ps : List Node) : Told Unit := do
  line textLine
  quietly (wordAt false (nth ps 0))
  line textLine
  quietly (wordAt true (nth ps 1))
  quietly (listParts (nth ps 2))
  line (yepLine s)
  quietly (eachOf (stringAt false) (nth ps 2))
  quietly (describedParts (nth ps 3))
  rec (nth ps 3)
  eachSaid (elementSaid rec) (nth ps 4)

def restrictedSaid (rec : Saying) (ps : List Node) : Told Unit := do
  line textLine
  quietly (wordAt false (nth ps 0))
  line textLine
  quietly (wordAt true (nth ps 1))
  quietly (eachOf (stringAt false) (nth ps 2))
  line textLine
  quietly (wordAt false (nth ps 3))
  elementSaid rec (nth ps 4)

def schemaSaid (s : Speakers) (rec : Saying) (n : Option Node) : Told Unit :=
  eachSaid (fun m => do
    quietly (listParts m)
    line (yepLine s)
    eachSaid (elementSaid rec) m) n

/-- Inside an element with a certain number.  The second look at the same list is reported once more. -/
def insideSaid (s : Speakers) (rec : Saying) (id : Nat) (n : Option Node) : Told Unit :=
  if id = cordaId 1 then do
    line (yepLine s)
    elementSaid rec (nth (kidsOf n) 0)
    elementSaid rec (nth (kidsOf n) 1)
  else if id = cordaId 2 then do
    line (yepLine s)
    schemaSaid s rec n
  else if id = cordaId 3 then do
    line (yepLine s)
    quietly (symbolOf (nth (kidsOf n) 0))
  else if id = cordaId 4 then do
    line (yepLine s)
    quietly (fieldShown 0 (kidsOf n))
  else if id = cordaId 5 then do
    line (yepLine s)
    compositeSaid s rec (kidsOf n)
  else if id = cordaId 6 then do
    line (yepLine s)
    restrictedSaid rec (kidsOf n)
  else if id = 22 ∨ id = cordaId 7 ∨ id = cordaId 8 ∨ id = cordaId 9 ∨ id = cordaId 10 ∨ id = cordaId 11 then rec n
  else silent (.ub "null registry entry")

/-- What is printed for an element, as in `linesIn`. -/
def saidIn (s : Speakers) : (depth : Nat) → Saying
  | 0, _ => silent (.ub "fuel")
  | depth + 1, n =>
    match valueOf (nth (kidsOf n) 0) with
    | some (.ulong id) => do
      quietly (listParts (nth (kidsOf n) 1))
      line (yepLine s)
      insideSaid s (saidIn s depth) id (nth (kidsOf n) 1)
    | some (.symbol _) => pure ()
    | _ => silent (.throw "Described type should only contain long or blob")

/-- What is printed while the raw text is made for a blob. -/
def rawSaid (s : Speakers) (n : Node) : Told Unit :=
  match n.val with
  | .described => saidIn s n.height (some n)
  | _ => silent (.throw "Can only dispatch described objects")

/-! ### The Avro form -/

def recordSaid (s : Speakers) (rec : Saying) (ps : List Node) : Told Unit := do
  line textLine
  quietly (wordAt false (nth ps 0))
  quietly (stringAt true (nth ps 1))
  quietly (listParts (nth ps 2))
  line (yepLine s)
  quietly (describedParts (nth ps 3))
  rec (nth ps 3)
  eachSaid (elementSaid rec) (nth ps 4)

/-- Inside an element with a certain number. -/
def insideAvroSaid (s : Speakers) (rec : Saying) (id : Nat) (n : Option Node) : Told Unit :=
  if id = cordaId 1 then do
    line (envelopeLine s)
    line (yepLine s)
    elementSaid rec (nth (kidsOf n) 1)
  else if id = cordaId 2 then do
    line (schemaLine s)
    line (yepLine s)
    if (kidsOf n).length = 1 then eachSaid (elementSaid rec) (nth (kidsOf n) 0) else silent (.ub "assert")
  else if id = cordaId 3 then do
    line (objectLine s)
    line (yepLine s)
    quietly (symbolOf (nth (kidsOf n) 0))
  else if id = cordaId 4 then do
    line (yepLine s)
    quietly (fieldAvro 0 (kidsOf n))
  else if id = cordaId 5 then do
    line (compositeLine s)
    line (yepLine s)
    recordSaid s rec (kidsOf n)
  else if id = cordaId 6 then pure ()
  else if id = 22 ∨ id = cordaId 7 ∨ id = cordaId 8 ∨ id = cordaId 9 ∨ id = cordaId 10 ∨ id = cordaId 11 then rec n
  else silent (.ub "null registry entry")

/-- What is printed for an element, as in `avroIn`. -/
def avroSaidIn (s : Speakers) : (depth : Nat) → Saying
  | 0, _ => silent (.ub "fuel")
  | depth + 1, n => do
    line (descriptorLine s)
    match valueOf (nth (kidsOf n) 0) with
    | some (.ulong id) => do
      quietly (listParts (nth (kidsOf n) 1))
      line (yepLine s)
      insideAvroSaid s (avroSaidIn s depth) id (nth (kidsOf n) 1)
    | some (.symbol _) => pure ()
    | _ => silent (.throw "Unexpected Type")

/-- What is printed while the Avro form is made for a blob. -/
def avroSaid (s : Speakers) (n : Node) : Told Unit :=
  match n.val with
  | .described => avroSaidIn s n.height (some n)
  | _ => silent (.throw "Can only dispatch described objects")

/-! ### Schemas as Corda writes them -/

def yepOut (s : Speakers) : Str := yepLine s ++ "\n".toList
def textOut : Str := textLine ++ "\n".toList

/-- What is printed for a type, in the raw form: two lines for each field. -/
def rawTypeScript (s : Speakers) : TypeInfo → List Str
  | .composite _ _ _ _ fields => [yepOut s, yepOut s, textOut, textOut, yepOut s, yepOut s, yepOut s] ++ List.replicate (2 * fields.length) (yepOut s)
  | .restricted _ _ _ _ _ _ => [yepOut s, yepOut s, textOut, textOut, textOut, yepOut s, yepOut s]

/-- What is printed for an envelope, in the raw form. -/
def rawScript (s : Speakers) (lists : List (List TypeInfo)) : List Str :=
  [yepOut s, yepOut s, yepOut s, yepOut s] ++ lists.flatMap fun ts => yepOut s :: ts.flatMap (rawTypeScript s)

def lineOut (l : Str) : Str := l ++ "\n".toList

/-- What is printed for a field, in the Avro form. -/
def avroFieldScript (s : Speakers) : List Str := [lineOut (descriptorLine s), yepOut s, yepOut s]

/-- What is printed for a type, in the Avro form. -/
def avroTypeScript (s : Speakers) : TypeInfo → List Str
  | .composite _ _ _ _ fields =>
    [lineOut (descriptorLine s), yepOut s, lineOut (compositeLine s), yepOut s, textOut, yepOut s,
      lineOut (descriptorLine s), yepOut s, lineOut (objectLine s), yepOut s] ++ (List.replicate fields.length (avroFieldScript s)).flatten
  | .restricted _ _ _ _ _ _ => [lineOut (descriptorLine s), yepOut s]

/-- What is printed for an envelope, in the Avro form. -/
def avroScript (s : Speakers) (ts : List TypeInfo) : List Str :=
  [lineOut (descriptorLine s), yepOut s, lineOut (envelopeLine s), yepOut s, lineOut (descriptorLine s), yepOut s, lineOut (schemaLine s), yepOut s]
    ++ ts.flatMap (avroTypeScript s)

end Corda.Spec
