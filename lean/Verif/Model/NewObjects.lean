import Verif.Model.RoundTrip

/-
Model of the objects that deserialising makes with `new`.  The functions of Model/RoundTrip once more, with `new` in its places
(libs/amqp/include/assembler/ReadPrimitive.h:47, ReadNonPrimitive.h:59).
-/

namespace Corda

/-- Something made with `new`: a primitive (ReadPrimitive.h:47) or an object of a class (ReadNonPrimitive.h:59). -/
inductive Made where
  | prim (t : PrimType)
  | obj
  deriving DecidableEq, Repr

/-- As `Prog`, with the objects made with `new` that only the library points to: from a local variable, or from the `std::any`s that a `deserialiseImpl`
collects.  Neither deletes what it points to when an exception passes.  E.g. libs/amqp/src/test/RoundTripTests.cxx:66-74. -/
abbrev MProg (α : Type) : Type := Cursor → (Res α × Cursor) × List Made

namespace MProg

/-- Nothing is made. Framework of the model, for all of /repo: no code of its own. -/
def none {α : Type} (p : Prog α) : MProg α := fun c => (p c, [])

/-- Sequencing; what was made before stays. Framework of the model, for all of /repo: no code of its own. -/
def bind {α β : Type} (p : MProg α) (f : α → MProg β) : MProg β := fun c =>
  match p c with
  | ((.ok a, c'), made) => ((f a c').1, made ++ (f a c').2)
  | ((.throw m, c'), made) => ((.throw m, c'), made)
  | ((.ub w, c'), made) => ((.ub w, c'), made)

/-- `new`: ReadPrimitive.h:47, ReadNonPrimitive.h:59. -/
def new (m : Made) : MProg Unit := fun c => ((.ok (), c), [m])

/-- As `Prog.autoNext`: SerialiserFactoryReaders.h:33-55 (`AutoPrim`). -/
def autoNext {α : Type} (p : MProg α) : MProg α := fun c =>
  let r := p c
  ((r.1.1, r.1.2.next.2), r.2)

/-- As `Prog.composite`: SerialiserFactoryReaders.h:66-80. -/
def composite {α : Type} (body : MProg α) : MProg α := fun c =>
  match Prog.startRead c with
  | (.ok _, c1) =>
    let r := body c1
    ((r.1.1, Prog.endRead r.1.2), r.2)
  | (.throw m, c1) => ((.throw m, c1), [])
  | (.ub w, c1) => ((.ub w, c1), [])

/-- The constructor of the class takes over what was read for it; whether its destructor deletes it is up to the class. That the constructor throws
is not modelled. ReadNonPrimitive.h:39, 59. -/
def takenOver {α : Type} (p : MProg α) : MProg α := fun c =>
  match p c with
  | ((.ok a, c'), _) => ((.ok a, c'), [])
  | r => r

mutual

/-- `PropertyReader<T>::read`, as `Prog.readProp`: a primitive is made before it is read (ReadPrimitive.h:47-51), an object of a class after its
properties are read (ReadNonPrimitive.h:57-59). -/
def readProp : PropShape → MProg RVal
  | .prim false t => none (Prog.readProp (.prim false t))
  | .prim true t => autoNext (bind (new (.prim t)) fun _ => none (do let v ← Prog.primGet t; pure (.prim v)))
  | .obj false s => composite (takenOver (readShape s))
  | .obj true s => composite (bind (takenOver (readShape s)) fun v => bind (new .obj) fun _ => none (pure v))
  | .vector => none (Prog.readProp .vector)

/-- `T::deserialiseImpl`. ReadNonPrimitive.h:37, 57. -/
def readShape : Shape → MProg RVal
  | .mk ps => bind (readProps ps) fun vs => none (pure (.obj vs))

/-- The `read` calls one after the other. E.g. libs/amqp/src/test/RoundTripTests.cxx:66-74. -/
def readProps : List PropShape → MProg (List RVal)
  | [] => none (pure [])
  | p :: ps => bind (readProp p) fun v => bind (readProps ps) fun vs => none (pure (v :: vs))

end

/-- SerialiserFactory.h:106-113, `deserialise<T>`. -/
def deserialise (p : PropShape) : MProg RVal := bind (none Prog.readyPayload) fun _ => readProp p

end MProg

end Corda
