import Verif.Model.RoundTrip
import Verif.Model.RawDump
import Verif.Model.SchemaDump
import Verif.Model.Readers

/-
Model of what a program does with blobs it has: the members of `AMQPBlob` and the functions that take one, called in any order.  All of them are `const`, but they
move the cursor of the `pn_data_t` that the blob points to (libs/amqp/include/AMQPBlob.h:37, `mutable`), and copies of a blob point to the same one.
-/

namespace Corda

/-- What can be done with a blob: `dumpData`, `dumpSchema` and `dumpContents` (AMQPBlob.h:51-53), `deserialise` (SerialiserFactory.h:106-113) and
making `CordaBytes` of it (CordaBytes.cxx:81-90). -/
inductive Use where
  | data
  | schema (t : DumpTarget)
  | contents (cu : Customs) (leftFirst : Bool) (F : Factory)
  | object (p : PropShape)
  | bytes

/-- What comes of it: a text, a value, or the trees that are encoded.  The return values of AMQPBlob.h:51-53, SerialiserFactory.h:106-113 and the argument of
CordaBytes.cxx:89. -/
inductive Outcome where
  | text (s : Str)
  | value (v : RVal)
  | trees (ns : List Node)
  deriving DecidableEq

/-- A result of another kind. Framework of the model, for all of /repo: no code of its own. -/
def Res.as {α β : Type} (f : α → β) : Res α → Res β
  | .ok a => .ok (f a)
  | .throw m => .throw m
  | .ub w => .ub w

/-- One use: AMQPBlob.cxx:52-65, 239-265, 273-314; SerialiserFactory.h:106-113; CordaBytes.cxx:87-89, where `pn_data_encode` takes the whole tree wherever the
cursor is, and leaves it there.  The changes to a factory are not kept; they are in Model/Readers. -/
def Use.run : Use → Cursor → Res Outcome × Cursor
  | .data, c => ((Prog.dumpData c).1.as .text, (Prog.dumpData c).2)
  | .schema t, c => ((Prog.dumpSchema t c).1.as .text, (Prog.dumpSchema t c).2)
  | .contents cu lf F, c => ((Prog.dumpContents cu lf F c).1.1.as .text, (Prog.dumpContents cu lf F c).1.2)
  | .object p, c => ((Prog.deserialise p c).1.as .value, (Prog.deserialise p c).2)
  | .bytes, c => (.ok (.trees c.forest), c)

/-- The `pn_data_t` there are, and for each blob which of them it points to: AMQPBlob.h:37. -/
structure Blobs where
  trees : List Cursor
  blobs : List Nat

/-- What a program does: it makes a blob of a tree (AMQPBlob.cxx:29-48), it copies a blob, it uses one. -/
inductive BlobStep where
  | blob (n : Node)
  | copy (i : Nat)
  | use (i : Nat) (u : Use)

/-- One step, and what comes of it if it is a use.  `blob`: AMQPBlob.cxx:29-48, the cursor is on the value that was decoded or put.  `copy`: the constructor the
compiler makes copies the pointer, AMQPBlob.h:37.  `use`: `Use.run` with the `pn_data_t` the blob points to. -/
def Blobs.step (s : Blobs) : BlobStep → Option (Res Outcome) × Blobs
  | .blob n => (none, ⟨s.trees ++ [Cursor.root n], s.blobs ++ [s.trees.length]⟩)
  | .copy i =>
    match s.blobs[i]? with
    | some k => (none, ⟨s.trees, s.blobs ++ [k]⟩)
    | none => (some (.ub "no such object"), s)
  | .use i u =>
    match s.blobs[i]? with
    | some k =>
      match s.trees[k]? with
      | some c => (some (u.run c).1, ⟨s.trees.set k (u.run c).2, s.blobs⟩)
      | none => (some (.ub "no such object"), s)
    | none => (some (.ub "no such object"), s)

/-- A program that catches all exceptions: what came of its uses, and what it has in the end; undefined behaviour is the end of it. Framework of the model, for all
of /repo: no code of its own. -/
def Blobs.run (s : Blobs) : List BlobStep → List (Res Outcome) × Blobs
  | [] => ([], s)
  | a :: as =>
    match s.step a with
    | (some (.ub w), s') => ([.ub w], s')
    | (some r, s') => (r :: (s'.run as).1, (s'.run as).2)
    | (none, s') => s'.run as

/-- In the beginning there are none. Framework of the model, for all of /repo: no code of its own. -/
def Blobs.start : Blobs := ⟨[], []⟩

end Corda
