import Verif.Model.Readers

/-
Programs that install serialisers of their own before they look at a blob.
-/

namespace Corda

/-- `dump` of a serialiser that a program brings along, with a name or without. CustomSerializer.h:18-26. -/
abbrev OwnDump : Type := Schema → Option Str → Prog Val

/-- The serialisers a program installs, in this order: what `type()` says and what `dump` does. CustomSerializer.h:7-32. -/
abbrev OwnSerialisers : Type := List (Str × OwnDump)

/-- The serialisers by the number they are installed with.  The last line is not reached: no other number is given.
CompositeFactoryInternal.cxx:359-366. -/
def OwnSerialisers.customs (own : OwnSerialisers) : Customs := fun k s name_ =>
  match own[k]? with
  | some x => x.2 s name_
  | none => Prog.throw "no such serialiser"

/-- `installCustomSerialiser` (CompositeFactoryInternal.cxx:359-366) for one serialiser after the other, the first with number `n`. -/
def Factory.installAll (F : Factory) (n : Nat) : List Str → Factory
  | [] => F
  | t :: ts => (F.installCustom n t).installAll (n + 1) ts

/-- A program like bin/blob-inspector/BlobInspector.cxx:18-25 with these serialisers in place of the one for public keys. -/
def inspectWith (own : OwnSerialisers) (leftFirst : Bool) (c : Cursor) : Res Str × Cursor :=
  (Prog.dumpContents own.customs leftFirst (Factory.empty.installAll 0 (own.map Prod.fst)) c).1

/-- A program that shows a blob, installs more serialisers in the same factory and shows another blob (AMQPBlob.cxx:273-314,
CompositeFactoryInternal.cxx:359-366).  It keeps no pointers to the serialisers itself. -/
def inspectTwice (own later : OwnSerialisers) (leftFirst : Bool) (c c' : Cursor) : Res Str × Res Str :=
  let first := Prog.dumpContents (own ++ later).customs leftFirst (Factory.empty.installAll 0 (own.map Prod.fst)) c
  (first.1.1, (Prog.dumpContents (own ++ later).customs leftFirst (first.2.installAll own.length (later.map Prod.fst)) c').1.1)

end Corda
