import Verif.Spec.AnyInspect
import Verif.Model.Readers

/-
What one factory makes of several blobs one after the other, whether they can be inspected or not.  Again there are no
reader objects here: what a factory remembers is a table, the names it was asked for in vain, and the type of each descriptor.
-/

namespace Corda.Spec
open Corda

/-- What a factory remembers. -/
structure Memory where
  /-- How the types known so far are read. -/
  table : Table
  /-- The names of types that were missing when they were needed. -/
  vain : List Str
  /-- The name of the type that belongs to a descriptor; of two entries for a descriptor the first counts. -/
  descs : List (Str × Str)
  deriving DecidableEq, Repr

/-- What is remembered before the first blob. -/
def newMemory : Memory := ⟨onlyKeys, [], []⟩

/-- Something that may fail.  What it has learnt until then is not forgotten. -/
abbrev Step : Type := Memory → Res Unit × Memory

/-- Nothing to do. -/
def done : Step := fun M => (.ok (), M)

/-- One after the other. -/
def Step.then (a b : Step) : Step := fun M =>
  match a M with
  | (.ok _, M') => b M'
  | (.throw m, M') => (.throw m, M')
  | (.ub w, M') => (.ub w, M')

/-- A primitive type becomes known when it is first needed.  It must not have been missing before. -/
def usePrimitive (t : Str) : Step := fun M =>
  match M.table.lookup t with
  | some _ => (.ok (), M)
  | none =>
    if t ∈ M.vain then (.ub "assert", M)
    else match primNamed t with
      | some p => (.ok (), { M with table := (t, .prim p) :: M.table })
      | none => (.throw "THIS IS BAD", M)

/-- Any other type has to be known; if not, its name is remembered. -/
def useKnown (t : Str) (otherwise : String) : Step := fun M =>
  match M.table.lookup t with
  | some _ => (.ok (), M)
  | none => (.throw otherwise, { M with vain := t :: M.vain })

/-- What is needed for a field of the class named `self`. -/
def useField (self : Str) (f : Field) : Step := fun M =>
  match fieldTypeName f with
  | none => (.ub "front of an empty list", M)
  | some t =>
    match f.kind with
    | .primitive => usePrimitive t M
    | .custom => useKnown t "Can't find" M
    | _ => if t = self then (.ok (), M) else useKnown t "Can't find" M

/-- What is needed for all its fields. -/
def useFields (self : Str) : List Field → Step
  | [] => done
  | f :: fs => (useField self f).then (useFields self fs)

/-- What is needed for elements. -/
def useElement (t : Str) : Step :=
  if t ∈ primitiveNames then usePrimitive t else useKnown t "Missing type in serialisers map"

/-- What is needed for a type. -/
def useType (leftFirst : Bool) (t : TypeNotation) : Step :=
  match t with
  | .comp c => useFields c.name c.fields
  | .restr r =>
    match r.kind with
    | .enum _ => done
    | .list l => useElement l
    | .array l => useElement l
    | .map k v => if leftFirst then (useElement k).then (useElement v) else (useElement v).then (useElement k)

/-- The type is known from now on. -/
def enterType (t : TypeNotation) : Step := fun M => (.ok (), { M with table := (t.name, .type t) :: M.table })

/-- So is the type of its descriptor. -/
def enterDescriptor (t : TypeNotation) : Step := fun M => (.ok (), { M with descs := (t.descriptor, t.name) :: M.descs })

/-- One more type.  If one of that name is known, it stays; if it was missing before, there is no way to learn it. -/
def study (leftFirst : Bool) (t : TypeNotation) : Step := fun M =>
  match M.table.lookup t.name with
  | some _ => (.ok (), M)
  | none => if t.name ∈ M.vain then (.ub "assert", M) else ((useType leftFirst t).then (enterType t)) M

/-- One type after the other. -/
def studyAll (leftFirst : Bool) : List TypeNotation → Step
  | [] => done
  | t :: ts => ((study leftFirst t).then (enterDescriptor t)).then (studyAll leftFirst ts)

/-- The text for a blob with these types and the descriptor `d`. -/
def shownWith (leftFirst : Bool) (ts : List TypeNotation) (d : Str) (M : Memory) (n : Node) : Res Str :=
  match M.descs.lookup d with
  | none => .ub "assert"
  | some name => do
    let p ← payloadIn n
    let s ← textIn leftFirst ts M.table (depthOf p) true name p
    pure ("{ Parsed : ".toList ++ s ++ " }".toList)

/-- What inspecting a blob makes of it, and what is remembered afterwards. -/
def inspectionIn (leftFirst : Bool) (M : Memory) (n : Node) : Res Str × Memory :=
  match envelopeFrom n with
  | .throw m => (.throw m, M)
  | .ub w => (.ub w, M)
  | .ok (s, d) =>
    match studyAll leftFirst s.types.flatten M with
    | (.throw m, M') => (.throw m, M')
    | (.ub w, M') => (.ub w, M')
    | (.ok _, M') => (shownWith leftFirst s.types.flatten d M' n, M')

/-- What is made of one blob after the other; undefined behaviour is the end. -/
def inspectionsIn (leftFirst : Bool) : Memory → List Node → List (Res Str)
  | _, [] => []
  | M, n :: ns =>
    match inspectionIn leftFirst M n with
    | (.ub w, _) => [.ub w]
    | (r, M') => r :: inspectionsIn leftFirst M' ns

/-- What is remembered after some blobs. -/
def remembered (leftFirst : Bool) (ns : List Node) : Memory :=
  ns.foldl (fun M n => (inspectionIn leftFirst M n).2) newMemory

/-- What is said in the table is not contradicted by the memory: no name of it was asked for in vain, and those that are
remembered are to be read the same way. -/
def Agrees (T : Table) (M : Memory) : Prop :=
  ∀ k w, T.lookup k = some w → k ∉ M.vain ∧ (M.table.lookup k = none ∨ M.table.lookup k = some w)

/-- A program that inspects one blob after the other with one factory and catches every exception. -/
def inspectMany (leftFirst : Bool) : Factory → List Cursor → List (Res Str)
  | _, [] => []
  | F, c :: cs =>
    match Prog.dumpContents (fun _ _ => Prog.publicKeyDump) leftFirst F c with
    | ((.ub w, _), _) => [.ub w]
    | ((r, _), F') => r :: inspectMany leftFirst F' cs

end Corda.Spec
