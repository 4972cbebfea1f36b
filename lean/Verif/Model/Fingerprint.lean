import Verif.Model.Writer

/-
Model of the fingerprint of a class that was not given one: libs/amqp/include/serializable/Serializable.h:36-62.  What it is depends on the
compiler (CMakeLists.txt:32-39): built with AppleClang every class has one to begin with, a text that says it is missing, and asking for it throws.  Built with
another compiler a program in which an object of such a class is written cannot be linked, so there every fingerprint is one that was given.
-/

namespace Corda

/-- CMakeLists.txt:32-39. -/
inductive Compiler where
  | appleClang
  | other
  deriving DecidableEq

/-- Serializable.h:20, 62. -/
def notSet : Str := "FINGERPRINT_NOT_SET".toList

namespace Wr

/-- Serializable.h:40-47, `_fingerprint`; debug.h:5 switches the check on. Called first thing in ModifiableAMQPBlobImpl.cxx:67, 92. -/
def fingerprint (b : Compiler) (fp : Str) : Wr := fun s =>
  if b = .appleClang ∧ fp = notSet then (.throw "Fingerprint not set", s) else (.ok (), s)

mutual

/-- `object`, with the check: Serializable.cxx:74-85, ModifiableAMQPBlobImpl.cxx:58-112. -/
def objectOn (b : Compiler) : Obj → Wr
  | .comp n f ms => guarded (seq (fingerprint b f) (startComposite (n, f))) (membersOn b (n, f) ms) stop
  | .list n f es => guarded (seq (fingerprint b f) (startRestricted (n, f) false)) (elemsOn b es) stop
  | .map n f es => guarded (seq (fingerprint b f) (startRestricted (n, f) true)) (entriesOn b es) stop

/-- `members`, with the check. E.g. bin/writer-tests/writer-test-02/SerialiseMe.cxx:9-17. -/
def membersOn (b : Compiler) (key : Str × Str) : List Member → Wr
  | [] => skip
  | m :: ms => seq (memberOn b key m) (membersOn b key ms)

/-- `member`, with the check. The fingerprint in the key has been asked for before. SerialiserFactoryWriters.h:70-179. -/
def memberOn (b : Compiler) (key : Str × Str) : Member → Wr
  | .prim n ptr v => member key (.prim n ptr v)
  | .nullPrim n t => member key (.nullPrim n t)
  | .obj n t ptr o =>
    seq (property key n (if !ptr && o.isContainer then restrictedDesc n t else compositeDesc n t)) (objectOn b o)
  | .nullObj n t => member key (.nullObj n t)

/-- `elems`, with the check. SerializableVector.h:47-49. -/
def elemsOn (b : Compiler) : List Elem → Wr
  | [] => skip
  | e :: es => seq (elemOn b e) (elemsOn b es)

/-- `elem`, with the check. SerialiserFactoryWriters.h:36-63. -/
def elemOn (b : Compiler) : Elem → Wr
  | .prim v => elem (.prim v)
  | .nullPrim t => elem (.nullPrim t)
  | .obj o => objectOn b o

/-- `entries`, with the check. SerializableMap.h:44-50. -/
def entriesOn (b : Compiler) : List Entry → Wr
  | [] => skip
  | e :: es => seq (entryOn b e) (entriesOn b es)

/-- `entry`, with the check. SerializableMap.h:48-49. -/
def entryOn (b : Compiler) : Entry → Wr
  | .mk k v => seq (elemOn b k) (elemOn b v)

end

end Wr

/-- `serialise`, with the check. Serializable.cxx:42-53. -/
def serialiseOn (b : Compiler) (o : Obj) : Res (List Node) :=
  match Wr.objectOn b o WState.init with
  | (.ok _, s) => .ok s.toBlob
  | (.throw m, _) => .throw m
  | (.ub w, _) => .ub w

/-- `useBlob`, with the check. Serializable.h:98-100. -/
def useBlobOn (b : Compiler) : WState → List Act → List (Res (List Node))
  | _, [] => []
  | s, .make :: as => .ok s.toBlob :: useBlobOn b s as
  | s, .write o :: as =>
    match Wr.objectOn b o s with
    | (.ok _, s') => .ok [] :: useBlobOn b s' as
    | (.throw m, s') => .throw m :: useBlobOn b s' as
    | (.ub w, _) => [.ub w]

end Corda
