import Verif.Model.Processes

/-
Model of saving a file on a disk that is not without bounds and on which there are files already: `CordaBytes::toFile`, and the sample programs that
call it.  `saved` in Model/Processes has a disk with room for everything.
-/

namespace Corda.Programs
open Corda

/-- An `std::ofstream` on a file that was opened: how much more fits on the disk, whether the stream is still good, what is in the file.  That bytes
wait in a buffer is left out: they get to the file in the same order, at the latest when the stream is destroyed. Not in /repo (standard library); used in
libs/amqp/src/CordaBytes.cxx:99-104. -/
structure OFile where
  room : Nat
  good : Bool
  bytes : List Byte

/-- `std::ostream::write`: does nothing if the stream is not good; if not everything fits, what fits is written and the stream is no longer good. Not in
/repo (standard library); called in libs/amqp/src/CordaBytes.cxx:100, 102, 103. -/
def OFile.write (s : OFile) (bs : List Byte) : OFile :=
  if s.good then ⟨s.room - bs.length, decide (bs.length ≤ s.room), s.bytes ++ bs.take s.room⟩ else s

/-- The files that are there, and for each name how much can be written to a file of that name: `none` if it cannot be opened for writing. Two names
are two files. Not in /repo (operating system); used in libs/amqp/src/CordaBytes.cxx:99. -/
structure Disk where
  files : Str → Option (List Byte)
  room : Str → Option Nat

/-- libs/amqp/src/CordaBytes.cxx:94-104, `toFile`: the files afterwards.  Opening empties the file (99); nobody looks at the stream after 99, 100, 102
or 103. -/
def toFileOn (d : Disk) (b : CordaBytes) (path : Str) : Str → Option (List Byte) :=
  match d.room path with
  | none => d.files                                                                  -- 99
  | some k =>
    let file : OFile := ⟨k, true, []⟩                                                -- 99
    let file := file.write ((AMQP_HEADERS[1]'(by decide)).take 7)                    -- 100
    let file := file.write [0]                                                       -- 101-102
    let file := file.write (b.blob.take b.size)                                      -- 103
    fun p => if p = path then some file.bytes else d.files p

/-- What a process did: how it ended, its standard output piece by piece, and the files that are there afterwards.
E.g. bin/writer-tests/writer-test-02/main.cxx:11-27. -/
structure Run where
  ended : Ended
  out : List Str
  files : Str → Option (List Byte)

/-- The programs in bin/writer-tests, as `writerMain` has them, on a disk. E.g. bin/writer-tests/writer-test-02/main.cxx:11-27. -/
def writerOn (w : Compiled) (f : ProgFiles) (encode : Node → List Byte) (d : Disk) (made : List Str) (o : Obj) (args : List Str) : Run :=
  match args with
  | [path] =>
    match serialiseTold w o with
    | (.ok [n], out) => ⟨.exit exitSuccess [], made ++ out ++ [toFileTold f path], toFileOn d (CordaBytes.ofBlob (encode n)) path⟩
    | (.ok _, out) => ⟨.ub "not one tree", made ++ out, d.files⟩
    | (.throw _, out) => ⟨.terminated, made ++ out, d.files⟩
    | (.ub m, out) => ⟨.ub m, made ++ out, d.files⟩
  | _ => ⟨.exit exitFailure [], [], d.files⟩

/-- The programs in bin/reader-tests that save an object and read it back, as `roundTripMain` has them, on a disk.  They read the blob in memory, not the
file. E.g. bin/reader-tests/reader-test-02-nested-composite/main.cxx:12-31. -/
def roundTripOn (w : Compiled) (r : ReadCompiled) (f : ProgFiles) (encode : Node → List Byte) (d : Disk) (made : List Str) (o : Obj)
    (between : List Str) (p : NProp) (shown : RVal → List Str) (args : List Str) : Run :=
  match args with
  | [] =>
    match serialiseTold w o with
    | (.ok [n], out) =>
      let before := made ++ out ++ [toFileTold f "serialized.bin".toList] ++ between
      let files := toFileOn d (CordaBytes.ofBlob (encode n)) "serialized.bin".toList
      match TProg.deserialise r p (Cursor.root n) with
      | ((.ok v, _), back) => ⟨.exit exitSuccess (shown v).flatten, before ++ back ++ shown v, files⟩
      | ((.throw _, _), back) => ⟨.terminated, before ++ back, files⟩
      | ((.ub m, _), back) => ⟨.ub m, before ++ back, files⟩
    | (.ok _, out) => ⟨.ub "not one tree", made ++ out, d.files⟩
    | (.throw _, out) => ⟨.terminated, made ++ out, d.files⟩
    | (.ub m, out) => ⟨.ub m, made ++ out, d.files⟩
  | _ => ⟨.exit exitFailure [], [], d.files⟩

end Corda.Programs
