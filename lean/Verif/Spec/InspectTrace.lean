import Verif.Model.Proton

/-
What of a payload may be told by the trace of the blob inspector: the shape, the types, the descriptors and the integers.
-/

namespace Corda.Spec
open Corda

/-- The value without what must not be told: of numbers, texts and the like only the type is left, integers stay. -/
def hideAtom : Atom → Atom
  | .bool _ => .bool false
  | .ubyte _ => .ubyte 0
  | .byte _ => .byte 0
  | .ushort _ => .ushort 0
  | .short _ => .short 0
  | .uint _ => .uint 0
  | .char _ => .char 0
  | .ulong _ => .ulong 0
  | .long _ => .long 0
  | .timestamp _ => .timestamp 0
  | .float _ => .float 0
  | .double _ => .double 0
  | .decimal32 _ => .decimal32 0
  | .decimal64 _ => .decimal64 0
  | .decimal128 _ => .decimal128 0
  | .uuid _ => .uuid 0
  | .binary _ => .binary []
  | .string _ => .string []
  | .symbol _ => .symbol []
  | v => v

mutual

/-- The tree without what must not be told; the descriptor of a described value stays. -/
def hide : Node → Node
  | .mk v ks => .mk (hideAtom v) (if v = .described then hideTail ks else hideAll ks)

def hideAll : List Node → List Node
  | [] => []
  | k :: ks => hide k :: hideAll ks

def hideTail : List Node → List Node
  | [] => []
  | k :: ks => k :: hideAll ks

end

/-- Two outcomes of the same kind: both a value, or both the same exception, or both the same undefined behaviour. -/
def SameEnd {α β : Type} : Res α → Res β → Prop
  | .ok _, .ok _ => True
  | .throw m, .throw m' => m = m'
  | .ub w, .ub w' => w = w'
  | _, _ => False

/-- The first line of every inspection. -/
def installSaid (file : Str) : Str :=
  "[".toList ++ file ++ "::364] installCustomSerialiser::Public Key serialiser::java.security.PublicKey\n".toList

/-- The line of an envelope. -/
def envelopeSaid (file : Str) : Str := "[".toList ++ file ++ "::106] ENVELOPE\n".toList

/-- The line of a type of the schema, with its descriptor and its name. -/
def typeSaid (file descriptor name : Str) : Str := "[".toList ++ file ++ "::47] Schema: ".toList ++ descriptor ++ " ".toList ++ name ++ "\n".toList

/-- The line of a type for which a reader is made. -/
def readerSaid (file name : Str) : Str := "[".toList ++ file ++ "::108] process::".toList ++ name ++ "\n".toList

/-- The line of an integer in a field. -/
def intSaid (file : Str) (v : Str) : Str := "[".toList ++ file ++ "::43]     -> ".toList ++ v ++ "\n".toList

/-- All levels with the names of their types. -/
def listingSaid (file : Str) (levels : List (List Str)) : Str :=
  "[".toList ++ file ++ "::55] =======\n".toList ++ (levels.zipIdx 1).flatMap (fun l =>
    "level ".toList ++ Nat.toDigits 10 l.2 ++ "\n".toList ++ l.1.flatMap (fun n => "    * ".toList ++ n ++ "\n".toList) ++ "\n".toList)
    ++ "======\n".toList

/-- The states `b₁, b₂, …, c` after `a`, each with one entry more than the one before. -/
inductive Grows {α : Type} : List (List α) → List (List (List α)) → List (List α) → Prop
  | refl (a : List (List α)) : Grows a [] a
  | step {a b c : List (List α)} {bs : List (List (List α))} (t : α) : b.flatten.Perm (t :: a.flatten) → Grows b bs c → Grows a (b :: bs) c

end Corda.Spec
