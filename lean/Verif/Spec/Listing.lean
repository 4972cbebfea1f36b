import Verif.Model.Basic

/-
How a person reads a printed schema: line by line.
-/

namespace Corda.Spec

/-- The lines of a text; a text that ends in a line feed has an empty last line. -/
def linesOf : Str → List Str
  | [] => [[]]
  | c :: cs =>
    if c = '\n' then [] :: linesOf cs
    else match linesOf cs with
      | [] => [[c]]
      | l :: ls => (c :: l) :: ls

/-- What stands behind a heading, if the line begins with it. -/
def after (heading line : Str) : Option Str :=
  if heading.isPrefixOf line then some (line.drop heading.length) else none

/-- Reads lines from the bottom: the bullets not yet given to a level, and the levels with their numbers. -/
def readLevels : List Str → List Str × List (Str × List Str)
  | [] => ([], [])
  | l :: ls =>
    let r := readLevels ls
    match after "level ".toList l with
    | some k => ([], (k, r.1) :: r.2)
    | none =>
      match after "    * ".toList l with
      | some n => (n :: r.1, r.2)
      | none => r

/-- The levels a listing shows: the number of each and the names under it. -/
def readListing (text : Str) : List (Str × List Str) := (readLevels (linesOf text)).2

/-- What stands behind the thirteen columns of headings. -/
def columns (text : Str) : List Str := (linesOf text).map (List.drop 13)

/-- The headings: the first thirteen columns. -/
def headings (text : Str) : List Str := (linesOf text).map (List.take 13)

end Corda.Spec
