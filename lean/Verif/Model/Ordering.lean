import Verif.Model.Basic

/-
Model of libs/amqp/src/schema/OrderedTypeNotations.h.

`m_schemas` is a list of levels.  An iterator into it is modelled by splitting the list there; `insert (ptr, l_)`
only ever touches what lies at or behind `l_`, so it is a function of that tail.  `dep a b` is the virtual call
`a->dependsOn(b)`.
-/

namespace Corda

variable {T : Type}

/-- OrderedTypeNotations.h:161-176, the inner search loop over one level.  `here` is the index of that level,
`cur` the insertion point so far; the Boolean says that `goto done` was taken. -/
def scanLevel (dep : T → T → Int) (x : T) (here : Nat) : Nat → List T → Nat × Bool
  | cur, [] => (cur, false)
  | cur, j :: js =>
    if dep j x = 1 then scanLevel dep x here (here + 1) js
    else if dep j x = 2 then (here, true)
    else scanLevel dep x here cur js

/-- OrderedTypeNotations.h:158-178, the search for the insertion point, as an index into the tail. -/
def findPos (dep : T → T → Int) (x : T) : Nat → Nat → List (List T) → Nat
  | _, cur, [] => cur
  | here, cur, l :: ls =>
    let r := scanLevel dep x here cur l
    if r.2 then r.1 else findPos dep x (here + 1) r.1 ls

/-- OrderedTypeNotations.h:188-210, the loop that re-sorts the other elements of the level `x` was put into.
`rec` is the recursive call `insert (e, next (insertionPoint))`.  The result consists of the new levels put in
front of the insertion point, the elements that stay, and the levels behind the insertion point.  An element
with a positive score other than 1 and 2 has been moved out of the list and is destroyed (line 194-207). -/
def shuffle (rec : T → List (List T) → Option (List (List T))) (dep : T → T → Int) (x : T) :
    List T → List (List T) → Option (List (List T) × List T × List (List T))
  | [], post => some ([], [], post)
  | e :: es, post =>
    if dep x e = 1 then do
      let post1 ← rec e post
      shuffle rec dep x es post1
    else if dep x e = 2 then do
      let r ← shuffle rec dep x es post
      some ([e] :: r.1, r.2.1, r.2.2)
    else if dep x e > 0 then shuffle rec dep x es post
    else do
      let r ← shuffle rec dep x es post
      some (r.1, e :: r.2.1, r.2.2)

/-- OrderedTypeNotations.h:147-212, `insert (ptr, l_)`, with 104-134 `insertNewList`.  `fuel` bounds the
recursion depth; `none` means it was not enough. -/
def insGo (dep : T → T → Int) : Nat → T → List (List T) → Option (List (List T))
  | 0, _, _ => none
  | fuel + 1, x, tail =>
    let p := findPos dep x 0 0 tail
    match tail.drop p with
    | [] => some (tail ++ [[x]])
    | lvl :: post => do
      let r ← shuffle (insGo dep fuel) dep x lvl post
      some (tail.take p ++ r.1 ++ (x :: r.2.1) :: r.2.2)

/-- OrderedTypeNotations.h:138-143, `insert (ptr)`.  The fuel always suffices (`insGo_terminates`). -/
def insert (dep : T → T → Int) (levels : List (List T)) (x : T) : Option (List (List T)) :=
  insGo dep (levels.flatten.length + 1) x levels

/-- A sequence of calls of `insert` on an empty collection. SchemaDescriptor.cxx:39-56. -/
def insertAll (dep : T → T → Int) (xs : List T) : Option (List (List T)) :=
  xs.foldlM (insert dep) []

/-! The same with answers that may throw or be undefined, as the schema types give them.  The calls are made in
the order of the source. -/

/-- OrderedTypeNotations.h:161-176, as `scanLevel`. -/
def scanLevelR (dep : T → T → Res Int) (x : T) (here : Nat) : Nat → List T → Res (Nat × Bool)
  | cur, [] => .ok (cur, false)
  | cur, j :: js => do
    let s ← dep j x
    if s = 1 then scanLevelR dep x here (here + 1) js
    else if s = 2 then pure (here, true)
    else scanLevelR dep x here cur js

/-- OrderedTypeNotations.h:158-178, as `findPos`. -/
def findPosR (dep : T → T → Res Int) (x : T) : Nat → Nat → List (List T) → Res Nat
  | _, cur, [] => .ok cur
  | here, cur, l :: ls => do
    let r ← scanLevelR dep x here cur l
    if r.2 then pure r.1 else findPosR dep x (here + 1) r.1 ls

/-- OrderedTypeNotations.h:188-210, as `shuffle`. -/
def shuffleR (rec : T → List (List T) → Res (List (List T))) (dep : T → T → Res Int) (x : T) :
    List T → List (List T) → Res (List (List T) × List T × List (List T))
  | [], post => .ok ([], [], post)
  | e :: es, post => do
    let s ← dep x e
    if s = 1 then do
      let post1 ← rec e post
      shuffleR rec dep x es post1
    else if s = 2 then do
      let r ← shuffleR rec dep x es post
      pure ([e] :: r.1, r.2.1, r.2.2)
    else if s > 0 then shuffleR rec dep x es post
    else do
      let r ← shuffleR rec dep x es post
      pure (r.1, e :: r.2.1, r.2.2)

/-- OrderedTypeNotations.h:147-212, as `insGo`.  `ub "fuel"` marks the recursion bound; it is never reached
(`insertR_of_defined`). -/
def insGoR (dep : T → T → Res Int) : Nat → T → List (List T) → Res (List (List T))
  | 0, _, _ => .ub "fuel"
  | fuel + 1, x, tail => do
    let p ← findPosR dep x 0 0 tail
    match tail.drop p with
    | [] => pure (tail ++ [[x]])
    | lvl :: post => do
      let r ← shuffleR (insGoR dep fuel) dep x lvl post
      pure (tail.take p ++ r.1 ++ (x :: r.2.1) :: r.2.2)

/-- OrderedTypeNotations.h:138-143, as `insert`. -/
def insertR (dep : T → T → Res Int) (levels : List (List T)) (x : T) : Res (List (List T)) :=
  insGoR dep (levels.flatten.length + 1) x levels

/-- A sequence of calls of `insert` on an empty collection. SchemaDescriptor.cxx:39-56. -/
def insertAllR (dep : T → T → Res Int) (xs : List T) : Res (List (List T)) :=
  xs.foldlM (insertR dep) []

end Corda
