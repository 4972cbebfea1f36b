import Verif.Model.Ordering

/-
Model of libs/amqp/src/schema/OrderedTypeNotations.h once more, keeping account of the calls of `dependsOn`.  The results are those of
Model/Ordering.lean (`Props/Questions`, `C96_same`).
-/

namespace Corda

variable {T : Type}

/-- An outcome with the calls `a->dependsOn (b)` made on the way, in order, also those before an exception. Framework of the model, for
OrderedTypeNotations.h:147-212. -/
def Counted (T α : Type) : Type := Res α × List (T × T)

/-- Sequencing; an exception or undefined behaviour stops the rest. Framework of the model, for OrderedTypeNotations.h:147-212. -/
def Counted.bind {α β : Type} (p : Counted T α) (f : α → Counted T β) : Counted T β :=
  match p with
  | (.ok a, q) => ((f a).1, q ++ (f a).2)
  | (.throw m, q) => (.throw m, q)
  | (.ub w, q) => (.ub w, q)

instance : Monad (Counted T) where
  pure a := (.ok a, [])
  bind := Counted.bind

/-- `a->dependsOn (b)`: OrderedTypeNotations.h:168, 191. -/
def ask (dep : T → T → Res Int) (a b : T) : Counted T Int := (dep a b, [(a, b)])

/-- OrderedTypeNotations.h:161-176, as `scanLevelR`. -/
def scanLevelQ (dep : T → T → Res Int) (x : T) (here : Nat) : Nat → List T → Counted T (Nat × Bool)
  | cur, [] => pure (cur, false)
  | cur, j :: js => do
    let s ← ask dep j x
    if s = 1 then scanLevelQ dep x here (here + 1) js
    else if s = 2 then pure (here, true)
    else scanLevelQ dep x here cur js

/-- OrderedTypeNotations.h:158-178, as `findPosR`. -/
def findPosQ (dep : T → T → Res Int) (x : T) : Nat → Nat → List (List T) → Counted T Nat
  | _, cur, [] => pure cur
  | here, cur, l :: ls => do
    let r ← scanLevelQ dep x here cur l
    if r.2 then pure r.1 else findPosQ dep x (here + 1) r.1 ls

/-- OrderedTypeNotations.h:188-210, as `shuffleR`. -/
def shuffleQ (rec : T → List (List T) → Counted T (List (List T))) (dep : T → T → Res Int) (x : T) :
    List T → List (List T) → Counted T (List (List T) × List T × List (List T))
  | [], post => pure ([], [], post)
  | e :: es, post => do
    let s ← ask dep x e
    if s = 1 then do
      let post1 ← rec e post
      shuffleQ rec dep x es post1
    else if s = 2 then do
      let r ← shuffleQ rec dep x es post
      pure ([e] :: r.1, r.2.1, r.2.2)
    else if s > 0 then shuffleQ rec dep x es post
    else do
      let r ← shuffleQ rec dep x es post
      pure (r.1, e :: r.2.1, r.2.2)

/-- OrderedTypeNotations.h:147-212, as `insGoR`. -/
def insGoQ (dep : T → T → Res Int) : Nat → T → List (List T) → Counted T (List (List T))
  | 0, _, _ => (.ub "fuel", [])
  | fuel + 1, x, tail => do
    let p ← findPosQ dep x 0 0 tail
    match tail.drop p with
    | [] => pure (tail ++ [[x]])
    | lvl :: post => do
      let r ← shuffleQ (insGoQ dep fuel) dep x lvl post
      pure (tail.take p ++ r.1 ++ (x :: r.2.1) :: r.2.2)

/-- OrderedTypeNotations.h:138-143, as `insertR`. -/
def insertQ (dep : T → T → Res Int) (levels : List (List T)) (x : T) : Counted T (List (List T)) :=
  insGoQ dep (levels.flatten.length + 1) x levels

/-- A sequence of calls of `insert` on an empty collection, as `insertAllR`. SchemaDescriptor.cxx:39-56. -/
def insertAllQ (dep : T → T → Res Int) : List (List T) → List T → Counted T (List (List T))
  | ls, [] => pure ls
  | ls, x :: xs => do
    let ls1 ← insertQ dep ls x
    insertAllQ dep ls1 xs

end Corda
