import Verif.Model.Basic

/-
Model of the part of qpid-proton's `pn_data_t` the project uses (proton/codec.h; external library, so this file is
an assumption about it, taken from its source and documentation), and of the read side of
libs/proton-wrapper/src/proton_wrapper.cxx.

A `pn_data_t` is a forest with a cursor.  The project only ever moves forward (`pn_data_next`), down
(`pn_data_enter`) and up (`pn_data_exit`), and writes with the `pn_data_put_*` functions and `pn_data_append`.
-/

namespace Corda

/-- `pn_atom_t`: type and value of one node. Numbers are kept as integers in their range, floating point numbers, decimals, timestamps and
UUIDs as opaque bit patterns. Not in /repo (proton, codec.c); the types in proton_wrapper.cxx:25-52. -/
inductive Atom where
  | null
  | bool (b : Bool)
  | ubyte (n : Nat)
  | byte (n : Int)
  | ushort (n : Nat)
  | short (n : Int)
  | uint (n : Nat)
  | int (n : Int)
  | char (n : Nat)
  | ulong (n : Nat)
  | long (n : Int)
  | timestamp (n : Int)
  | float (bits : Nat)
  | double (bits : Nat)
  | decimal32 (bits : Nat)
  | decimal64 (bits : Nat)
  | decimal128 (bits : Nat)
  | uuid (bits : Nat)
  | binary (s : Str)
  | string (s : Str)
  | symbol (s : Str)
  | described
  | array
  | list
  | map
  deriving DecidableEq, Repr

/-- A node of the AMQP tree. Not in /repo (proton, codec.c); what AMQPBlob.cxx:37 decodes and ModifiableAMQPBlobImpl.cxx:40-46 builds. -/
inductive Node where
  | mk (v : Atom) (kids : List Node)

namespace Node

/-- Not in /repo (proton, codec.c); the value of a node. -/
def val : Node → Atom
  | mk v _ => v

/-- Not in /repo (proton, codec.c); the children of a node. -/
def kids : Node → List Node
  | mk _ ks => ks

mutual

/-- Equality of trees is decidable (for examples). Framework of the model, for all of /repo: no code of its own. -/
def decEq : (a b : Node) → Decidable (a = b)
  | mk v ks, mk w ls =>
    if h : v = w then
      match decEqs ks ls with
      | isTrue g => isTrue (by rw [h, g])
      | isFalse g => isFalse (by intro e; injection e with _ e2; exact g e2)
    else isFalse (by intro e; injection e with e1 _; exact h e1)

/-- Framework of the model, for all of /repo: no code of its own. -/
def decEqs : (as bs : List Node) → Decidable (as = bs)
  | [], [] => isTrue rfl
  | [], _ :: _ => isFalse (by simp)
  | _ :: _, [] => isFalse (by simp)
  | a :: as, b :: bs =>
    match decEq a b with
    | isTrue h =>
      match decEqs as bs with
      | isTrue g => isTrue (by rw [h, g])
      | isFalse g => isFalse (by intro e; injection e with _ e2; exact g e2)
    | isFalse h => isFalse (by intro e; injection e with e1 _; exact h e1)

end

instance : DecidableEq Node := decEq

end Node

/-- `pn_type_t` (proton/codec.h), with `PN_INVALID` for "no current node". -/
inductive PnType where
  | null | bool | ubyte | byte | ushort | short | uint | int | char | ulong | long | timestamp | float | double
  | decimal32 | decimal64 | decimal128 | uuid | binary | string | symbol | described | array | list | map | invalid
  deriving DecidableEq, Repr

/-- Not in /repo (proton, codec.c); `pn_data_type`, called in proton_wrapper.cxx:65. -/
def Atom.type : Atom → PnType
  | .null => .null
  | .bool _ => .bool
  | .ubyte _ => .ubyte
  | .byte _ => .byte
  | .ushort _ => .ushort
  | .short _ => .short
  | .uint _ => .uint
  | .int _ => .int
  | .char _ => .char
  | .ulong _ => .ulong
  | .long _ => .long
  | .timestamp _ => .timestamp
  | .float _ => .float
  | .double _ => .double
  | .decimal32 _ => .decimal32
  | .decimal64 _ => .decimal64
  | .decimal128 _ => .decimal128
  | .uuid _ => .uuid
  | .binary _ => .binary
  | .string _ => .string
  | .symbol _ => .symbol
  | .described => .described
  | .array => .array
  | .list => .list
  | .map => .map

/-- The numeric value of a `pn_type_t` (proton/codec.h); used as a registry key by the schema dumps. -/
def PnType.num : PnType → Int
  | .null => 1 | .bool => 2 | .ubyte => 3 | .byte => 4 | .ushort => 5 | .short => 6 | .uint => 7 | .int => 8
  | .char => 9 | .ulong => 10 | .long => 11 | .timestamp => 12 | .float => 13 | .double => 14 | .decimal32 => 15
  | .decimal64 => 16 | .decimal128 => 17 | .uuid => 18 | .binary => 19 | .string => 20 | .symbol => 21
  | .described => 22 | .array => 23 | .list => 24 | .map => 25 | .invalid => -1

/-- A cursor into a forest: the siblings before the current node (nearest first), the current node, the siblings after it, and for every
entered level the parent's value and siblings. `cur = none` is "before the first node of the level"; then `prev` is empty. Not in /repo
(proton, codec.c); the `pn_data_t *` of every function in proton_wrapper.h. -/
structure Cursor where
  prev : List Node
  cur : Option Node
  rest : List Node
  up : List (List Node × Atom × List Node)
  deriving DecidableEq

namespace Cursor

/-- An empty `pn_data_t`, as made by `pn_data (0)`. ModifiableAMQPBlobImpl.cxx:18, AMQPBlob.cxx:22. -/
def empty : Cursor := ⟨[], none, [], []⟩

/-- All nodes of the current level. Framework of the model, for all of /repo: no code of its own. -/
def level (c : Cursor) : List Node := c.prev.reverse ++ c.cur.toList ++ c.rest

/-- Rebuild the forest above a level. Framework of the model, for all of /repo: no code of its own. -/
def close : List Node → List (List Node × Atom × List Node) → List Node
  | l, [] => l
  | l, (p, v, n) :: up => close (p.reverse ++ .mk v l :: n) up

/-- The whole forest, forgetting the position. Framework of the model, for all of /repo: what `pn_data_encode` (CordaBytes.cxx:87-89) would
write. -/
def forest (c : Cursor) : List Node := close c.level c.up

/-- `pn_data_type`. Not in /repo (proton, codec.c); called in proton_wrapper.cxx:65, 131. -/
def type (c : Cursor) : PnType :=
  match c.cur with
  | some n => n.val.type
  | none => .invalid

/-- `pn_data_next`: at the end of the level it stays where it is and answers false. Not in /repo (proton, codec.c); called in
proton_wrapper.cxx:124, 436. -/
def next (c : Cursor) : Bool × Cursor :=
  match c.rest with
  | [] => (false, c)
  | n :: ns => (true, { c with prev := c.cur.toList ++ c.prev, cur := some n, rest := ns })

/-- `pn_data_enter`: does nothing when there is no current node. Not in /repo (proton, codec.c); called in proton_wrapper.cxx:123, 450, 482.
-/
def enter (c : Cursor) : Cursor :=
  match c.cur with
  | some (.mk v ks) => ⟨[], none, ks, (c.prev, v, c.rest) :: c.up⟩
  | none => c

/-- `pn_data_exit`: does nothing at the top. Not in /repo (proton, codec.c); called in proton_wrapper.cxx:414, 460, 492. -/
def exit (c : Cursor) : Cursor :=
  match c.up with
  | (p, v, n) :: up => ⟨p, some (.mk v c.level), n, up⟩
  | [] => c

/-- The `pn_data_put_*` functions (`pni_data_add`): the new node comes after the current one, replacing the next sibling if there is one;
before the first node it replaces that. Not in /repo (proton, codec.c); called in ModifiableAMQPBlobImpl.cxx:40-46, 77, 103-105. -/
def put (v : Atom) (c : Cursor) : Cursor :=
  { c with prev := c.cur.toList ++ c.prev, cur := some (.mk v []), rest := c.rest.tail }

/-- `pn_data_append (dst, src)`: copies all top-level trees of `src` as by `put` and the puts of their children; the cursor of `src` is
restored. Not in /repo (proton, codec.c); called in EnvelopeDescriptor.cxx:161-162, CompositeDescriptor.cxx:283, SchemaDescriptor.cxx:168.
-/
def append (ns : List Node) (c : Cursor) : Cursor :=
  ns.foldl (fun c n => { c with prev := c.cur.toList ++ c.prev, cur := some n, rest := c.rest.tail }) c

/-- The value under the cursor. Not in /repo (proton, codec.c); the value of a node. -/
def val (c : Cursor) : Option Atom := c.cur.map Node.val

/-- The cursor after `pn_data_decode`, and after building one value: on the root. Not in /repo (proton, codec.c); the `pn_data_t` after
AMQPBlob.cxx:37. -/
def root (n : Node) : Cursor := ⟨[], some n, [], []⟩

end Cursor

/-- A program working on a `pn_data_t` through its cursor. The cursor is returned also when an exception is thrown (destructors have run by
then). Framework of the model, for all of /repo: the functions taking a `pn_data_t *`, e.g. proton_wrapper.cxx:129-394. -/
abbrev Prog (α : Type) : Type := Cursor → Res α × Cursor

namespace Prog

/-- Sequencing; an exception or undefined behaviour stops the rest. Framework of the model, for all of /repo: no code of its own. -/
def bind {α β : Type} (p : Prog α) (f : α → Prog β) : Prog β := fun c =>
  match p c with
  | (.ok a, c') => f a c'
  | (.throw m, c') => (.throw m, c')
  | (.ub w, c') => (.ub w, c')

instance : Monad Prog where
  pure a := fun c => (.ok a, c)
  bind := bind

/-- Throw an exception. Framework of the model, for all of /repo: e.g. proton_wrapper.cxx:142. -/
def throw {α : Type} (m : String) : Prog α := fun c => (.throw m, c)

/-- Undefined behaviour. Framework of the model, for all of /repo: no code of its own. -/
def ub {α : Type} (w : String) : Prog α := fun c => (.ub w, c)

/-- Use the result of a computation that does not touch the data. Framework of the model, for all of /repo: no code of its own. -/
def lift {α : Type} (r : Res α) : Prog α := fun c => (r, c)

/-- Look at the data without moving. Framework of the model, for all of /repo: e.g. proton_wrapper.cxx:131. -/
def look {α : Type} (f : Cursor → α) : Prog α := fun c => (.ok (f c), c)

/-- Look at the data without moving, possibly failing. Framework of the model, for all of /repo: e.g. PrimToSerializer.h:76. -/
def lookR {α : Type} (f : Cursor → Res α) : Prog α := fun c => (f c, c)

/-- `pn_data_next (data_)`. Not in /repo (proton, codec.c); called in proton_wrapper.cxx:124, 436. -/
def next : Prog Bool := fun c => (.ok c.next.1, c.next.2)

/-- The scope of an object whose constructor enters the current node and whose destructor exits again, with the rest of the scope as `body`;
the destructor also runs when an exception passes. proton_wrapper.cxx:402-415, 445-461, 477-493. -/
def scope {α : Type} (ctor : Cursor → Cursor) (body : Prog α) : Prog α := fun c =>
  let r := body (ctor c)
  (r.1, r.2.exit)

/-- `proton::auto_enter p (data_, next_)`: proton_wrapper.cxx:402-415, with proton::pn_data_enter 121-125. -/
def autoEnter {α : Type} (body : Prog α) (next_ : Bool := false) : Prog α :=
  scope (fun c => let c1 := c.enter.next.2; if next_ then c1.next.2 else c1) body

/-- `pn_data_get_list`: number of children if the current node is a list, else 0. Not in /repo (proton, codec.c); called in
proton_wrapper.cxx:447. -/
def _root_.Corda.Cursor.getList (c : Cursor) : Nat :=
  match c.cur with
  | some (.mk .list ks) => ks.length
  | _ => 0

/-- `pn_data_get_map`: number of children if the current node is a map, else 0. Not in /repo (proton, codec.c); called in
proton_wrapper.cxx:479. -/
def _root_.Corda.Cursor.getMap (c : Cursor) : Nat :=
  match c.cur with
  | some (.mk .map ks) => ks.length
  | _ => 0

/-- `proton::auto_list_enter ale (data_, next_)`: proton_wrapper.cxx:445-461; the body gets `elements()`. -/
def autoListEnter {α : Type} (body : Nat → Prog α) (next_ : Bool := false) : Prog α := fun c =>
  scope (fun c => if next_ then c.enter.next.2 else c.enter) (body c.getList) c

/-- `proton::auto_map_enter ame (data_, next_)`: proton_wrapper.cxx:477-493. -/
def autoMapEnter {α : Type} (body : Nat → Prog α) (next_ : Bool := false) : Prog α := fun c =>
  scope (fun c => if next_ then c.enter.next.2 else c.enter) (body c.getMap) c

/-- `proton::auto_next an (data_)` around the rest of a scope: proton_wrapper.cxx:423-437.  (The data pointer is
never null.) -/
def autoNext {α : Type} (body : Prog α) : Prog α := fun c =>
  let r := body c
  (r.1, r.2.next.2)

/-- `while (pn_data_next (data_)) { body }`, collecting what the iterations produce. `fuel` bounds the number of iterations. E.g.
FieldDescriptor.cxx:57-59, CompositeDescriptor.cxx:79-82. -/
def whileNextGo {α : Type} (body : Prog α) : Nat → Prog (List α)
  | 0 => ub "fuel"
  | fuel + 1 => do
    if ← next then do
      let a ← body
      let as ← whileNextGo body fuel
      pure (a :: as)
    else pure []

/-- `while (pn_data_next (data_)) { body }`. Every iteration uses up at least one sibling, so the bound is never reached (`Scoped`
programs). E.g. FieldDescriptor.cxx:57-59, CompositeDescriptor.cxx:79-82. -/
def whileNext {α : Type} (body : Prog α) : Prog (List α) := fun c =>
  whileNextGo body (c.rest.length + 1) c

/-- `while (pn_data_next (data_)) { body }` where the iterations change a local variable. SchemaDescriptor.cxx:47-57. -/
def foldNextGo {σ : Type} (body : σ → Prog σ) : Nat → σ → Prog σ
  | 0, _ => ub "fuel"
  | fuel + 1, s => do
    if ← next then do
      let s' ← body s
      foldNextGo body fuel s'
    else pure s

/-- `while (pn_data_next (data_)) { body }` where the iterations change a local variable; bound as for `whileNext`.
SchemaDescriptor.cxx:47-57. -/
def foldNext {σ : Type} (body : σ → Prog σ) (s : σ) : Prog σ := fun c =>
  foldNextGo body (c.rest.length + 1) s c

/-- `pn_data_put_*`. Not in /repo (proton, codec.c); called in ModifiableAMQPBlobImpl.cxx:40-46, 77, 103-105. -/
def put (v : Atom) : Prog Unit := fun c => (.ok (), c.put v)

/-- `pn_data_append`, with the contents of the other `pn_data_t`. Not in /repo (proton, codec.c); called in EnvelopeDescriptor.cxx:161-162,
CompositeDescriptor.cxx:283, SchemaDescriptor.cxx:168. -/
def append (ns : List Node) : Prog Unit := fun c => (.ok (), c.append ns)

/-- The contents of a `pn_data (0)` after a program filled it. E.g. FieldDescriptor.cxx:286-317. -/
def made (p : Prog Unit) : List Node := (p Cursor.empty).2.forest

end Prog

end Corda
