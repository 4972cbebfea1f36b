/-
Outcomes of C++ calls, strings and `size_t` arithmetic shared by the whole model.
-/

namespace Corda

/-- A C++ `std::string`; each `Char` stands for one `char` code unit. Used wherever /repo has `std::string`, e.g. SchemaUtils.cxx:45-51. -/
abbrev Str := List Char

/-- Outcome of a C++ call. `throw` is a C++ exception, `ub` is undefined behaviour (or an `assert` abort): anything may happen. Framework of
the model, for all of /repo: e.g. `throw` in proton_wrapper.cxx:142, AMQPBlob.cxx:37-38 for an `assert`. -/
inductive Res (α : Type) where
  | ok (a : α)
  | throw (msg : String)
  | ub (why : String)
  deriving DecidableEq, Repr

namespace Res

/-- Sequencing of C++ statements: an exception or undefined behaviour stops the rest. Framework of the model, for all of /repo: e.g. the
statements of SchemaUtils.cxx:55-64. -/
@[simp] def bind {α β : Type} : Res α → (α → Res β) → Res β
  | ok a, f => f a
  | throw m, _ => throw m
  | ub w, _ => ub w

instance : Monad Res where
  pure := ok
  bind := bind

@[simp] theorem pure_eq {α : Type} (a : α) : (pure a : Res α) = ok a := rfl
@[simp] theorem bind_eq {α β : Type} (x : Res α) (f : α → Res β) : (x >>= f) = Res.bind x f := rfl
@[simp] theorem map_eq {α β : Type} (x : Res α) (f : α → β) :
    (f <$> x) = Res.bind x (fun a => ok (f a)) := by
  cases x <;> rfl

/-- The call finished without undefined behaviour (it returned or threw). Framework of the model, for all of /repo: no code of its own. -/
def Defined {α : Type} : Res α → Prop
  | ub _ => False
  | _ => True

instance {α : Type} (r : Res α) : Decidable r.Defined := by
  cases r <;> unfold Defined <;> infer_instance

/-- The call threw a C++ exception. Framework of the model, for all of /repo: no code of its own. -/
def Throws {α : Type} : Res α → Prop
  | throw _ => True
  | _ => False

instance {α : Type} (r : Res α) : Decidable r.Throws := by
  cases r <;> unfold Throws <;> infer_instance

/-- The call has undefined behaviour. Framework of the model, for all of /repo: no code of its own. -/
def IsUB {α : Type} : Res α → Prop
  | ub _ => True
  | _ => False

instance {α : Type} (r : Res α) : Decidable r.IsUB := by
  cases r <;> unfold IsUB <;> infer_instance

end Res

/-- Number of values of `size_t` (LP64: the project targets 64-bit Linux/macOS). Not in /repo (standard library); used by
SchemaUtils.cxx:58-62, 71-87, CordaBytes.cxx:33. -/
def sizeMod : Nat := 2 ^ 64

/-- `std::string::npos`. Not in /repo (standard library); used by SchemaUtils.cxx:58, 71, Array.cxx:26, CompositeDescriptor.cxx:180. -/
def npos : Nat := sizeMod - 1

/-- `size_t` subtraction, wrapping modulo 2^64 (operands below 2^64). `list_.size() - pos - 2`, SchemaUtils.cxx:62, and alike, 85-87;
CordaBytes.cxx:33. -/
def subW (a b : Nat) : Nat := (a + sizeMod - b) % sizeMod

/-- `size_t` addition, wrapping modulo 2^64. `pos + 1`, SchemaUtils.cxx:62, 85, 87; CompositeDescriptor.cxx:182. -/
def addW (a b : Nat) : Nat := (a + b) % sizeMod

/-- `std::string::substr(pos, n)`: throws `out_of_range` if `pos > size()`. Not in /repo (standard library); called in
SchemaUtils.cxx:61-62, 84-87, Array.cxx:27, CompositeDescriptor.cxx:182-183, FieldDescriptor.cxx:171. -/
def substr (s : Str) (pos n : Nat) : Res Str :=
  if s.length < pos then .throw "basic_string::substr" else .ok ((s.drop pos).take n)

/-- `std::string::find(c)`: index of the first `c`, `npos` if there is none. Not in /repo (standard library); called in SchemaUtils.cxx:58,
71, Array.cxx:26. -/
def findChar (c : Char) (s : Str) : Nat :=
  if s.contains c then (s.takeWhile (· != c)).length else npos

/-- Every real `std::string` is far shorter than 2^64 - 2 characters (`max_size` is below 2^63). Not in /repo (standard library); the
precondition of SchemaUtils.cxx:55-91. -/
def Str.Small (s : Str) : Prop := s.length < 2 ^ 63

theorem subW_of_le {a b : Nat} (h : b ≤ a) (ha : a < sizeMod) : subW a b = a - b := by
  unfold subW
  rw [show a + sizeMod - b = (a - b) + sizeMod by omega, Nat.add_mod_right, Nat.mod_eq_of_lt (by omega)]

theorem addW_of_lt {a b : Nat} (h : a + b < sizeMod) : addW a b = a + b := Nat.mod_eq_of_lt h

end Corda
