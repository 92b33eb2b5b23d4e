/-! Shared vocabulary of the models: strings, 32-bit arithmetic, outcomes, name tables. -/

namespace Distbench

/-- C++ strings are modelled as lists of characters.
Code: all of /repo, e.g. distbench_utils.cc:87-137 (`std::string`). -/
abbrev Str := List Char

/-- Outcome of a function returning `absl::StatusOr<T>`, with undefined behaviour and process
aborts (`CHECK`, `LOG(FATAL)`) as separate outcomes.
Code: all of /repo, e.g. distbench_utils.cc:129-137. -/
inductive Outcome (α : Type) where
  | ok (value : α)
  | error (message : String)
  | ub
  | crash
  deriving DecidableEq, Repr

/-- Sequencing: the first outcome that is not a value ends the function.
Code: all of /repo, e.g. distbench_engine.cc:660-701 (`if (!status.ok()) return status;`). -/
def Outcome.bind {α β : Type} (x : Outcome α) (f : α → Outcome β) : Outcome β :=
  match x with
  | .ok v => f v
  | .error m => .error m
  | .ub => .ub
  | .crash => .crash

instance : Monad Outcome where
  pure := .ok
  bind := Outcome.bind

/-- The values of a C++ `int`.  Code: all of /repo, e.g. distbench_utils.cc:708-742. -/
def InI32 (n : Int) : Prop := -2 ^ 31 ≤ n ∧ n < 2 ^ 31

instance (n : Int) : Decidable (InI32 n) := inferInstanceAs (Decidable (_ ∧ _))

/-- The values of `int64_t`.  Code: all of /repo, e.g. distbench_utils.cc:319-352. -/
def InI64 (n : Int) : Prop := -2 ^ 63 ≤ n ∧ n < 2 ^ 63

instance (n : Int) : Decidable (InI64 n) := inferInstanceAs (Decidable (_ ∧ _))

/-- Signed 32-bit arithmetic; `none` is undefined behaviour (overflow).
Code: all of /repo, e.g. distbench_utils.cc:708-726. -/
def chk32 (n : Int) : Option Int := if InI32 n then some n else none

/-- `std::map<std::string, int>` as an association list with unique keys.  Simplification: the
iteration order (sorted by key) is not represented, only lookups.
Code: distbench_utils.cc:87-127; distbench_engine.h:393-431. -/
abbrev NameMap := List (Str × Int)

/-- `m[key] = value`.  Code: distbench_utils.cc:87-127. -/
def NameMap.set (m : NameMap) (key : Str) (value : Int) : NameMap :=
  match m with
  | [] => [(key, value)]
  | (k, v) :: rest => if k = key then (k, value) :: rest else (k, v) :: NameMap.set rest key value

/-- `m.find(key)`.  Code: distbench_engine.cc:174-183, 2519-2553. -/
def NameMap.find (m : NameMap) (key : Str) : Option Int :=
  match m with
  | [] => none
  | (k, v) :: rest => if k = key then some v else NameMap.find rest key

end Distbench
