import Verif.Model.Basic

/-! Model of the waits of `RealClock` (protocol_driver.cc:68-127).

Times are whole numbers of nanoseconds; a deadline may be `absl::InfiniteFuture()`.  The system clock,
the CPU clock of the thread and the values of the condition are given from outside. -/

namespace Distbench.Clock

/-- A deadline; `none` is `absl::InfiniteFuture()`.  Code: protocol_driver.cc:86-87. -/
abbrev Deadline := Option Int

/-- What the program sees in one call of `LockWhenWithDeadline` or `AwaitWithDeadline`: whether the
condition held when it returned, when that was, and what the CPU clock of the thread shows if it is
read afterwards.  Code: protocol_driver.cc:95-101, 115-119. -/
structure Answer where
  holds : Bool
  now : Int
  cpu : Int
  deriving DecidableEq, Repr

/-- What the thread does with the mutex.  Code: protocol_driver.cc:95-98, 103, 115, 121. -/
inductive Op where
  /-- `LockWhenWithDeadline` or `AwaitWithDeadline` with this deadline. -/
  | attempt (deadline : Deadline) (a : Answer)
  /-- `Unlock`. -/
  | unlock
  deriving DecidableEq, Repr

/-- The last call, protocol_driver.cc:103, 121: what was done, and what is returned (`none`: not
returned yet). -/
def final (deadline : Deadline) : List Answer → List Op × Option Bool
  | [] => ([], none)
  | a :: _ => ([.attempt deadline a], some a.holds)

/-- `now < timeout`, protocol_driver.cc:101, 119. -/
def before (now : Int) : Deadline → Bool
  | none => true
  | some t => decide (now < t)

/-- The spinning, protocol_driver.cc:94-101 (`lock`) and 114-119 (`lock = false`). -/
def spinning (lock : Bool) (deadline : Deadline) (start : Int) (timeout : Deadline) :
    List Answer → List Op × Option Bool
  | [] => ([], none)
  | a :: rest =>
    if a.holds then ([.attempt (some start) a], some true)
    else
      let next := if before a.cpu timeout then spinning lock deadline start timeout rest
        else final deadline rest
      (.attempt (some start) a :: ((if lock then [.unlock] else []) ++ next.1), next.2)

/-- `MutexLockWhenWithDeadline` (`lock`, protocol_driver.cc:84-104) and `MutexAwaitWithDeadline`
(`lock = false`, 106-122): what was done so far and what was returned, if it has returned, after
these answers.  `start` is the time of the call and `cpu` the CPU clock of the thread then.
`deadline - start` is infinite if the deadline is. -/
def wait (lock : Bool) (deadline : Deadline) (spin : Bool) (start cpu : Int) (answers : List Answer) :
    List Op × Option Bool :=
  if spin then spinning lock deadline start (deadline.map fun d => cpu + (d - start)) answers
  else final deadline answers

/-- `SpinFor`, protocol_driver.cc:74-82: what the CPU clock showed when it returned, given what it
showed when it was called and what it shows in turn; `none`: it has not returned yet. -/
def spinFor (duration start : Int) : List Int → Option Int
  | [] => none
  | now :: rest => if now - start < duration then spinFor duration start rest else some now

end Distbench.Clock
