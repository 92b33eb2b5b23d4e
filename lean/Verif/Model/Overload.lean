import Verif.Model.Basic

/-! Model of the protection against too many threads (distbench_thread_support.cc).  A critical section of
`abort_mutex` is one operation.  Callbacks are numbers. -/

namespace Distbench.Overload

/-- What a registered thread is doing.  Code: distbench_thread_support.cc:51-88. -/
inductive RTh where
  /-- it will call the callback, distbench_thread_support.cc:68-70 -/
  | flagged
  /-- it has seen a callback at line 70 and calls it at line 71 next -/
  | calling
  /-- running `f()` -/
  | working
  | ended
  deriving DecidableEq, Repr

/-- The variables at distbench_thread_support.cc:31-34, the threads, and as history: the decisions to
call the callback (threshold and number of threads at the time) and the calls.  `broken` if the
callback was empty when it was called. -/
structure State where
  max : Int := 0
  current : Int := 0
  callback : Option Nat := none
  threads : List RTh := []
  decisions : List (Int × Int) := []
  calls : List Nat := []
  broken : Bool := false
  deriving DecidableEq, Repr

/-- `SetOverloadAbortThreshhold`, distbench_thread_support.cc:38-44. -/
def setThreshold (s : State) (n : Int) : State :=
  { s with max := n, callback := if n = 0 then none else s.callback }

/-- `SetOverloadAbortCallback`, distbench_thread_support.cc:46-49. -/
def setCallback (s : State) (c : Nat) : State := { s with callback := some c }

/-- `RunRegisteredThread` up to the start of the thread, distbench_thread_support.cc:51-66.
Simplification: the wait of the caller for the callback is not represented, and `int` does not
overflow. -/
def startThread (s : State) : State :=
  let s := { s with current := s.current + 1 }
  if s.current > s.max ∧ s.max ≠ 0 ∧ s.callback.isSome then
    { s with max := 0, threads := s.threads ++ [.flagged], decisions := s.decisions ++ [(s.max, s.current)] }
  else { s with threads := s.threads ++ [.working] }

/-- The operations.  Code: distbench_thread_support.cc:38-94. -/
inductive Op where
  | threshold (n : Int)
  | callback (c : Nat)
  | start
  /-- line 70: is there a callback? -/
  | check (thread : Nat)
  /-- line 71 -/
  | call (thread : Nat)
  /-- lines 75-77 -/
  | finish (thread : Nat)
  deriving DecidableEq, Repr

/-- One operation; the callback is read without the mutex at distbench_thread_support.cc:70-71. -/
def step (s : State) : Op → Option State
  | .threshold n => some (setThreshold s n)
  | .callback c => some (setCallback s c)
  | .start => some (startThread s)
  | .check i =>
    match s.threads[i]? with
    | some .flagged =>
      some { s with threads := s.threads.set i (if s.callback.isSome then .calling else .working) }
    | _ => none
  | .call i =>
    match s.threads[i]? with
    | some .calling =>
      match s.callback with
      | some c => some { s with calls := s.calls ++ [c], threads := s.threads.set i .working }
      | none => some { s with broken := true }
    | _ => none
  | .finish i =>
    match s.threads[i]? with
    | some .working => some { s with current := s.current - 1, threads := s.threads.set i .ended }
    | _ => none

/-- A sequence of operations.  Code: distbench_thread_support.cc:38-94. -/
def run (s : State) : List Op → Option State
  | [] => some s
  | op :: ops => match step s op with
    | some s' => run s' ops
    | none => none

end Distbench.Overload
