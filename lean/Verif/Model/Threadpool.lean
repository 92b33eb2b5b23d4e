import Verif.Model.Basic

/-! Model of the thread pools (distbench_threadpool.cc).  Tasks are numbers; the same task may be added
several times.  A critical section of the pool's mutex is one operation; running a task takes place
between operations.  An operation that is not possible in a state yields `none`.  `added`, `begun` and
`finished` are the history of the pool: the tasks in the order they were added, handed to a thread
and completed.

Tasks may be added by the pool's own tasks at any time, and by others until the pool is destroyed:
calling `AddTask` from outside once the destructor has begun is an error of the caller. -/

namespace Distbench.Threadpool

/-- What a thread of a pool is doing.  Code: distbench_threadpool.cc:48-282. -/
inductive Th where
  /-- calling `task()` -/
  | running (task : Nat)
  /-- about to lock the mutex; `did` is `did_work` -/
  | between (did : Bool)
  /-- in `Await`; `timed` if the wait has a time limit -/
  | waiting (timed : Bool)
  /-- returned -/
  | exited
  deriving DecidableEq, Repr

/-! ### Elastic pool -/

/-- `ElasticThreadpool`, distbench_threadpool.cc:126-146. -/
structure Elastic where
  max : Nat
  queue : List Nat := []
  idle : Nat := 0
  active : Nat := 0
  launched : Nat := 0
  count : Nat := 0
  shutdown : Bool := false
  destroyed : Bool := false
  threads : List Th := []
  added : List Nat := []
  begun : List Nat := []
  finished : List Nat := []
  deriving DecidableEq, Repr

/-- Starting a thread with the first task of the queue, distbench_threadpool.cc:163-168 and 170-175
(and 220-224, 227-232).  The queue is not empty when this is called.  `RunRegisteredThread` does not
fail. -/
def Elastic.launch (s : Elastic) : Elastic :=
  match s.queue with
  | [] => s
  | task :: rest =>
    { s with
      launched := s.launched + 1
      active := s.active + 1
      queue := rest
      threads := s.threads ++ [.running task]
      begun := s.begun ++ [task] }

/-- `ElasticThreadpool::AddTask` after the wait, distbench_threadpool.cc:158-176. -/
def Elastic.addTask (s : Elastic) (task : Nat) : Elastic :=
  let s := { s with queue := s.queue ++ [task], added := s.added ++ [task] }
  if s.idle = 0 ∨ (s.active < s.max ∧ s.queue.length > s.idle) then s.launch else s

/-- The end of a task, distbench_threadpool.cc:196-200. -/
def Elastic.finish (s : Elastic) (i task : Nat) : Elastic :=
  { s with threads := s.threads.set i (.between true), finished := s.finished ++ [task] }

/-- Locking the mutex and the first half of `WaitForTask`, distbench_threadpool.cc:201-205 and
179-186. -/
def Elastic.wait (s : Elastic) (i : Nat) (did : Bool) : Elastic :=
  { s with
    count := if did then s.count + 1 else s.count
    idle := s.idle + 1
    threads := s.threads.set i (.waiting (decide (s.idle + 1 > s.max))) }

/-- A wait that ends because a task is available or the pool shuts down,
distbench_threadpool.cc:187-189 and 206-232. -/
def Elastic.wake (s : Elastic) (i : Nat) : Elastic :=
  let s := { s with idle := s.idle - 1 }
  match s.queue with
  | [] => { s with active := s.active - 1, threads := s.threads.set i .exited }
  | task :: rest =>
    let s := { s with queue := rest, threads := s.threads.set i (.running task), begun := s.begun ++ [task] }
    if s.idle = 0 ∧ s.queue ≠ [] then s.launch else s

/-- A wait that ends because of its time limit, distbench_threadpool.cc:187-189 and 233-243. -/
def Elastic.timeout (s : Elastic) (i : Nat) : Elastic :=
  let s := { s with idle := s.idle - 1 }
  if s.idle ≥ s.max then { s with active := s.active - 1, threads := s.threads.set i .exited }
  else { s with threads := s.threads.set i (.between false) }

/-- The operations of a pool: `thread` is the number of the thread they concern.
Code: distbench_threadpool.cc:48-282. -/
inductive Op where
  /-- `AddTask(task)` called from outside -/
  | add (task : Nat)
  /-- `AddTask(task)` called by the task that the thread runs -/
  | addFrom (thread task : Nat)
  | finish (thread : Nat)
  | wait (thread : Nat)
  | wake (thread : Nat)
  | timeout (thread : Nat)
  /-- the destructor begins -/
  | shutdown
  /-- the destructor returns -/
  | destroyed
  deriving DecidableEq, Repr

/-- One operation of an elastic pool.  The guards are the conditions of the waits:
distbench_threadpool.cc:151-157 (`AddTask`), 179-187 (`WaitForTask`; it returns false only if the time
limit passes while the condition does not hold), 258-262 (destructor). -/
def Elastic.step (s : Elastic) : Op → Option Elastic
  | .add task => if s.shutdown = false ∧ s.queue.length + 1 ≤ s.max then some (s.addTask task) else none
  | .addFrom i task =>
    match s.threads[i]? with
    | some (.running _) => if s.queue.length + 1 ≤ s.max then some (s.addTask task) else none
    | _ => none
  | .finish i =>
    match s.threads[i]? with
    | some (.running task) => some (s.finish i task)
    | _ => none
  | .wait i =>
    match s.threads[i]? with
    | some (.between did) => some (s.wait i did)
    | _ => none
  | .wake i =>
    match s.threads[i]? with
    | some (.waiting _) => if s.queue ≠ [] ∨ s.shutdown = true then some (s.wake i) else none
    | _ => none
  | .timeout i =>
    match s.threads[i]? with
    | some (.waiting true) => if s.queue = [] ∧ s.shutdown = false then some (s.timeout i) else none
    | _ => none
  | .shutdown => if s.shutdown = false then some { s with shutdown := true } else none
  | .destroyed =>
    if s.shutdown = true ∧ s.destroyed = false ∧ s.active = 0 then some { s with destroyed := true } else none

/-- A run of an elastic pool.  Code: distbench_threadpool.cc:147-282. -/
def Elastic.run (s : Elastic) : List Op → Option Elastic
  | [] => some s
  | op :: ops => match s.step op with
    | some s' => s'.run ops
    | none => none

/-- A new elastic pool, distbench_threadpool.cc:147-148. -/
def Elastic.new (size : Nat) : Elastic := { max := size }

/-! ### Simple pool -/

/-- `SimpleThreadpool`, distbench_threadpool.cc:71-84. -/
structure Simple where
  queue : List Nat := []
  active : Nat
  shutdown : Bool := false
  destroyed : Bool := false
  threads : List Th
  added : List Nat := []
  begun : List Nat := []
  finished : List Nat := []
  deriving DecidableEq, Repr

/-- The constructor, distbench_threadpool.cc:86-110: all threads begin by waiting. -/
def Simple.new (size : Nat) : Simple :=
  { active := size, threads := List.replicate size (.waiting false) }

/-- A thread's wait is over, distbench_threadpool.cc:96-103. -/
def Simple.wake (s : Simple) (i : Nat) : Simple :=
  match s.queue with
  | [] => { s with active := s.active - 1, threads := s.threads.set i .exited }
  | task :: rest =>
    { s with queue := rest, threads := s.threads.set i (.running task), begun := s.begun ++ [task] }

/-- One operation of a simple pool, distbench_threadpool.cc:86-124.  Going from one task to the next
wait is one operation with the end of the task. -/
def Simple.step (s : Simple) : Op → Option Simple
  | .add task =>
    if s.shutdown = false then some { s with queue := s.queue ++ [task], added := s.added ++ [task] } else none
  | .addFrom i task =>
    match s.threads[i]? with
    | some (.running _) => some { s with queue := s.queue ++ [task], added := s.added ++ [task] }
    | _ => none
  | .finish i =>
    match s.threads[i]? with
    | some (.running task) =>
      some { s with threads := s.threads.set i (.waiting false), finished := s.finished ++ [task] }
    | _ => none
  | .wake i =>
    match s.threads[i]? with
    | some (.waiting _) => if s.queue ≠ [] ∨ s.shutdown = true then some (s.wake i) else none
    | _ => none
  | .shutdown => if s.shutdown = false then some { s with shutdown := true } else none
  | .destroyed =>
    if s.shutdown = true ∧ s.destroyed = false ∧ s.active = 0 then some { s with destroyed := true } else none
  | .wait _ | .timeout _ => none

/-- A run of a simple pool.  Code: distbench_threadpool.cc:85-140. -/
def Simple.run (s : Simple) : List Op → Option Simple
  | [] => some s
  | op :: ops => match s.step op with
    | some s' => s'.run ops
    | none => none

/-! ### Null pool -/

/-- `NullThreadpool`, distbench_threadpool.cc:36-48. -/
structure Null where
  active : Nat := 0
  shutdown : Bool := false
  destroyed : Bool := false
  threads : List Th := []
  added : List Nat := []
  begun : List Nat := []
  finished : List Nat := []
  deriving DecidableEq, Repr

/-- `NullThreadpool::AddTask`, distbench_threadpool.cc:56-67. -/
def Null.addTask (s : Null) (task : Nat) : Null :=
  { s with
    active := s.active + 1
    threads := s.threads ++ [.running task]
    added := s.added ++ [task]
    begun := s.begun ++ [task] }

/-- One operation of a null pool, distbench_threadpool.cc:50-67. -/
def Null.step (s : Null) : Op → Option Null
  | .add task => if s.shutdown = false then some (s.addTask task) else none
  | .addFrom i task =>
    match s.threads[i]? with
    | some (.running _) => some (s.addTask task)
    | _ => none
  | .finish i =>
    match s.threads[i]? with
    | some (.running task) =>
      some { s with threads := s.threads.set i (.between true), finished := s.finished ++ [task] }
    | _ => none
  | .wait i =>
    match s.threads[i]? with
    | some (.between _) => some { s with active := s.active - 1, threads := s.threads.set i .exited }
    | _ => none
  | .shutdown => if s.shutdown = false then some { s with shutdown := true } else none
  | .destroyed =>
    if s.shutdown = true ∧ s.destroyed = false ∧ s.active = 0 then some { s with destroyed := true } else none
  | .wake _ | .timeout _ => none

/-- A run of a null pool.  Code: distbench_threadpool.cc:48-69. -/
def Null.run (s : Null) : List Op → Option Null
  | [] => some s
  | op :: ops => match s.step op with
    | some s' => s'.run ops
    | none => none

/-! ### Creation -/

/-- The pools `CreateThreadpool` makes.  Code: distbench_threadpool.cc:323-342. -/
inductive Pool where
  | elastic (p : Elastic)
  | simple (p : Simple)
  | null (p : Null)
  deriving DecidableEq, Repr

/-- `CreateThreadpool`, distbench_threadpool.cc:323-344.  The build without Mercury. -/
def createThreadpool (type : Str) (size : Int) : Outcome Pool :=
  if size < 1 then .error "Threadpool size must be positive"
  else if type = "simple".toList then .ok (.simple (.new size.toNat))
  else if type = [] ∨ type = "elastic".toList then .ok (.elastic (.new size.toNat))
  else if type = "null".toList then .ok (.null {})
  else .error "Threadpool type unknown: "

end Distbench.Threadpool
