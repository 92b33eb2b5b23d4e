import Verif.Model.Threadpool

/-! Specification of the thread pools. -/

namespace Distbench.Spec
open Threadpool

/-- The tasks being run by the threads. -/
def beingRun : List Th → List Nat
  | [] => []
  | .running task :: ths => task :: beingRun ths
  | _ :: ths => beingRun ths

/-- The thread has not returned. -/
def Live (t : Th) : Prop := t ≠ .exited

instance (t : Th) : Decidable (Live t) := inferInstanceAs (Decidable (t ≠ .exited))

/-- The thread waits for a task. -/
def Idle (t : Th) : Prop := ∃ timed, t = .waiting timed

instance (t : Th) : Decidable (Idle t) :=
  match t with
  | .waiting b => .isTrue ⟨b, rfl⟩
  | .running _ => .isFalse (by rintro ⟨_, h⟩; cases h)
  | .between _ => .isFalse (by rintro ⟨_, h⟩; cases h)
  | .exited => .isFalse (by rintro ⟨_, h⟩; cases h)

/-- The number of threads that have a property. -/
def number (p : Th → Prop) [DecidablePred p] (ths : List Th) : Nat := ths.countP (fun t => decide (p t))

/-- The thread has work to do before it waits. -/
def Busy (t : Th) : Prop := ∃ did, t = .between did

instance (t : Th) : Decidable (Busy t) :=
  match t with
  | .between b => .isTrue ⟨b, rfl⟩
  | .running _ => .isFalse (by rintro ⟨_, h⟩; cases h)
  | .waiting _ => .isFalse (by rintro ⟨_, h⟩; cases h)
  | .exited => .isFalse (by rintro ⟨_, h⟩; cases h)

/-- An operation by which the threads of a pool get on with the work: a task ends, a thread locks the
mutex, or a wait ends because of a task or the end of the pool. -/
def Works : Op → Prop
  | .finish _ | .wait _ | .wake _ => True
  | _ => False

/-- A bound on how many such operations are left while no task is added. -/
def workLeft (queue : List Nat) (threads : List Th) : Nat :=
  4 * queue.length + 2 * (beingRun threads).length + number Busy threads + number Live threads

end Distbench.Spec
