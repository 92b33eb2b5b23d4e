import Verif.Model.Locks

/-! Specification of deadlocks. -/

namespace Distbench.Spec
open Locks

/-- The thread is about to take the lock. -/
def Wants (t : Thread) (l : Lock) : Prop := ∃ rest, t.rest = .acquire l :: rest

/-- A deadlock: threads each of which wants a lock that one of them holds.  A thread that wants a lock
it holds itself is one. -/
def Deadlocked (threads : List Thread) : Prop :=
  threads ≠ [] ∧ ∀ t ∈ threads, ∃ l, Wants t l ∧ ∃ u ∈ threads, l ∈ u.held

/-- The thread waits for something that is not a lock. -/
def WaitsElsewhere (t : Thread) : Prop := ∃ rest, t.rest = .pause :: rest

/-- The thread can go on at once: its next lock is free, or it is to unlock one. -/
def CanMove (s : List Thread) (t : Thread) : Prop :=
  (∃ l rest, t.rest = .release l :: rest) ∨ ∃ l, Wants t l ∧ ∀ u ∈ s, l ∉ u.held

end Distbench.Spec
