import Verif.Model.Loops

/-! The traffic of a whole test with the loops of the engines in full, when traffic may be cancelled:
distbench_engine.cc:904-912 (CancelTraffic), 977-987 (RpcHandler), 1413-1436 (an action that cancels the
traffic when it is done), 1475-1489 (RunActionList), 2044-2095 (FinishIteration).

Simplified, besides what Model/Loops.lean says: when an engine is cancelled is left open, and so is how long
its grace period is, only that it may end at some time. -/

namespace Distbench.LoopsCancel
open Whole Loops

/-- The traffic, the engines whose traffic was cancelled, and those of them whose grace period is over.
Code: distbench_engine.h:440-460 (canceled_, cancelation_time_). -/
structure State where
  base : Loops.State
  cancelled : Nat → Bool := fun _ => false
  refusing : Nat → Bool := fun _ => false

/-- A run of a list on a cancelled engine: its thread and the iterations of all its actions find the flag set
when they next look.  Code: distbench_engine.cc:1477 and 2046 (canceled_.HasBeenNotified). -/
def tell (k : Job) : Job :=
  { k with
    main := { k.main with canceled := true }
    under := fun a => (k.under a).map fun u => { u with state := { u.state with canceled := true } } }

/-- The flag of an engine is one for all its runs of lists: those that are under way, those that begin
later, and the one of them that set it.
Code: distbench_engine.cc:904-912 (canceled_.TryToNotify), 1430-1434. -/
def settle (s : State) (b : Loops.State) : State :=
  let flag := fun e => s.cancelled e || b.jobs.any fun k => k.engine = e && k.main.canceled
  { base := { b with jobs := b.jobs.map fun k => if flag k.engine then tell k else k }
    cancelled := flag
    refusing := s.refusing }

/-- What can happen: what can happen without cancellation, except that an engine whose grace period is over
does not handle RPCs; an engine is cancelled; its grace period ends; it refuses an RPC.
Code: distbench_engine.cc:904-912, 977-987, 1311-2110. -/
inductive Step (w : Test) (s : State) : State → Prop where
  | run {b} : Loops.Step w s.base b →
      (∀ (c : Nat) call, s.base.calls[c]? = some call → call.stage = .sent → s.refusing call.target = true →
        b.calls[c]? = some call) →
      Step w s (settle s b)
  | cancel (e : Nat) : Step w s (settle { s with cancelled := fun i => i == e || s.cancelled i } s.base)
  | expire {e : Nat} : s.cancelled e = true →
      Step w s { s with refusing := fun i => i == e || s.refusing i }
  | refuse {c call} : s.base.calls[c]? = some call → call.stage = .sent → s.refusing call.target = true →
      Step w s { s with base := { s.base with calls := s.base.calls.set c { call with stage := .answered } } }

/-- The states of a test, which begins with no engine cancelled.  Code: distbench_engine.cc:876-2110. -/
inductive Reach (w : Test) : State → Prop where
  | start {b} : Start w b → Reach w { base := b }
  | step {s s'} : Reach w s → Step w s s' → Reach w s'

end Distbench.LoopsCancel
