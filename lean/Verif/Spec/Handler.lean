import Verif.Model.Handler

/-! Vocabulary for requests, their handling, and cancellation. -/

namespace Distbench.Spec
open Handler

/-- A chain of RPCs, each sent while the one before is handled (by the list that handles it or by a
list nested in it): the iterations they belong to, their positions in them, and the last request. -/
inductive Chain : List (Iteration × Nat) → Request → Prop where
  | start : Chain [] topRequest
  | hop {hops r it i rs t r'} : Chain hops r → requests r it = .ok rs → rs[i]? = some (t, r') →
      Chain (hops ++ [(it, i)]) r'

/-- The iteration is one that starts a trace. -/
def StartsTrace (it : Iteration) : Prop :=
  0 < it.tracingInterval ∧ it.tracingInterval ∣ it.traceCounter

instance (it : Iteration) : Decidable (StartsTrace it) := inferInstanceAs (Decidable (_ ∧ _))

/-- The part of a chain that is traced: from the first iteration that starts a trace. -/
def tracedPart : List (Iteration × Nat) → List (Iteration × Nat)
  | [] => []
  | h :: hops => if StartsTrace h.1 then h :: hops else tracedPart hops

/-- The trace context that lists the given hops. -/
def contextOf (hops : List (Iteration × Nat)) : TraceContext :=
  { engineIds := hops.map (·.1.place.engine)
    listInvocations := hops.map (·.1.place.invocation)
    listIndices := hops.map (·.1.place.list)
    actionIndices := hops.map (·.1.place.action)
    iterations := hops.map (·.1.place.iteration)
    fanouts := hops.map (fun h => (h.2 : Int)) }

/-- Traffic was cancelled, and the grace period is over. -/
def TooLate (s : Server) (now : Int) : Prop := ∃ c, s.canceled = some c ∧ c.time < now

/-- Entry `d` is the one for RPC index `i`. -/
def IsEntry (s : Server) (i : Int) (d : ServerRpc) : Prop :=
  0 ≤ i ∧ s.table[i.toNat]? = some d

/-- The size of the response to a request handled without an action list, or with one that does not
choose another: what the request asks for, else the size distribution, else the fixed size, else 0. -/
def responseSizeOf (d : ServerRpc) (draw : Int → Int) (r : Request) : Int :=
  match r.responseSize with
  | some n => n
  | none =>
    if 0 ≤ d.responseIndex then draw d.responseIndex
    else if 0 ≤ d.responseSize then d.responseSize
    else 0

/-- Running list `k` sends one response and then frees the state (C31). -/
def AnswersOnce (ofList : Int → List Effect) : Prop := ∀ k, ∃ r, ofList k = [.respond r, .free]

/-- The states an engine's count of pending RPCs goes through, the latest first. -/
inductive PendingRun (limit : Int) : List Pending → Prop where
  | start : PendingRun limit [.start]
  | step {p q l} : PendingRun limit (p :: l) → PendingStep limit p q → PendingRun limit (q :: p :: l)

end Distbench.Spec
