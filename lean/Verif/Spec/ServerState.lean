import Verif.Model.ServerState
import Verif.Model.ActionList

/-! Vocabulary for answering RPCs and freeing what was allocated for them. -/

namespace Distbench.Spec
open ServerState

/-- The state came from a server, so that a client waits for a response. -/
def FromClient : Maker → Prop
  | .inline | .handoff | .polling | .homa | .mercury => True
  | .traffic | .trace | .list => False

/-- Nothing is left of what was allocated for the state; that of the inline server is a local variable
of the call and goes with it. -/
def StateGone (k : Maker) (s : ServerState.State) : Prop :=
  s.request = false ∧ (s.alive = false ∨ k = .inline)

/-- `ops` is `calls` as the server of kind `k` sees them: the polling server also learns, once, some
time after the response was sent, that it has gone out. -/
inductive Seen (k : Maker) (calls : List Op) : List Op → Prop where
  | plain : k ≠ .polling → Seen k calls calls
  | polling {a b c} : k = .polling → calls = a ++ .send :: (b ++ c) →
      Seen k calls (a ++ .send :: (b ++ .gone :: c))

/-- The call on the state of an RPC that an event of a run of an action list is, if it is one. -/
def callOf : ActionList.Event → Option Op
  | .response .. => some .send
  | .freed => some .free
  | _ => none

/-- The calls on the state of an RPC that a run of an action list made, oldest first; its log is
newest first. -/
def callsOf (log : List ActionList.Event) : List Op := log.reverse.filterMap callOf

/-- All went well: responses went to waiting clients, one each, and nothing is left. -/
def WentWell (k : Maker) (x : Outcome ServerState.State) : Prop :=
  ∃ s, x = .ok s ∧ (FromClient k → s.sent = 1) ∧ (¬ FromClient k → s.sent = 0) ∧ StateGone k s

/-- The same, as far as one can see from outside: both went wrong in the same way, or the same number
of responses was sent and the same things exist. -/
def Alike : Outcome ServerState.State → Outcome ServerState.State → Prop
  | .ok s, .ok t => s.sent = t.sent ∧ s.alive = t.alive ∧ s.request = t.request ∧ s.refs = t.refs
  | .ub, .ub => True
  | .crash, .crash => True
  | _, _ => False

end Distbench.Spec
