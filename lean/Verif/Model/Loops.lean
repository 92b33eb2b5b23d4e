import Verif.Model.ActionList
import Verif.Model.WholeTime

/-! The traffic of a whole test with the loops of the engines in full: each run of an action list is the
state machine of Model/ActionList.lean, each started action the one of Model/Iterations.lean, and the RPCs
and lists that an iteration began decide when it may end.  distbench_engine.cc:876-905 (RunTraffic),
977-1049 (RpcHandler), 1311-1643 (RunActionList), 1793-2102 (actions and their iterations).

Simplified: every RPC is delivered and completed; activities, replay traces and the cancellation of traffic
from outside are left out; all engines start together.  The schedule is freer than in the code: an action
that has been started may begin its iterations at any later moment, and all threads are interleaved. -/

namespace Distbench.Loops
open Tables Services Whole

/-- An action whose iterations have begun, and when they did.  Code: distbench_engine.cc:1907-1968. -/
structure Under where
  since : Int
  state : Iterations.State

/-- A run of an action list: the engine, the place of the list in its tables, why it runs, what it reads,
whether it is run for a warmup, the thread that runs it, and its actions that are under way.
Code: distbench_engine.cc:1311-1357, distbench_engine.h:194-310. -/
structure Job where
  engine : Nat
  list : Nat
  parent : Traffic.Parent
  entry : ActionListEntry
  predicates : List Str
  warmup : Bool
  main : ActionList.State
  under : Nat → Option Under := fun _ => none

/-- All runs of lists and all RPCs so far.  The `iter` of an RPC is the number of the iteration.
Code: distbench_engine.h:340-460. -/
structure State where
  jobs : List Job
  calls : List Traffic.Call := []

/-- The tables of an engine.  Code: distbench_engine.cc:437-660. -/
def tablesOf (w : Test) (e : Nat) : Tables := w.tables ((serviceOf w.cfg e).getD 0)

/-- What the run of a list reads.  Code: distbench_engine.cc:1311-1357, 1860-1882. -/
def Job.ctx (w : Test) (k : Job) : ActionList.Ctx :=
  { entry := k.entry
    rpcTable := (tablesOf w k.engine).rpcTable
    hasPeers := fun i => decide (0 < serverCount w.cfg i)
    predicates := k.predicates }

/-- The parameters of an action that is under way.  Code: distbench_engine.cc:1907-1960. -/
def Job.params (k : Job) (x : ActionEntry) (u : Under) : Iterations.Params :=
  Iterations.params x.proto u.since k.warmup

/-- `k` is a run of the list `list` that `engine` begins.  (Whether it is for a warmup is left open.)
Code: distbench_engine.cc:1311-1359. -/
def Opens (w : Test) (engine list : Nat) (parent : Traffic.Parent) (k : Job) : Prop :=
  ∃ (entry : ActionListEntry) (draw : Str → Rat) (now : Int) (warmup : Bool),
    (tablesOf w engine).actionLists[list]? = some entry ∧
    k = { engine := engine, list := list, parent := parent, entry := entry, warmup := warmup
          predicates := ActionList.drawnPredicates entry.proto.predicateProbabilities draw
          main := ActionList.init now false }

/-- The start of the traffic: each engine whose service has a list of its own name runs it.
Code: distbench_engine.cc:876-901. -/
def Start (w : Test) (s : State) : Prop :=
  s.calls = [] ∧ s.jobs.length = (roots w.cfg).length ∧
  ∀ (j : Nat) (r : Nat × Nat), (roots w.cfg)[j]? = some r →
    ∃ k, s.jobs[j]? = some k ∧ Opens w r.1 r.2 .root k

/-- The number of responses that a run of a list has sent.  Code: distbench_engine.cc:1424, 1505. -/
def responses (log : List ActionList.Event) : Nat :=
  log.countP fun e => match e with | .response _ _ => true | _ => false

/-- The RPCs after the thread of a list, or a callback, has gone from `m` to `m'`: a response that was sent
answers the RPC that the list runs for.  Code: distbench_engine.cc:1424, 1505 (SendResponseIfSet). -/
def respond (m m' : ActionList.State) (parent : Traffic.Parent) (calls : List Traffic.Call) :
    List Traffic.Call :=
  if responses m.log < responses m'.log then Traffic.answer calls parent else calls

/-- An iteration that has not ended: one of its RPCs is not back, or the list it runs is not over.
Code: distbench_engine.cc:1853-1859, 2090-2110. -/
def busy (s : State) (j a n : Nat) : Bool :=
  (s.calls.any fun c => c.job = j && c.action = a && c.iter = n && !(c.stage = .completed)) ||
    (s.jobs.any fun k => k.parent = .action j a n && !(k.main.phase = .done))

/-- Whether the thread pool of an engine has a free thread.  Code: distbench_threadpool.cc:74-255. -/
def freeThread (w : Test) (s : State) (engine : Nat) : Bool :=
  match w.threads engine with
  | none => true
  | some n => decide ((s.jobs.countP fun k => k.engine = engine &&
      (match k.parent with | .call _ => true | _ => false) && !(k.main.phase = .done)) < n)

/-- The run with the action `a` under way in this way.  Code: distbench_engine.h:194-227. -/
def Job.goes (k : Job) (a : Nat) (u : Under) : Job :=
  { k with under := fun b => if b = a then some u else k.under b }

/-- The run `j` has the action `x` at place `a`, and it is under way.  Code: distbench_engine.h:194-227. -/
def UnderWay (s : State) (j a : Nat) (k : Job) (x : ActionEntry) (u : Under) : Prop :=
  s.jobs[j]? = some k ∧ k.entry.listActions[a]? = some x ∧ k.under a = some u

/-- The state in which the run `j` is `k`.  Code: distbench_engine.h:252-310. -/
def State.put (s : State) (j : Nat) (k : Job) : State := { s with jobs := s.jobs.set j k }

/-- What can happen: the thread of a list takes a step; the iterations of a started action are set up; an
iteration begins, and makes RPCs, runs a list, or does something else; an iteration ends, once nothing of it
is under way; the bookkeeping between iterations; time passes; an action reports that it is done, and the
list takes note of it; and the way of an RPC.
Code: distbench_engine.cc:977-1049, 1311-1528, 1793-2110. -/
inductive Step (w : Test) (s : State) : State → Prop where
  | main {j k m} : s.jobs[j]? = some k → ActionList.MainStep (k.ctx w) k.main m →
      Step w s { jobs := s.jobs.set j { k with main := m }, calls := respond k.main m k.parent s.calls }
  | setUp {j a k x st} (now spread : Int) : s.jobs[j]? = some k → k.entry.listActions[a]? = some x →
      (k.main.acts a).started = true → (k.main.acts a).skipped = false → (k.main.acts a).stuck = false →
      k.under a = none →
      Iterations.initiate x.proto now k.warmup k.main.canceled spread = .ok st →
      Step w s (s.put j (k.goes a ⟨now, st⟩))
  | rpcs {j a k x u st n b t q f} (targets : List Nat) : UnderWay s j a k x u →
      Iterations.Work (k.params x u) u.state st → st.log = .started n b t :: u.state.log →
      toWork (fun _ => 0) x = .rpc q f → Picks w k.engine x targets →
      Step w s { s.put j (k.goes a ⟨u.since, st⟩) with
        calls := s.calls ++ Traffic.newCalls q j a n.toNat targets }
  | list {j a k x u st n b t l k'} : UnderWay s j a k x u →
      Iterations.Work (k.params x u) u.state st → st.log = .started n b t :: u.state.log →
      toWork (fun _ => 0) x = .list l → Opens w k.engine l (.action j a n.toNat) k' →
      Step w s { s with jobs := s.jobs.set j (k.goes a ⟨u.since, st⟩) ++ [k'] }
  | other {j a k x u st n b t} : UnderWay s j a k x u →
      Iterations.Work (k.params x u) u.state st → st.log = .started n b t :: u.state.log →
      toWork (fun _ => 0) x = .other → Step w s (s.put j (k.goes a ⟨u.since, st⟩))
  | ended {j a k x u st n} : UnderWay s j a k x u →
      Iterations.Work (k.params x u) u.state st → st.log = .ended n :: u.state.log →
      busy s j a n.toNat = false → Step w s (s.put j (k.goes a ⟨u.since, st⟩))
  | quiet {j a k x u st} : UnderWay s j a k x u → Iterations.Work (k.params x u) u.state st →
      st.log = u.state.log → Step w s (s.put j (k.goes a ⟨u.since, st⟩))
  | idle {j a k x u st} : UnderWay s j a k x u → Iterations.Idle (k.params x u) u.state st →
      st.canceled = k.main.canceled → Step w s (s.put j (k.goes a ⟨u.since, st⟩))
  | allDone {j a k x u st} : UnderWay s j a k x u → Iterations.Work (k.params x u) u.state st →
      st.log = .allDone :: u.state.log →
      Step w s
        { jobs := s.jobs.set j
            { k.goes a ⟨u.since, st⟩ with main := ActionList.callback (k.ctx w) a k.main }
          calls := respond k.main (ActionList.callback (k.ctx w) a k.main) k.parent s.calls }
  | finish {j a k} : s.jobs[j]? = some k → a < k.entry.listActions.length →
      (k.main.acts a).called = true → (k.main.acts a).closed = false →
      Step w s (s.put j { k with main := ActionList.finishAction a k.main })
  | deliver {c call} : s.calls[c]? = some call → call.stage = .sent →
      Step w s { s with calls := s.calls.set c { call with stage :=
        if (handlerOf (tablesOf w call.target) call.rpc).isSome then .queued else .answered } }
  | dispatch {c call l k'} : s.calls[c]? = some call → call.stage = .queued →
      handlerOf (tablesOf w call.target) call.rpc = some l → freeThread w s call.target = true →
      Opens w call.target l (.call c) k' →
      Step w s { jobs := s.jobs ++ [k'], calls := s.calls.set c { call with stage := .running } }
  | complete {c call} : s.calls[c]? = some call → call.stage = .answered →
      Step w s { s with calls := s.calls.set c { call with stage := .completed } }

/-- The states of a test.  Code: distbench_engine.cc:876-2110. -/
inductive Reach (w : Test) : State → Prop where
  | start {s} : Start w s → Reach w s
  | step {s s'} : Reach w s → Step w s s' → Reach w s'

end Distbench.Loops
