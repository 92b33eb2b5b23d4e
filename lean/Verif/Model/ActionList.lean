import Verif.Model.Tables

/-! Model of running one action list: `RunActionList` and the functions of `ActionListState`
(distbench_engine.cc:1311-1643) as a transition system.

The thread that runs the list owns the `started`, `finished`, `waiting_for_delay` and `skipped`
flags; other threads only call the `all_done_callback` of started actions.  One step of the model
is one visit of an action by the loop of that thread, one of the other things that thread does
between two lock operations, or one half of a callback: sending the response and cancelling the
traffic, then `FinishAction`.  How the iterations of a started action come to an end is the subject
of `Model/Iterations.lean`; here a started action may call its callback at any later time. -/

namespace Distbench.ActionList
open Tables

/-- What `InitiateAction` does with an action: abort the process, return without starting anything,
or start iterations (having set the response payload override).  Code: distbench_engine.cc:1794-1968. -/
inductive Initiation where
  | crash
  | stuck
  | runs (override : Int)
  deriving DecidableEq

/-- `InitiateAction`, distbench_engine.cc:1794-1905 and 1936-1937: the dispatch on the kind of the
action, and the check that stops activities with an open-loop interval.  `hasPeers` tells whether a
service has any instances to send to. -/
def initiate (rpcTable : List RpcEntry) (hasPeers : Int → Bool) (a : ActionEntry) : Initiation :=
  if a.rpcReplayTraceIndex ≥ 0 then .runs (-1)
  else if a.actionlistIndex ≥ 0 then .runs (-1)
  else if a.rpcServiceIndex ≥ 0 then
    match rpcTable[a.rpcIndex.toNat]? with
    | none => .crash
    | some e =>
      if !e.definition.allowedFromThisClient then .stuck
      else if !hasPeers a.rpcServiceIndex then .stuck
      else .runs (-1)
  else
    match a.proto.kind with
    | .activity _ =>
      if (a.proto.iterations.bind (·.openLoopIntervalNs)).isSome then .crash else .runs (-1)
    | _ =>
      if a.responsePayloadOverrideIndex ≥ 0 then .runs a.responsePayloadOverrideIndex else .crash

/-- `s.predicates_`, distbench_engine.cc:1327-1337, for the numbers drawn. -/
def drawnPredicates (probabilities : List (Str × Rat)) (draw : Str → Rat) : List Str :=
  probabilities.map fun p => if draw p.1 ≤ p.2 then p.1 else '!' :: p.1

/-- What a run of an action list reads but does not change.
Code: distbench_engine.h:162-181, 195-227. -/
structure Ctx where
  entry : ActionListEntry
  rpcTable : List RpcEntry
  hasPeers : Int → Bool
  predicates : List Str

/-- `size`, distbench_engine.cc:1355. -/
def Ctx.size (c : Ctx) : Nat := c.entry.listActions.length

/-- `list_actions[i].dependent_action_indices`.  Code: distbench_engine.h:174. -/
def Ctx.deps (c : Ctx) (i : Nat) : List Nat :=
  match c.entry.listActions[i]? with
  | none => []
  | some a => a.dependentActionIndices.map (·.toNat)

/-- `action->proto.has_activity_config_name()`.  Code: distbench_engine.cc:1364. -/
def isActivity (a : ActionEntry) : Bool :=
  match a.proto.kind with
  | .activity _ => true
  | _ => false

/-- `action->proto.has_activity_config_name()` of action `i`.  Code: distbench_engine.cc:1364. -/
def Ctx.activityAt (c : Ctx) (i : Nat) : Bool :=
  match c.entry.listActions[i]? with
  | none => false
  | some a => isActivity a

/-- `cancel_traffic_when_done` of action `i`.  Code: distbench_engine.cc:1560-1570. -/
def Ctx.cancelsAt (c : Ctx) (i : Nat) : Bool :=
  match c.entry.listActions[i]? with
  | none => false
  | some a => a.proto.cancelTrafficWhenDone

/-- The scheduler's part of `struct ActionState`, distbench_engine.h:194-227.  `sender`: the
callback is the one that sends the response; `stuck`: `InitiateAction` returned early; `called` and
`closed`: the callback has sent the response, and has called `FinishAction`. -/
structure Act where
  started : Bool := false
  finished : Bool := false
  waiting : Bool := false
  skipped : Bool := false
  sender : Bool := false
  stuck : Bool := false
  called : Bool := false
  closed : Bool := false
  wakeAt : Int := 0
  override : Int := -1
  deriving DecidableEq

/-- Where the thread running the list is: visiting action `i`, waiting for actions to finish
(distbench_engine.cc:1470), about to look for cancellation (1477), in
`WaitForAllPendingActions` (1627), about to respond and free (1487), finished, or aborted. -/
inductive Phase where
  | scan (i : Nat)
  | wait
  | checkCancel
  | drain
  | exit
  | done
  | crashed
  deriving DecidableEq

/-- Observable events.  `response by override` is sent by the callback of an action or, for `none`,
at the end of the list.  Code: distbench_engine.cc:1311-1516. -/
inductive Event where
  | armed (i : Nat) (now delay : Int)
  | initiated (i : Nat) (now : Int)
  | skipped (i : Nat)
  | finished (i : Nat)
  | response (by_ : Option Nat) (override : Int)
  | freed
  deriving DecidableEq

/-- State of one run: `struct ActionListState`, distbench_engine.h:252-310, and the local
variables of `RunActionList`.  `log` is newest first. -/
structure State where
  acts : Nat → Act
  pending : Int
  finishedList : List Nat
  canceled : Bool
  sentEarly : Bool
  listOverride : Int
  phase : Phase
  now : Int
  log : List Event

/-- The state when the loop is first entered, distbench_engine.cc:1355-1359. -/
def init (now : Int) (canceled : Bool) : State :=
  { acts := fun _ => {}, pending := 0, finishedList := [], canceled := canceled, sentEarly := false,
    listOverride := -1, phase := .scan 0, now := now, log := [] }

/-- The state with the flags of action `i` replaced.
Code: distbench_engine.cc:1311-1516 (writes to `state_table[i]`). -/
def setAct (s : State) (i : Nat) (x : Act) : State :=
  { s with acts := fun j => if j = i then x else s.acts j }

/-- First half of an `all_done_callback`, distbench_engine.cc:1413-1436 and 1440-1443: the response
is sent with the action's override, or else that of an action finished before. -/
def callback (c : Ctx) (i : Nat) (s : State) : State :=
  let x := s.acts i
  let s1 := setAct s i { x with called := true }
  let override := if x.override = -1 then s.listOverride else x.override
  let s2 := if x.sender then { s1 with log := .response (some i) override :: s1.log } else s1
  { s2 with canceled := s2.canceled || c.cancelsAt i }

/-- `FinishAction`, distbench_engine.cc:1518-1528. -/
def finishAction (i : Nat) (s : State) : State :=
  let x := s.acts i
  { setAct s i { x with closed := true } with
    finishedList := s.finishedList ++ [i]
    pending := s.pending - 1
    listOverride := if x.override ≠ -1 then x.override else s.listOverride
    log := .finished i :: s.log }

/-- `DidSomeActionsFinish`, distbench_engine.cc:1554-1558. -/
def ready (s : State) : Prop := s.pending = 0 ∨ s.finishedList ≠ []

instance (s : State) : Decidable (ready s) := by unfold ready; infer_instance

/-- `HandleFinishedActions`, distbench_engine.cc:1560-1570. -/
def handle (s : State) : State :=
  { s with
    acts := fun j => if j ∈ s.finishedList then { s.acts j with finished := true } else s.acts j
    finishedList := [] }

/-- Starting action `i`, distbench_engine.cc:1401-1457. -/
def start (c : Ctx) (a : ActionEntry) (i : Nat) (s : State) : State :=
  let sender := !s.sentEarly && (c.size == 1 || a.proto.sendResponseWhenDone)
  let skip := (c.deps i).any (fun d => (s.acts d).skipped) ||
    a.proto.predicates.any (fun p => !c.predicates.contains p)
  let s1 := { s with sentEarly := s.sentEarly || sender, pending := s.pending + 1 }
  let x : Act := { s.acts i with started := true, waiting := false, sender := sender }
  if skip then
    finishAction i (callback c i
      { setAct s1 i { x with skipped := true } with log := .skipped i :: s1.log })
  else
    match initiate c.rpcTable c.hasPeers a with
    | .crash => { s with phase := .crashed }
    | .stuck =>
      { setAct s1 i { x with stuck := true } with log := .initiated i s.now :: s1.log }
    | .runs o =>
      { setAct s1 i { x with override := o } with log := .initiated i s.now :: s1.log }

/-- One visit of the loop, distbench_engine.cc:1360-1458.  `delay` is the delay drawn if there is a
delay distribution.  What the visit of a started action does (running the next open-loop iteration
or activity) does not concern the scheduler. -/
def visit (c : Ctx) (delay : Int) (i : Nat) (s : State) : State :=
  match c.entry.listActions[i]? with
  | none => s
  | some a =>
    let x := s.acts i
    if x.started then s
    else if x.waiting ∧ x.wakeAt > s.now then s
    else if (c.deps i).any (fun d => !(s.acts d).finished) then s
    else if ¬ x.waiting ∧ a.delayDistributionIndex ≠ -1 then
      { setAct s i { x with waiting := true, wakeAt := s.now + delay } with
        log := .armed i s.now delay :: s.log }
    else start c a i s

/-- The loop of `CancelActivities`, distbench_engine.cc:1574-1593. -/
def cancelLoop (c : Ctx) : List Nat → State → State
  | [], s => s
  | i :: rest, s =>
    let x := s.acts i
    if x.finished ∨ !x.started then cancelLoop c rest s
    else if c.activityAt i then cancelLoop c rest (finishAction i (callback c i s))
    else cancelLoop c rest s

/-- `CancelActivities`, distbench_engine.cc:1572-1598. -/
def cancelActivities (c : Ctx) (s : State) : State :=
  let s' := cancelLoop c (List.range c.size) s
  if (List.range c.size).any
      (fun i => (s.acts i).started && !(s.acts i).finished && c.activityAt i) then handle s'
  else s'

/-- The end of `RunActionList`, distbench_engine.cc:1487-1497. -/
def respondAndFree (s : State) : State :=
  let log := if s.sentEarly then s.log else .response none s.listOverride :: s.log
  { s with log := .freed :: log, phase := .done }

/-- `UpdateActivitiesLog`, distbench_engine.cc:1605-1625, called at the end of the list: the
positions whose activity is read.  `action` is set for every started action, but `activity` only by
`InitiateAction` (1872-1874), so for a skipped activity a null pointer is dereferenced. -/
def readActivities (c : Ctx) (acts : Nat → Act) : List Nat → Outcome (List Nat)
  | [] => .ok []
  | i :: rest =>
    if (acts i).started ∧ c.activityAt i then
      if (acts i).skipped then .ub
      else do
        let r ← readActivities c acts rest
        .ok (i :: r)
    else readActivities c acts rest

/-- After a visit the loop goes on with the next action, unless the process aborted.
Code: distbench_engine.cc:1359-1437. -/
def advance (i : Nat) (s : State) : State :=
  if s.phase = .crashed then s else { s with phase := .scan (i + 1) }

/-- Steps of the thread running the list.  A wait may time out at any moment; the clock may show
any time when the next pass begins (distbench_engine.cc:1358). -/
inductive MainStep (c : Ctx) : State → State → Prop where
  | visit {s} (i : Nat) (delay : Int) : s.phase = .scan i → i < c.size →
      MainStep c s (advance i (visit c delay i s))
  | scanned {s} : s.phase = .scan c.size →
      MainStep c s { s with phase :=
        if ∀ i < c.size, (s.acts i).finished = true then .exit else .wait }
  | wake {s} : s.phase = .wait → ready s → MainStep c s { handle s with phase := .checkCancel }
  | timeout {s} : s.phase = .wait → ¬ ready s → MainStep c s { s with phase := .checkCancel }
  | resume {s} (now : Int) : s.phase = .checkCancel → s.canceled = false →
      MainStep c s { s with phase := .scan 0, now := now }
  | cancel {s} : s.phase = .checkCancel → s.canceled = true →
      MainStep c s { cancelActivities c s with phase := .drain }
  | drain {s} : s.phase = .drain → ready s →
      MainStep c s { handle s with phase :=
        if ∀ i < c.size, (s.acts i).started = true → ((handle s).acts i).finished = true
        then .exit else .drain }
  | exit {s} : s.phase = .exit → MainStep c s (respondAndFree s)

/-- Steps of other threads, and the completion of an activity, which happens on the list's own
thread while it visits actions (distbench_engine.cc:1364, 1996, 1884-1890). -/
inductive EnvStep (c : Ctx) : State → State → Prop where
  | callback {s} (i : Nat) : i < c.size → (s.acts i).started = true → (s.acts i).stuck = false →
      (s.acts i).called = false → c.activityAt i = false → EnvStep c s (callback c i s)
  | finish {s} (i : Nat) : i < c.size → (s.acts i).called = true → (s.acts i).closed = false →
      EnvStep c s (finishAction i s)
  | activity {s} (i k : Nat) : s.phase = .scan k → i < c.size → (s.acts i).started = true →
      (s.acts i).stuck = false → (s.acts i).called = false → c.activityAt i = true →
      EnvStep c s (finishAction i (ActionList.callback c i s))
  | cancel {s} : EnvStep c s { s with canceled := true }

/-- One step of the system.  Code: distbench_engine.cc:1311-1643. -/
inductive Step (c : Ctx) (s s' : State) : Prop where
  | main : MainStep c s s' → Step c s s'
  | env : EnvStep c s s' → Step c s s'

/-- States a run can reach.  Code: distbench_engine.cc:1311-1643. -/
inductive Reachable (c : Ctx) : State → Prop where
  | init (now : Int) (canceled : Bool) : Reachable c (ActionList.init now canceled)
  | step {s s'} : Reachable c s → Step c s s' → Reachable c s'

end Distbench.ActionList
