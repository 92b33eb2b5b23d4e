import Verif.Model.Iterations
import Verif.Model.Sampling

/-! Model of an action that runs an RPC, from its start to the last sample: the iterations
(`Model/Iterations.lean`), what an iteration does, that is `RunRpcActionIterationCommon`
(distbench_engine.cc:2105-2236), and the recording of samples (`Model/Sampling.lean`) by the callbacks
of the RPCs.

The action is the only one of its list.  Which instances an iteration fans out to is a parameter
(`Model/Fanout.lean` models it), and so is what a driver and the server make of an RPC: it may come
back at any time, on any thread. -/

namespace Distbench.RpcAction

/-- The RPC of iteration `iteration` to instance `peer` of the service.
Code: distbench_engine.cc:2174-2176. -/
structure Call where
  iteration : Int
  peer : Nat
  deriving DecidableEq

/-- `it`: the iterations; `sampling`: the samples of the list; `remaining`: the `remaining_rpcs` of
the iterations (distbench_engine.h:190); `toSend`: the RPCs that loops are still to initiate;
`inFlight`: initiated, and the callback has not been called; `ending`: the callback has entered
`RecordLatency`, with the number of the sample; `finishing`: the iterations for which
`FinishIteration` has been called and has not yet begun.  `targets`, `calls` and `answered` record
what happened: the instances of each iteration, the RPCs that were initiated and those whose callback
was called, oldest first.
Simplification: the RPCs of an iteration are initiated in any order.
Code: distbench_engine.cc:2105-2236. -/
structure State where
  it : Iterations.State
  sampling : Sampling.State
  remaining : Int → Nat
  toSend : List Call
  inFlight : List Call
  ending : List (Call × Nat)
  finishing : List Int
  targets : Int → List Nat
  calls : List Call
  answered : List Call

/-- The state before anything has been started.  Code: distbench_engine.cc:1311-1357, 1929-1967. -/
def begin (it : Iterations.State) (sampling : Sampling.State) : State where
  it := it
  sampling := sampling
  remaining := fun _ => 0
  toSend := []
  inFlight := []
  ending := []
  finishing := []
  targets := fun _ => []
  calls := []
  answered := []

/-- A function changed in one place.  Code: distbench_engine.cc:2113. -/
def set {α : Type} (f : Int → α) (k : Int) (x : α) : Int → α := fun j => if j = k then x else f j

/-- The beginning of `RunRpcActionIterationCommon` for iteration `k`, distbench_engine.cc:2108-2113:
without targets the iteration is finished at once. -/
def fanOut (k : Int) (ts : List Nat) (s : State) : State :=
  if ts.isEmpty then
    { s with finishing := k :: s.finishing, targets := set s.targets k ts }
  else
    { s with
      remaining := set s.remaining k ts.length
      toSend := s.toSend ++ ts.map (fun t => ⟨k, t⟩)
      targets := set s.targets k ts }

/-- The end of a callback, distbench_engine.cc:2219-2221. -/
def countDown (k : Int) (s : State) : State :=
  { s with
    remaining := set s.remaining k (s.remaining k - 1)
    finishing := if s.remaining k - 1 = 0 then k :: s.finishing else s.finishing }

/-- The number of the sample that a thread is recording.  Code: distbench_engine.cc:1689-1698. -/
def sampleNumber : Sampling.Worker → Nat
  | .initial n _ => n
  | .written n => n
  | .waiting n _ _ => n

/-- What is the same for all RPCs of the action: its RPC, the service, the capacity for samples, and
which instances iteration `k` may fan out to.  Code: distbench_engine.cc:1794-1800, 2238-2258. -/
structure Setup where
  params : Iterations.Params
  capacity : Nat
  rpc : Nat
  service : Nat
  pick : Int → List Nat → Prop

/-- The sample is about the RPC `c`, distbench_engine.cc:2142, 2216-2218. -/
def About (u : Setup) (c : Call) (r : Sampling.Rpc) : Prop :=
  r.rpcIndex = u.rpc ∧ r.service = u.service ∧ r.instance_ = c.peer ∧
  r.warmup = Iterations.warmupOf u.params c.iteration

/-- Steps of the action.
`start`: an iteration is started and fans out; `send`: 2176-2231; `record`: a callback enters
`RecordLatency` (2199-2218); `sample`: a thread inside `RecordLatency` goes on; `count`: a callback
has left `RecordLatency` (2219); `finish`: `FinishIteration` begins (2109, 2220); `inner`: the other
steps of the iterations.
Code: distbench_engine.cc:2045-2236. -/
inductive Work (u : Setup) : State → State → Prop where
  | start {s it' k w now ts} : Iterations.Work u.params s.it it' →
      it'.log = .started k w now :: s.it.log → u.pick k ts →
      Work u s (fanOut k ts { s with it := it' })
  | send {s} (c : Call) : c ∈ s.toSend →
      Work u s { s with toSend := s.toSend.erase c, inFlight := c :: s.inFlight, calls := s.calls ++ [c] }
  | record {s x r} (c : Call) : c ∈ s.inFlight → Sampling.Step u.capacity s.sampling x →
      x.recorded = s.sampling.recorded ++ [r] → About u c r →
      Work u s { s with sampling := x, inFlight := s.inFlight.erase c, ending := (c, s.sampling.number) :: s.ending, answered := s.answered ++ [c] }
  | sample {s x} : Sampling.Step u.capacity s.sampling x → x.recorded = s.sampling.recorded →
      x.workers ≠ s.sampling.workers → Work u s { s with sampling := x }
  | count {s} (c : Call) (n : Nat) : (c, n) ∈ s.ending →
      (∀ w ∈ s.sampling.workers, sampleNumber w ≠ n) →
      Work u s (countDown c.iteration { s with ending := s.ending.erase (c, n) })
  | finish {s it' k} : k ∈ s.finishing → Iterations.Work u.params s.it it' →
      it'.log = .ended k :: s.it.log →
      Work u s { s with it := it', finishing := s.finishing.erase k }
  | inner {s it'} : Iterations.Work u.params s.it it' →
      (it'.log = s.it.log ∨ it'.log = .allDone :: s.it.log) → Work u s { s with it := it' }

/-- Steps of the outside world: cancellation, the passing of time and uses of the dictionary of
errors by other lists.  Code: distbench_engine.cc:73-82, 904-912. -/
inductive Idle (u : Setup) : State → State → Prop where
  | iterations {s it'} : Iterations.Idle u.params s.it it' → Idle u s { s with it := it' }
  | lookup {s} (text : Str) :
      Idle u s { s with sampling := { s.sampling with dict := (s.sampling.dict.getIndex text).1 } }

/-- The states after `n` steps that are not idle.  Code: distbench_engine.cc:1907-2236. -/
inductive Run (u : Setup) (s0 : State) : Nat → State → Prop where
  | start : Run u s0 0 s0
  | work {n s s'} : Run u s0 n s → Work u s s' → Run u s0 (n + 1) s'
  | idle {n s s'} : Run u s0 n s → Idle u s s' → Run u s0 n s'

/-- `s` is a state, after `n` steps that are not idle, of the action `a`, the only one of its list.
Code: distbench_engine.cc:1311-1357, 1907-2236. -/
def Executes (a : Tables.Action) (now : Int) (listWarmup canceled : Bool) (cap rpc service : Nat)
    (pick : Int → List Nat → Prop) (n : Nat) (s : State) : Prop :=
  ∃ (spread : Int) (it0 : Iterations.State) (texts : List Str),
    Iterations.initiate a now listWarmup canceled spread = .ok it0 ∧
    Run { params := Iterations.params a now listWarmup, capacity := cap, rpc := rpc,
          service := service, pick := pick }
      (begin it0 (Sampling.start cap (texts.foldl (fun d t => (d.getIndex t).1) .empty))) n s

end Distbench.RpcAction
