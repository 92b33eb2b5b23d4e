import Verif.Model.Basic

/-! Model of latency samples and of the error dictionary: `ThreadSafeDictionary`
(distbench_engine.cc:66-92), `RecordLatency`, `RecordPackedLatency` and `UnpackLatencySamples`
(distbench_engine.cc:1645-1792), for one run of an action list.

Threads record samples concurrently.  The atomic counters, the spin loop and the lock of the
reservoir are steps of a transition system. -/

namespace Distbench.Sampling

/-! ### the dictionary -/

/-- `ThreadSafeDictionary`, distbench_engine.h:34-46.  Every method holds the mutex throughout, so a
call is one step.  Simplification: indices are natural numbers, not `int`. -/
structure Dictionary where
  contents : List Str
  map : List (Str × Nat)

/-- The constructor, distbench_engine.cc:66-71. -/
def Dictionary.empty : Dictionary := { contents := [[]], map := [([], 0)] }

/-- `GetIndex`, distbench_engine.cc:73-82. -/
def Dictionary.getIndex (d : Dictionary) (text : Str) : Dictionary × Nat :=
  match d.map.lookup text with
  | some i => (d, i)
  | none =>
    ({ contents := d.contents ++ [text], map := (text, d.contents.length) :: d.map },
     d.contents.length)

/-- `GetValue`, distbench_engine.cc:89-92; `none` for an index out of range, which is undefined
behaviour. -/
def Dictionary.getValue (d : Dictionary) (i : Nat) : Option Str := d.contents[i]?

/-! ### samples -/

/-- What `RecordLatency` is given about a completed RPC: its arguments and the `ClientRpcState`.
Times are in nanoseconds; `priorStart` is absent for the first RPC of an action.
Code: distbench_engine.cc:1682-1759. -/
structure Rpc where
  rpcIndex : Nat
  service : Nat
  instance_ : Nat
  success : Bool
  warmup : Bool
  requestSize : Nat
  responseSize : Nat
  startTime : Int
  endTime : Int
  priorStart : Option Int
  trace : Option (List Int)
  error : Str

/-- `PackedLatencySample`, distbench_engine.h:229-250. -/
structure Packed where
  rpcIndex : Nat
  service : Nat
  instance_ : Nat
  success : Bool
  warmup : Bool
  requestSize : Nat
  responseSize : Nat
  start : Int
  latency : Int
  weight : Int
  sampleNumber : Nat
  trace : Option (List Int)
  errorIndex : Nat

/-- The place of a sample in the logs: peer, RPC, and successful or failed.
Code: distbench_engine.cc:1645-1680. -/
structure Key where
  service : Nat
  instance_ : Nat
  rpcIndex : Nat
  success : Bool
  deriving DecidableEq

/-- The message `RpcSample` (distbench.proto:77-97) with optional fields. -/
structure Sample where
  requestSize : Nat
  responseSize : Nat
  start : Int
  latency : Int
  weight : Option Int
  trace : Option (List Int)
  warmup : Option Bool
  errorIndex : Option Nat

/-- `RecordPackedLatency`, distbench_engine.cc:1761-1792: what is written to the slot. -/
def pack (d : Dictionary) (sampleNumber : Nat) (r : Rpc) : Dictionary × Packed :=
  let (d, errorIndex) := if r.error ≠ [] then d.getIndex r.error else (d, 0)
  (d, { errorIndex := errorIndex, sampleNumber := sampleNumber, trace := r.trace
        rpcIndex := r.rpcIndex, service := r.service, instance_ := r.instance_
        success := r.success, warmup := r.warmup, start := r.startTime
        latency := r.endTime - r.startTime
        weight := match r.priorStart with
          | some t => r.startTime - t
          | none => 0
        requestSize := r.requestSize, responseSize := r.responseSize })

/-- The body of the loop of `UnpackLatencySamples`, distbench_engine.cc:1655-1680.  The `CHECK`s on
the indices are not modelled: they are those of an element of `peers_` (2161-2166), which has the
shape of `peer_logs_` (1348-1351); for the lists of a whole test see C258. -/
def unpack (p : Packed) : Key × Sample :=
  ({ service := p.service, instance_ := p.instance_, rpcIndex := p.rpcIndex, success := p.success },
   { requestSize := p.requestSize, responseSize := p.responseSize, start := p.start
     latency := p.latency
     weight := if p.weight ≠ 0 then some p.weight else none
     trace := p.trace
     warmup := if p.warmup then some true else none
     errorIndex := if p.errorIndex ≠ 0 then some p.errorIndex else none })

/-- The end of `RecordLatency`, distbench_engine.cc:1729-1758: without packed samples. -/
def direct (d : Dictionary) (r : Rpc) : Dictionary × Key × Sample :=
  let (d, errorIndex) := if r.error ≠ [] then
      let (d, i) := d.getIndex r.error
      (d, some i)
    else (d, none)
  (d, { service := r.service, instance_ := r.instance_, rpcIndex := r.rpcIndex, success := r.success },
   { start := r.startTime, latency := r.endTime - r.startTime
     weight := match r.priorStart with
       | some t => some (r.startTime - t)
       | none => none
     requestSize := r.requestSize, responseSize := r.responseSize
     warmup := if r.warmup then some true else none
     trace := r.trace
     errorIndex := errorIndex })

/-- A thread inside `RecordLatency`: `initial`: it is about to write its own slot; `written`: it has
written it and not yet decremented the counter; `waiting`: it is to replace what is in `slot`.
Code: distbench_engine.cc:1682-1759. -/
inductive Worker where
  | initial (n : Nat) (r : Rpc)
  | written (n : Nat)
  | waiting (n : Nat) (slot : Nat) (r : Rpc)

/-- `packed_sample_number_`, `remaining_initial_samples_`, `packed_samples_` (not initialized:
`none`) and `peer_logs_` of the list (distbench_engine.h:283-290).  `recorded` and `draws` only
record what happened: the RPCs in the order of their numbers and the random draws.  `invalid` is set
when memory that was not initialized is read.  Simplification: numbers do not wrap around at 2^64. -/
structure State where
  number : Nat
  remaining : Nat
  slots : Nat → Option Packed
  log : List (Key × Sample)
  dict : Dictionary
  workers : List Worker
  recorded : List Rpc
  draws : List Nat
  invalid : Bool

/-- The capacity, distbench_engine.cc:1341-1344, from `max_rpc_samples`. -/
def capacity (maxRpcSamples : Int) : Nat := if maxRpcSamples < 0 then 0 else maxRpcSamples.toNat

/-- distbench_engine.cc:1340-1347.  The dictionary belongs to the engine. -/
def start (cap : Nat) (d : Dictionary) : State :=
  { number := 0, remaining := cap, slots := fun _ => none, log := [], dict := d, workers := []
    recorded := [], draws := [], invalid := false }

/-- A thread enters `RecordLatency`, distbench_engine.cc:1689-1713 with packed samples; `draw` is
the random index, if it comes to that. -/
def arrive (cap : Nat) (r : Rpc) (draw : Nat) (s : State) : State :=
  let n := s.number
  let s := { s with number := n + 1, recorded := s.recorded ++ [r] }
  if n < cap then { s with workers := s.workers ++ [.initial n r] }
  else
    let s := { s with draws := s.draws ++ [draw] }
    if draw ≥ cap then s
    else { s with workers := s.workers ++ [.waiting n draw r] }

/-- A write to `packed_samples_[i]`.  Code: distbench_engine.cc:1761-1792. -/
def setSlot (slots : Nat → Option Packed) (i : Nat) (p : Packed) : Nat → Option Packed :=
  fun j => if j = i then some p else slots j

/-- distbench_engine.cc:1694-1695. -/
def writeInitial (l1 l2 : List Worker) (n : Nat) (r : Rpc) (s : State) : State :=
  let (d, p) := pack s.dict n r
  { s with dict := d, slots := setSlot s.slots n p, workers := l1 ++ .written n :: l2 }

/-- distbench_engine.cc:1696-1698. -/
def release (l1 l2 : List Worker) (s : State) : State :=
  { s with remaining := s.remaining - 1, workers := l1 ++ l2 }

/-- distbench_engine.cc:1717-1726, under the lock of the reservoir. -/
def replace (l1 l2 : List Worker) (n slot : Nat) (r : Rpc) (s : State) : State :=
  match s.slots slot with
  | none => { s with invalid := true, workers := l1 ++ l2 }
  | some old =>
    if old.sampleNumber < n then
      let (d, p) := pack s.dict n r
      { s with dict := d, slots := setSlot s.slots slot p, workers := l1 ++ l2 }
    else { s with workers := l1 ++ l2 }

/-- Recording without packed samples, distbench_engine.cc:1729-1758, under `action_mu`. -/
def recordDirect (r : Rpc) (s : State) : State :=
  let (d, entry) := direct s.dict r
  { s with dict := d, log := s.log ++ [entry], recorded := s.recorded ++ [r] }

/-- The steps of the threads that record samples; `lookup`: the dictionary is also used by other
lists.  The random index is between 0 and the number of the sample (1701).
Code: distbench_engine.cc:1682-1792. -/
inductive Step (cap : Nat) : State → State → Prop where
  | arrive {s} (r : Rpc) (draw : Nat) : 0 < cap → draw ≤ s.number → Step cap s (arrive cap r draw s)
  | writeInitial {s l1 l2 n r} : s.workers = l1 ++ .initial n r :: l2 →
      Step cap s (writeInitial l1 l2 n r s)
  | release {s l1 l2 n} : s.workers = l1 ++ .written n :: l2 → Step cap s (release l1 l2 s)
  | replace {s l1 l2 n slot r} : s.workers = l1 ++ .waiting n slot r :: l2 → s.remaining = 0 →
      Step cap s (replace l1 l2 n slot r s)
  | direct {s} (r : Rpc) : cap = 0 → Step cap s (recordDirect r s)
  | lookup {s} (text : Str) : Step cap s { s with dict := (s.dict.getIndex text).1 }

/-- The states of a run of an action list.  Code: distbench_engine.cc:1311-1357, 1682-1792. -/
inductive Reachable (cap : Nat) : State → Prop where
  | start (texts : List Str) :
      Reachable cap (start cap (texts.foldl (fun d t => (d.getIndex t).1) .empty))
  | step {s s'} : Reachable cap s → Step cap s s' → Reachable cap s'

/-- When `p` may stand before `q` in a list sorted by `operator<` (distbench_engine.h:230-233). -/
def NotAfter (p q : Packed) : Prop := p.start + p.latency ≤ q.start + q.latency

/-- `UnpackLatencySamples`, distbench_engine.cc:1645-1682: the logs of the run.  `std::sort` yields
some sorted permutation. -/
inductive Unpacked (cap : Nat) (s : State) : List (Key × Sample) → Prop where
  | few {ps : List Packed} : s.number ≤ cap → (List.range s.number).mapM s.slots = some ps →
      Unpacked cap s (s.log ++ ps.map unpack)
  | many {ps qs : List Packed} : cap < s.number → (List.range cap).mapM s.slots = some ps → qs.Perm ps →
      qs.Pairwise NotAfter → Unpacked cap s (s.log ++ qs.map unpack)

end Distbench.Sampling
