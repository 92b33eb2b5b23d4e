import Verif.Model.Sequencer

/-! Specification of registration, tests and test sequences. -/

namespace Distbench.Spec
open Placement Services Sequencer
open Handler (Status)

/-! ### registration -/

/-- A registration names no host or has a port that is not a TCP port. -/
def MalformedNode (r : Registration) : Prop :=
  r.hostname = [] ∨ r.controlPort < 1 ∨ 65535 < r.controlPort

/-- In this history, `r` was accepted as node `id` under the name `name`. -/
def Accepted (h : List (Registration × Option (Nat × Str))) (r : Registration) (id : Nat)
    (name : Str) : Prop := (r, some (id, name)) ∈ h

/-- `s'` is `s` after some more registrations. -/
inductive Grows : Registry → Registry → Prop
  | refl {s} : Grows s s
  | step {s s' s'' r a} : Grows s s' → register s' r = .ok (s'', a) → Grows s s''

/-! ### one test -/

/-- The node answered the RPC with OK. -/
def Succeeded (w : World) (id : Nat) : Msg → Prop
  | .configure services => ∃ m, w.configure id services = .ok m
  | .introduce peers => ∃ u, w.introduce id peers = .ok u
  | .run start timeout => ∃ u, w.run id start timeout = .ok u
  | .collect => ∃ r, w.collect id = .ok r

/-- The node answered the RPC with an error. -/
def FailedWith (w : World) (id : Nat) : Msg → Status → Prop
  | .configure services, e => w.configure id services = .error e
  | .introduce peers, e => w.introduce id peers = .error e
  | .run start timeout, e => w.run id start timeout = .error e
  | .collect, e => w.collect id = .error e

/-- The number of the round an RPC belongs to. -/
def roundOf : Msg → Nat
  | .configure _ => 0
  | .introduce _ => 1
  | .run _ _ => 2
  | .collect => 3

/-- The name of the RPC in error messages. -/
def rpcName : Msg → Str
  | .configure _ => "AsyncConfigureNode".toList
  | .introduce _ => "AsyncIntroducePeers".toList
  | .run _ _ => "AsyncRunTraffic".toList
  | .collect => "AsyncGetTrafficResult".toList

/-- The nodes that were sent an RPC of round `k`, in order. -/
def sentTo (sent : List (Str × Nat × Msg)) (k : Nat) : List Str :=
  (sent.filter (fun x => roundOf x.2.2 == k)).map (·.1)

/-- The names of the nodes that are registered. -/
def RegisteredAs (s : Registry) (n : Str) (id : Nat) : Prop :=
  ∃ slot, s.nodes[id]? = some slot ∧ slot.pending = false ∧ slot.nodeAlias = n

/-- The world in which a test runs: answers come in any order, and between the rounds there may be
more registrations, but the registry only ever changes through them. -/
structure Orderly (w : World) : Prop where
  order : ∀ k l, (w.order k l).Perm l
  history : ∃ h, History (w.registry 0) h
  grows1 : Grows (w.registry 0) (w.registry 1)
  grows2 : Grows (w.registry 1) (w.registry 2)
  grows3 : Grows (w.registry 2) (w.registry 3)

/-- The nodes answer `ConfigureNode` the way node managers do; `info id` describes the machine of
node `id`, `threads id` the thread limit it was given. -/
def NodeManagers (w : World) (info : Nat → NodeInfo) (threads : Nat → Int) : Prop :=
  ∀ id services m, w.configure id services = .ok m →
    configureNode (info id) (threads id) services = .ok (.ok m)

/-- The attributes that tell where in the grid of its service an instance is. -/
def positionAttributes (s : ServiceSpec) (g : GridIndex) : List Attribute :=
  let text (n : Int) : Str := (toString n.toNat).toList
  match s.ySize, s.zSize with
  | none, _ => [⟨"index".toList, text g.x⟩]
  | some _, none => [⟨"x_index".toList, text g.x⟩, ⟨"y_index".toList, text g.y⟩]
  | some _, some _ =>
    [⟨"x_index".toList, text g.x⟩, ⟨"y_index".toList, text g.y⟩, ⟨"z_index".toList, text g.z⟩]

/-! ### sequences -/

/-- The report of a test: the same placement and resource usage, the summary appended, and the logs
only if they are to be kept. -/
def Reports (c : SequenceSettings) (r r' : TestResult) : Prop :=
  r'.placement = r.placement ∧ r'.usages = r.usages ∧ r'.summary = r.summary ++ c.summarize r ∧
  (c.keepInstanceLog = true → r'.logs = r.logs) ∧ (c.keepInstanceLog = false → r'.logs = [])

/-- `results` reports the first `k` tests, in order, all of which succeeded. -/
def ReportsFirst (p : Call) (k : Nat) (results : List TestResult) : Prop :=
  results.length = k ∧ ∀ (m : Nat) r', results[m]? = some r' →
    ∃ r, p.outcome m = .ok r ∧ Reports p.settings r r'

/-- The ways a sequence may end. -/
inductive EndsAs (p : Call) (cancelled : Bool) : Ended → Prop
  /-- Every test succeeded and is reported. -/
  | ok {results} : ReportsFirst p p.tests results → p.settings.byteSize results ≤ 2146959359 →
      EndsAs p cancelled { error := none, results := results, shutdown := p.settings.shutdownAfterTests }
  /-- Every test succeeded but the reports are too big to be sent. -/
  | tooBig {results msg} : ReportsFirst p p.tests results → 2146959359 < p.settings.byteSize results →
      EndsAs p cancelled { error := some msg, results := [], shutdown := p.settings.shutdownAfterTests }
  /-- Test `k` failed, after the ones before it succeeded. -/
  | failed {k e results} : k < p.tests → p.outcome k = .error e → ReportsFirst p k results →
      EndsAs p cancelled { error := some e, results := results, shutdown := false }
  /-- The sequence was cancelled before test `k`. -/
  | cancelled {k results} : cancelled = true → k < p.tests → ReportsFirst p k results →
      EndsAs p cancelled { error := some "Cancelled by new test sequence.".toList,
                           results := results, shutdown := false }

/-- A call's sequence is running: it has started and has not ended. -/
def IsRunning (s : Calls) (i : Nat) : Prop :=
  ∃ c, s.calls[i]? = some c ∧ ((∃ k, c.place = .between k) ∨ ∃ k, c.place = .testing k)

/-- A call has been answered. -/
def HasReturned (s : Calls) (i : Nat) : Prop :=
  ∃ c, s.calls[i]? = some c ∧ ∃ e, c.place = .returned e

/-- A call is waiting for another one to end. -/
def IsWaiting (s : Calls) (i : Nat) : Prop :=
  ∃ c, s.calls[i]? = some c ∧ ∃ n, c.place = .waiting n

/-- A call's sequence has been told to stop. -/
def IsCancelled (s : Calls) (i : Nat) : Prop :=
  ∃ c, s.calls[i]? = some c ∧ c.cancelled = true

/-- Nothing has happened between the two states but that a call that was waiting went on waiting. -/
def OnlyWaited (s s' : Calls) : Prop :=
  ∀ (i : Nat) c c', s.calls[i]? = some c → s'.calls[i]? = some c' →
    c'.place = c.place ∨ (∃ n, c.place = .waiting n) ∧ ∃ n, c'.place = .waiting n

/-- `s'` can be reached from `s` in steps of which `n` were more than going on waiting. -/
inductive Makes (prog : List Call) : Calls → Nat → Calls → Prop
  | here {s} : Makes prog s 0 s
  | wait {s s' s'' n} : Makes prog s n s' → CallStep prog s' s'' → OnlyWaited s' s'' →
      Makes prog s n s''
  | move {s s' s'' n} : Makes prog s n s' → CallStep prog s' s'' → ¬ OnlyWaited s' s'' →
      Makes prog s (n + 1) s''

/-- A call has been taken up: it has had its first look at what is running. -/
def HasArrived (s : Calls) (i : Nat) : Prop :=
  ∃ c, s.calls[i]? = some c ∧ c.place ≠ .arriving

end Distbench.Spec
