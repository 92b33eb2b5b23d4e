import Verif.Model.Summary

/-! Specification of the summary of a test result. -/

namespace Distbench.Spec
open Summary

/-- The logs kept per peer: initiator, target and the logs by RPC index. -/
def peersOf (r : Result) : List (Str × Str × List (Nat × RpcLog)) :=
  r.logs.flatMap (fun e => e.2.map (fun p => (e.1, p.1, p.2)))

/-- The logs kept per RPC: the name of the RPC and its log. -/
def rpcLogsOf (r : Result) : List (Str × RpcLog) :=
  (peersOf r).flatMap (fun p => p.2.2.map (fun l => (r.rpcNames.getD l.1 [], l.2)))

/-- The successful samples taken after warmup. -/
def measured (l : RpcLog) : List Sample := l.successful.filter (fun s => !s.warmup)

/-- The latencies of all measured samples of the RPC `name`, whoever sent it to whomever. -/
def latenciesOf (r : Result) (name : Str) : List Int :=
  ((rpcLogsOf r).filter (fun e => e.1 = name)).flatMap (fun e => (measured e.2).map (·.latency))

/-- The measured samples of a peer. -/
def measuredOf (logs : List (Nat × RpcLog)) : List Sample := logs.flatMap (fun e => measured e.2)

/-- `v` is the element of rank `k` of `l` (the smallest element has rank 0): at most `k` elements are
smaller, and more than `k` are not larger. -/
def HasRank (l : List Int) (k : Nat) (v : Int) : Prop :=
  v ∈ l ∧ l.countP (fun x => x < v) ≤ k ∧ k < l.countP (fun x => x ≤ v)

/-- `d` is the time from the first start to the last end of the samples. -/
def SpanOf (samples : List Sample) (d : Int) : Prop :=
  ∃ first ∈ samples, ∃ last ∈ samples, (∀ s ∈ samples, first.start ≤ s.start) ∧
    (∀ s ∈ samples, s.start + s.latency ≤ last.start + last.latency) ∧
    d = last.start + last.latency - first.start

/-- The keys of a map are distinct. -/
def Keyed {κ α : Type} (m : List (κ × α)) : Prop := (m.map (·.1)).Nodup

/-- The maps of the result have distinct keys. -/
def KeyedLogs (r : Result) : Prop :=
  Keyed r.logs ∧ ∀ e ∈ r.logs, Keyed e.2

/-- The clock readings are below the largest `int64_t`. -/
def ClockOk (r : Result) : Prop :=
  ∀ p ∈ peersOf r, ∀ s ∈ measuredOf p.2.2, s.start < 2 ^ 63 - 1 ∧ -2 ^ 63 ≤ s.start + s.latency

/-- The sum over the measured samples of a peer. -/
def sumOf (f : Sample → Int) (samples : List Sample) : Int := (samples.map f).sum

/-- The same keys in the same order, with values related by `R`. -/
inductive SameKeys {κ α : Type} (R : α → α → Prop) : List (κ × α) → List (κ × α) → Prop where
  | nil : SameKeys R [] []
  | cons {k : κ} {a b : α} {m m' : List (κ × α)} : R a b → SameKeys R m m' →
      SameKeys R ((k, a) :: m) ((k, b) :: m')

/-- The same map, iterated over in another order; the values may differ as `R` allows. -/
def SameMap {κ α : Type} (R : α → α → Prop) (m m' : List (κ × α)) : Prop :=
  ∃ m'', m.Perm m'' ∧ SameKeys R m'' m'

/-- The same test result with its maps iterated over in another order. -/
def SameResult (r r' : Result) : Prop :=
  r.rpcNames = r'.rpcNames ∧ SameMap (SameMap (SameMap Eq)) r.logs r'.logs

/-- The bytes that `name` sent to others: requests it sent and responses it gave. -/
def sentBy (r : Result) (name : Str) : Int :=
  ((peersOf r).map (fun p =>
    (if p.1 = name then sumOf (·.requestSize) (measuredOf p.2.2) else 0) +
    (if p.2.1 = name then sumOf (·.responseSize) (measuredOf p.2.2) else 0))).sum

/-- The bytes that `name` received: responses it got and requests it was sent. -/
def receivedBy (r : Result) (name : Str) : Int :=
  ((peersOf r).map (fun p =>
    (if p.1 = name then sumOf (·.responseSize) (measuredOf p.2.2) else 0) +
    (if p.2.1 = name then sumOf (·.requestSize) (measuredOf p.2.2) else 0))).sum

/-- All bytes sent. -/
def bytesSent (r : Result) : Int :=
  ((peersOf r).map (fun p =>
    sumOf (·.requestSize) (measuredOf p.2.2) + sumOf (·.responseSize) (measuredOf p.2.2))).sum

/-- The successful samples, the failed samples and the warmup samples among the successful ones. -/
def successes (r : Result) : Nat := ((rpcLogsOf r).map (fun e => e.2.successful.length)).sum
def failuresOf (r : Result) : Nat := ((rpcLogsOf r).map (fun e => e.2.failed.length)).sum
def warmupsOf (r : Result) : Nat := ((rpcLogsOf r).map (fun e => e.2.successful.countP (·.warmup))).sum

end Distbench.Spec
