import Verif.Model.Sampling

/-! Vocabulary for samples. -/

namespace Distbench.Spec
open Sampling

/-- The sample `s`, filed under `k`, tells the truth about the RPC `r`, when error indices are
looked up in `dict`. -/
structure Describes (dict : List Str) (r : Rpc) (k : Key) (s : Sample) : Prop where
  service : k.service = r.service
  instance_ : k.instance_ = r.instance_
  rpc : k.rpcIndex = r.rpcIndex
  success : k.success = r.success
  requestSize : s.requestSize = r.requestSize
  responseSize : s.responseSize = r.responseSize
  start : s.start = r.startTime
  latency : s.latency = r.endTime - r.startTime
  weight : s.weight.getD 0 = (r.priorStart.map (r.startTime - ·)).getD 0
  trace : s.trace = r.trace
  warmup : s.warmup.getD false = r.warmup
  error : dict[s.errorIndex.getD 0]? = some r.error

/-- The samples in `report` describe, one for one, the RPCs with the given numbers. -/
def DescribesAll (dict : List Str) (recorded : List Rpc) (numbers : List Nat)
    (report : List (Key × Sample)) : Prop :=
  report.length = numbers.length ∧
  ∀ (j : Nat) k s, report[j]? = some (k, s) →
    ∃ n r, numbers[j]? = some n ∧ recorded[n]? = some r ∧ Describes dict r k s

/-- The slot for which sample number `n` competes: its own if it is one of the first `cap`, else the
one drawn for it. -/
def slotOf (cap : Nat) (draws : List Nat) (n : Nat) : Option Nat :=
  if n < cap then some n else draws[n - cap]?

/-- Sample `n` of `total` is the last that competes for its slot, and there is such a slot. -/
def Survives (cap : Nat) (draws : List Nat) (total n : Nat) : Prop :=
  n < total ∧ ∃ i < cap, slotOf cap draws n = some i ∧
    ∀ m, n < m → m < total → slotOf cap draws m ≠ some i

instance (cap : Nat) (draws : List Nat) (total n : Nat) : Decidable (Survives cap draws total n) :=
  decidable_of_iff
    (n < total ∧ ∃ i, ∃ _ : i < cap, slotOf cap draws n = some i ∧
      ∀ m, m < total → n < m → slotOf cap draws m ≠ some i) <| by
    unfold Survives
    constructor
    · rintro ⟨h1, i, h2, h3, h4⟩
      exact ⟨h1, i, h2, h3, fun m a b => h4 m b a⟩
    · rintro ⟨h1, i, h2, h3, h4⟩
      exact ⟨h1, i, h2, h3, fun m a b => h4 m b a⟩

/-- `s'` is reached from `s` by steps of the threads. -/
inductive Later (cap : Nat) (s : State) : State → Prop where
  | refl : Later cap s s
  | step {s' s''} : Later cap s s' → Step cap s' s'' → Later cap s s''

/-- All possible draws for the samples with numbers cap, …, cap + m - 1. -/
def allDraws (cap : Nat) : Nat → List (List Nat)
  | 0 => [[]]
  | m + 1 => (allDraws cap m).flatMap
      (fun v => (List.range (cap + m + 1)).map (fun d => v ++ [d]))

end Distbench.Spec
