import Verif.Spec.Usage

/-! Properties of the copying of requests and of the resource usage that is reported. -/

namespace Distbench.Usage
open Spec Handler

/-! ### C193: copying the fields of a request -/

/-- C193, without the size of the response: the other four fields are copied to an empty message, and
its payload is not. -/
theorem C193_copy_partial (src : Request) :
    (copyRequestFields src {}).rpcIndex = src.rpcIndex ∧
    (copyRequestFields src {}).trace = src.trace ∧
    (copyRequestFields src {}).warmup = src.warmup ∧
    (copyRequestFields src {}).processingNs = src.processingNs ∧
    ((copyRequestFields src {}).responseSize = none ↔ src.responseSize = none) ∧
    (copyRequestFields src {}).padTo = none := by
  unfold copyRequestFields
  obtain ⟨a, b, c, d, e, f⟩ := src
  cases a <;> cases b <;> cases c <;> cases d <;> cases e <;> simp

/-- C193 holds of a request exactly if it does not say how large the response is to be, or by chance
says the index of the RPC (zero if it has none). -/
theorem C193_iff (src : Request) :
    (copyRequestFields src {}).responseSize = src.responseSize ↔
      ∀ n, src.responseSize = some n → src.rpcIndex.getD 0 = n := by
  unfold copyRequestFields
  obtain ⟨a, b, c, d, e, f⟩ := src
  cases a <;> cases d <;> simp

/-- C193 does not hold of the size of the response. -/
theorem C193_negation : ∃ src, (copyRequestFields src {}).responseSize ≠ src.responseSize :=
  ⟨{ rpcIndex := some 3, responseSize := some 1000 }, by decide⟩

example : copyRequestFields { rpcIndex := some 3, responseSize := some 1000 } {} =
    { rpcIndex := some 3, responseSize := some 3 } := rfl

/-! ### C194: the resource usage -/

private theorem minus_ok {a b : Int} (ha : 0 ≤ a ∧ a < 2 ^ 63) (hb : 0 ≤ b ∧ b < 2 ^ 63) :
    minus a b = .ok (a - b) := by
  unfold minus
  rw [if_pos]
  unfold InI64
  omega

private def sub (a b : Message) : Message where
  userCpuTime := a.userCpuTime - b.userCpuTime
  systemCpuTime := a.systemCpuTime - b.systemCpuTime
  maxResidentSetSize := a.maxResidentSetSize - b.maxResidentSetSize
  integralSharedMemorySize := a.integralSharedMemorySize - b.integralSharedMemorySize
  integralUnsharedDataSize := a.integralUnsharedDataSize - b.integralUnsharedDataSize
  integralUnsharedStackSize := a.integralUnsharedStackSize - b.integralUnsharedStackSize
  pageReclaims := a.pageReclaims - b.pageReclaims
  pageFaults := a.pageFaults - b.pageFaults
  swaps := a.swaps - b.swaps
  blockInputOperations := a.blockInputOperations - b.blockInputOperations
  blockOutputOperations := a.blockOutputOperations - b.blockOutputOperations
  ipcMessagesSent := a.ipcMessagesSent - b.ipcMessagesSent
  ipcMessagesReceived := a.ipcMessagesReceived - b.ipcMessagesReceived
  signalsReceived := a.signalsReceived - b.signalsReceived
  voluntaryContextSwitches := a.voluntaryContextSwitches - b.voluntaryContextSwitches
  involuntaryContextSwitches := a.involuntaryContextSwitches - b.involuntaryContextSwitches

/-- C194: what is reported shows the usage at the start, and together with the difference makes the
usage at the end; nothing overflows. -/
theorem C194_usage (start end_ : Rusage) (hs : Counters start) (he : Counters end_) :
    ∃ first difference last, stats start end_ = .ok (first, difference) ∧
      ShowsUsage first start ∧ ShowsUsage last end_ ∧ AddsUp first difference last := by
  unfold Counters at hs he
  simp only [List.mem_cons, List.not_mem_nil, or_false, forall_eq_or_imp, forall_eq] at hs he
  obtain ⟨a1, a2, a3, a4, a5, a6, a7, a8, a9, a10, a11, a12, a13, a14⟩ := hs
  obtain ⟨b1, b2, b3, b4, b5, b6, b7, b8, b9, b10, b11, b12, b13, b14⟩ := he
  refine ⟨toMessage start, sub (toMessage end_) (toMessage start), toMessage end_, ?_, ?_, ?_, ?_⟩
  · unfold stats diff
    rw [minus_ok b1 a1, minus_ok b2 a2, minus_ok b3 a3, minus_ok b4 a4, minus_ok b5 a5,
      minus_ok b6 a6, minus_ok b7 a7, minus_ok b8 a8, minus_ok b9 a9, minus_ok b10 a10,
      minus_ok b11 a11, minus_ok b12 a12, minus_ok b13 a13, minus_ok b14 a14]
    rfl
  · unfold ShowsUsage toMessage micros
    dsimp only
    omega
  · unfold ShowsUsage toMessage micros
    dsimp only
    omega
  · unfold AddsUp sub toMessage
    dsimp only
    omega

private def sample (n : Int) : Rusage :=
  ⟨⟨n, 7⟩, ⟨n, 8⟩, n, n, n, n, n, n, n, n, n, n, n, n, n, n⟩

example : Counters (sample 5) ∧ Counters (sample 9) := by
  unfold Counters sample
  decide

end Distbench.Usage
