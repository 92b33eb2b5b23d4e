import Verif.Model.Usage

/-! Specification of the copying of requests and of the resource usage that is reported. -/

namespace Distbench.Spec
open Usage

/-- What getrusage(2) can report: all counters are between 0 and 2^63 - 1. -/
def Counters (r : Rusage) : Prop :=
  ∀ n ∈ [r.maxrss, r.ixrss, r.idrss, r.isrss, r.minflt, r.majflt, r.nswap, r.inblock, r.oublock,
    r.msgsnd, r.msgrcv, r.nsignals, r.nvcsw, r.nivcsw], 0 ≤ n ∧ n < 2 ^ 63

/-- The first value of every field and the difference make the second value. -/
def AddsUp (start difference end_ : Message) : Prop :=
  start.userCpuTime + difference.userCpuTime = end_.userCpuTime ∧
  start.systemCpuTime + difference.systemCpuTime = end_.systemCpuTime ∧
  start.maxResidentSetSize + difference.maxResidentSetSize = end_.maxResidentSetSize ∧
  start.integralSharedMemorySize + difference.integralSharedMemorySize =
    end_.integralSharedMemorySize ∧
  start.integralUnsharedDataSize + difference.integralUnsharedDataSize =
    end_.integralUnsharedDataSize ∧
  start.integralUnsharedStackSize + difference.integralUnsharedStackSize =
    end_.integralUnsharedStackSize ∧
  start.pageReclaims + difference.pageReclaims = end_.pageReclaims ∧
  start.pageFaults + difference.pageFaults = end_.pageFaults ∧
  start.swaps + difference.swaps = end_.swaps ∧
  start.blockInputOperations + difference.blockInputOperations = end_.blockInputOperations ∧
  start.blockOutputOperations + difference.blockOutputOperations = end_.blockOutputOperations ∧
  start.ipcMessagesSent + difference.ipcMessagesSent = end_.ipcMessagesSent ∧
  start.ipcMessagesReceived + difference.ipcMessagesReceived = end_.ipcMessagesReceived ∧
  start.signalsReceived + difference.signalsReceived = end_.signalsReceived ∧
  start.voluntaryContextSwitches + difference.voluntaryContextSwitches =
    end_.voluntaryContextSwitches ∧
  start.involuntaryContextSwitches + difference.involuntaryContextSwitches =
    end_.involuntaryContextSwitches

/-- A message shows what getrusage(2) reported, each number in its own field. -/
def ShowsUsage (m : Message) (r : Rusage) : Prop :=
  m.userCpuTime = 1000000 * r.utime.sec + r.utime.usec ∧
  m.systemCpuTime = 1000000 * r.stime.sec + r.stime.usec ∧
  m.maxResidentSetSize = r.maxrss ∧ m.integralSharedMemorySize = r.ixrss ∧
  m.integralUnsharedDataSize = r.idrss ∧ m.integralUnsharedStackSize = r.isrss ∧
  m.pageReclaims = r.minflt ∧ m.pageFaults = r.majflt ∧ m.swaps = r.nswap ∧
  m.blockInputOperations = r.inblock ∧ m.blockOutputOperations = r.oublock ∧
  m.ipcMessagesSent = r.msgsnd ∧ m.ipcMessagesReceived = r.msgrcv ∧
  m.signalsReceived = r.nsignals ∧ m.voluntaryContextSwitches = r.nvcsw ∧
  m.involuntaryContextSwitches = r.nivcsw

end Distbench.Spec
