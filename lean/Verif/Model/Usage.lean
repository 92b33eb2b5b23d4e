import Verif.Model.Basic
import Verif.Model.Handler

/-! Model of the copying of requests and of the resource usage that is reported
(distbench_utils.cc:208-281, 945-962; distbench_node_manager.cc:193, 229-230). -/

namespace Distbench.Usage
open Handler

/-- `CopyRequestFields`, distbench_utils.cc:945-962; a field that is not set reads as zero. -/
def copyRequestFields (src dest : Request) : Request :=
  { dest with
    rpcIndex := if src.rpcIndex.isSome then src.rpcIndex else dest.rpcIndex
    warmup := if src.warmup.isSome then src.warmup else dest.warmup
    responseSize := if src.responseSize.isSome then some (src.rpcIndex.getD 0) else dest.responseSize
    processingNs := if src.processingNs.isSome then src.processingNs else dest.processingNs
    trace := if src.trace.isSome then src.trace else dest.trace }

/-- `struct timeval`: seconds and microseconds.  Code: distbench_utils.cc:210-212. -/
structure Timeval where
  sec : Int
  usec : Int
  deriving DecidableEq, Repr

/-- `struct rusage` as getrusage(2) fills it.  Code: distbench_utils.cc:273-281. -/
structure Rusage where
  utime : Timeval
  stime : Timeval
  maxrss : Int
  ixrss : Int
  idrss : Int
  isrss : Int
  minflt : Int
  majflt : Int
  nswap : Int
  inblock : Int
  oublock : Int
  msgsnd : Int
  msgrcv : Int
  nsignals : Int
  nvcsw : Int
  nivcsw : Int
  deriving DecidableEq, Repr

/-- `message RUsage`, distbench.proto:111-128.  Simplification: the two times are whole numbers of
microseconds instead of doubles in seconds. -/
structure Message where
  userCpuTime : Int
  systemCpuTime : Int
  maxResidentSetSize : Int
  integralSharedMemorySize : Int
  integralUnsharedDataSize : Int
  integralUnsharedStackSize : Int
  pageReclaims : Int
  pageFaults : Int
  swaps : Int
  blockInputOperations : Int
  blockOutputOperations : Int
  ipcMessagesSent : Int
  ipcMessagesReceived : Int
  signalsReceived : Int
  voluntaryContextSwitches : Int
  involuntaryContextSwitches : Int
  deriving DecidableEq, Repr

/-- `TimevalToDouble`, distbench_utils.cc:210-212, in microseconds instead of seconds. -/
def micros (t : Timeval) : Int := t.usec + t.sec * 1000000

/-- `StructRUsageToMessage`, distbench_utils.cc:215-236. -/
def toMessage (r : Rusage) : Message where
  userCpuTime := micros r.utime
  systemCpuTime := micros r.stime
  maxResidentSetSize := r.maxrss
  integralSharedMemorySize := r.ixrss
  integralUnsharedDataSize := r.idrss
  integralUnsharedStackSize := r.isrss
  pageReclaims := r.minflt
  pageFaults := r.majflt
  swaps := r.nswap
  blockInputOperations := r.inblock
  blockOutputOperations := r.oublock
  ipcMessagesSent := r.msgsnd
  ipcMessagesReceived := r.msgrcv
  signalsReceived := r.nsignals
  voluntaryContextSwitches := r.nvcsw
  involuntaryContextSwitches := r.nivcsw

/-- The subtraction of two `long`s; overflow is undefined.  Code: distbench_utils.cc:247-262. -/
def minus (a b : Int) : Outcome Int := if InI64 (a - b) then .ok (a - b) else .ub

/-- `DiffStructRUsageToMessage`, distbench_utils.cc:238-265. -/
def diff (start end_ : Rusage) : Outcome Message :=
  (minus end_.maxrss start.maxrss).bind fun maxrss =>
  (minus end_.ixrss start.ixrss).bind fun ixrss =>
  (minus end_.idrss start.idrss).bind fun idrss =>
  (minus end_.isrss start.isrss).bind fun isrss =>
  (minus end_.minflt start.minflt).bind fun minflt =>
  (minus end_.majflt start.majflt).bind fun majflt =>
  (minus end_.nswap start.nswap).bind fun nswap =>
  (minus end_.inblock start.inblock).bind fun inblock =>
  (minus end_.oublock start.oublock).bind fun oublock =>
  (minus end_.msgsnd start.msgsnd).bind fun msgsnd =>
  (minus end_.msgrcv start.msgrcv).bind fun msgrcv =>
  (minus end_.nsignals start.nsignals).bind fun nsignals =>
  (minus end_.nvcsw start.nvcsw).bind fun nvcsw =>
  (minus end_.nivcsw start.nivcsw).bind fun nivcsw =>
  .ok ⟨micros end_.utime - micros start.utime, micros end_.stime - micros start.stime, maxrss, ixrss,
    idrss, isrss, minflt, majflt, nswap, inblock, oublock, msgsnd, msgrcv, nsignals, nvcsw, nivcsw⟩

/-- `GetRUsageStatsFromStructs`, distbench_utils.cc:267-278: `rusage_start` and `rusage_diff`. -/
def stats (start end_ : Rusage) : Outcome (Message × Message) :=
  (diff start end_).bind fun d => .ok (toMessage start, d)

end Distbench.Usage
