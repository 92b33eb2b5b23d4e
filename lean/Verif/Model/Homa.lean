import Verif.Model.Services
import Verif.Model.Distribution

/-! Model of the threads of the Homa protocol driver (protocol_driver_homa.cc): how RPCs are
completed, how requests are served, and how both sides are shut down. -/

namespace Distbench.Homa
open Services

/-! ### settings -/

/-- The settings that are known, protocol_driver_homa.cc:111-113. -/
def knownSettings : List Str :=
  ["threadpool_type".toList, "threadpool_size".toList, "ping_pong".toList, "nocopy".toList,
   "client_threads".toList, "server_threads".toList]

/-- How many client and server threads `Initialize` starts, protocol_driver_homa.cc:111-130 and
171-181: both loops count up to `client_threads`.  The settings are `int64` values stored in `int`
variables; `reserve` of a negative number throws `std::length_error`, which nobody catches.
Simplification: creating the thread pool and the sockets succeeds. -/
def threadCounts (settings : List NamedSetting) : Outcome (Nat × Nat) :=
  if settings.any (fun s => (s.name.getD []) ∉ knownSettings) then
    .error "unknown protocol driver option"
  else
    let clientThreads := Dist.toInt32 (getNamedSettingInt64 settings "client_threads".toList 2)
    let serverThreads := Dist.toInt32 (getNamedSettingInt64 settings "server_threads".toList 3)
    if clientThreads < 0 ∨ serverThreads < 0 then .crash
    else .ok (clientThreads.toNat, clientThreads.toNat)

/-! ### the client -/

/-- What happens on the client side, seen from outside.
Code: protocol_driver_homa.cc:335-412, 499-533. -/
inductive ClientEvent where
  /-- `InitiateRpc` for RPC `id`. -/
  | initiated (id : Nat)
  /-- The kernel accepts the request of RPC `id`: its `InitiateRpc` returns. -/
  | accepted (id : Nat)
  /-- The done callback of RPC `id` runs. -/
  | calledBack (id : Nat) (success : Bool)
  /-- The kernel reports that RPC `id` failed after it was sent: `recvmsg` returns -1. -/
  | failed (id : Nat)
  /-- `ShutdownClient` is called. -/
  | shutdownCalled
  /-- `ShutdownClient` returns. -/
  | shutdownReturned
  /-- A step that nobody else can see. -/
  | silent
  deriving DecidableEq, Repr

/-- Where a completion thread is: at the loop condition, inside `receive`, after the callback of an
RPC and before `--pending_rpcs_`, or gone.  Code: protocol_driver_homa.cc:499-533. -/
inductive ClientThread where
  | checking
  | receiving
  | completing (id : Nat)
  | gone
  deriving DecidableEq, Repr

/-- The client side.  `inflight` are the RPCs the kernel has accepted and not reported on, `wakes` the
aborted RPCs to itself that it has not reported on, `sending` the RPCs between `++pending_rpcs_` and
`homa_sendv`, `refused` those that could not be sent, between `--pending_rpcs_` and the callback,
`pending` is `pending_rpcs_`, and RPCs are numbered in the order of `InitiateRpc`.
Code: protocol_driver_homa.cc:335-412, 499-533. -/
structure Client where
  threads : List ClientThread
  sending : List Nat := []
  refused : List Nat := []
  inflight : List Nat := []
  wakes : Nat := 0
  pending : Nat := 0
  shutdown : Bool := false
  returned : Bool := false
  next : Nat := 0
  deriving DecidableEq, Repr

/-- The loop condition of `ClientCompletionThread`, protocol_driver_homa.cc:501-502. -/
def keepsReceiving (s : Client) (thread : Nat) : Bool :=
  !s.shutdown || (s.pending ≠ 0 && thread = 0)

/-- One step of the client side.  Simplification: waking up works (`homa_send` to itself succeeds and
the abort is reported once).  Code: protocol_driver_homa.cc:335-412, 499-533. -/
inductive ClientStep : Client → ClientEvent → Client → Prop
  /-- protocol_driver_homa.cc:380-398. -/
  | initiate {s} :
      ClientStep s (.initiated s.next)
        { s with sending := s.next :: s.sending, pending := s.pending + 1, next := s.next + 1 }
  /-- `homa_sendv` succeeds, protocol_driver_homa.cc:400-403.  It cannot once the socket is closed. -/
  | accept {s id} : id ∈ s.sending → s.returned = false →
      ClientStep s (.accepted id)
        { s with sending := s.sending.erase id, inflight := id :: s.inflight }
  /-- `homa_sendv` fails, protocol_driver_homa.cc:400-408. -/
  | refuse {s id} : id ∈ s.sending →
      ClientStep s .silent { s with sending := s.sending.erase id, refused := id :: s.refused,
                                    pending := s.pending - 1 }
  /-- The callback after a failure to send, protocol_driver_homa.cc:409-410. -/
  | report {s id} : id ∈ s.refused →
      ClientStep s (.calledBack id false) { s with refused := s.refused.erase id }
  /-- The loop condition, protocol_driver_homa.cc:501-502. -/
  | check {s t} : s.threads[t]? = some .checking →
      ClientStep s .silent
        { s with threads := s.threads.set t (if keepsReceiving s t then .receiving else .gone) }
  /-- A wake-up is received as an error, protocol_driver_homa.cc:504-511. -/
  | wake {s t} : s.threads[t]? = some .receiving → 0 < s.wakes →
      ClientStep s .silent { s with threads := s.threads.set t .checking, wakes := s.wakes - 1 }
  /-- The failure of an RPC is received as an error, protocol_driver_homa.cc:504-511: the completion
  cookie is not looked at. -/
  | fail {s t id} : s.threads[t]? = some .receiving → id ∈ s.inflight →
      ClientStep s (.failed id) { s with threads := s.threads.set t .checking,
                                         inflight := s.inflight.erase id }
  /-- A response is received, protocol_driver_homa.cc:513-529; `success` is false for an empty
  message. -/
  | receive {s t id} (success : Bool) : s.threads[t]? = some .receiving → id ∈ s.inflight →
      ClientStep s (.calledBack id success) { s with threads := s.threads.set t (.completing id),
                                                     inflight := s.inflight.erase id }
  /-- protocol_driver_homa.cc:530-531. -/
  | complete {s t id} : s.threads[t]? = some (.completing id) →
      ClientStep s .silent { s with threads := s.threads.set t .checking, pending := s.pending - 1 }
  /-- `ShutdownClient`, protocol_driver_homa.cc:335-360: one wake-up for each thread. -/
  | shutdown {s} : s.shutdown = false →
      ClientStep s .shutdownCalled { s with shutdown := true, wakes := s.wakes + s.threads.length }
  /-- protocol_driver_homa.cc:363-377: all threads are joined and nothing is pending. -/
  | return_ {s} : s.shutdown = true → s.returned = false → (∀ t ∈ s.threads, t = .gone) →
      s.pending = 0 → ClientStep s .shutdownReturned { s with returned := true }

/-- The histories of a driver with `n` completion threads.
Code: protocol_driver_homa.cc:335-412, 499-533. -/
inductive ClientRun (n : Nat) : List ClientEvent → Client → Prop
  | start : ClientRun n [] { threads := List.replicate n .checking }
  | step {h s e s'} : ClientRun n h s → ClientStep s e s' → ClientRun n (h ++ [e]) s'

/-- How a client goes on from a state.  Code: protocol_driver_homa.cc:335-412, 499-533. -/
inductive ClientSteps : Client → List ClientEvent → Client → Prop
  | done {s} : ClientSteps s [] s
  | step {s e s' h s''} : ClientStep s e s' → ClientSteps s' h s'' → ClientSteps s (e :: h) s''

/-! ### the server -/

/-- What happens on the server side.  Code: protocol_driver_homa.cc:295-333, 414-497. -/
inductive ServerEvent where
  /-- A request is handed to the handler. -/
  | handled (id : Nat)
  /-- The response to a request is sent. -/
  | responded (id : Nat)
  /-- `ShutdownServer` is called. -/
  | shutdownCalled
  /-- `ShutdownServer` returns. -/
  | shutdownReturned
  /-- A thread reads a message from the receive buffer after it was unmapped. -/
  | useAfterUnmap
  /-- A step that nobody else can see. -/
  | silent
  deriving DecidableEq, Repr

/-- Where a server thread is: inside `receive`, before the shutdown check (with the request it got, or
a wake-up), before the message is parsed, in the loop at the end, or gone.
Code: protocol_driver_homa.cc:414-497. -/
inductive ServerThread where
  | receiving
  | received (request : Option Nat)
  | parsing (id : Nat)
  | draining
  | gone
  deriving DecidableEq, Repr

/-- A server thread and the requests it has handed out that have not been answered
(`pending_responses`).  Code: protocol_driver_homa.cc:414-497. -/
structure Worker where
  place : ServerThread := .receiving
  owed : List Nat := []
  deriving DecidableEq, Repr

/-- The server side.  `joined` is how many threads `ShutdownServer` has joined.
Code: protocol_driver_homa.cc:295-333, 414-497. -/
structure Server where
  workers : List Worker
  wakes : Nat := 0
  mapped : Bool := true
  shutdown : Bool := false
  joined : Nat := 0
  returned : Bool := false
  next : Nat := 0
  deriving DecidableEq, Repr

/-- One step of the server side.  Simplifications: the handler has been set; every request gets a
number of its own; requests that cannot be received are not represented.
Code: protocol_driver_homa.cc:295-333, 414-497. -/
inductive ServerStep : Server → ServerEvent → Server → Prop
  /-- A request is received, protocol_driver_homa.cc:421. -/
  | receive {s t w} : s.workers[t]? = some w → w.place = .receiving →
      ServerStep s .silent { s with
        workers := s.workers.set t { w with place := .received (some s.next) }, next := s.next + 1 }
  /-- A wake-up is received, protocol_driver_homa.cc:421. -/
  | wake {s t w} : s.workers[t]? = some w → w.place = .receiving → 0 < s.wakes →
      ServerStep s .silent { s with
        workers := s.workers.set t { w with place := .received none }, wakes := s.wakes - 1 }
  /-- The shutdown check, protocol_driver_homa.cc:422-424. -/
  | stop {s t w r} : s.workers[t]? = some w → w.place = .received r → s.shutdown = true →
      ServerStep s .silent { s with workers := s.workers.set t { w with place := .draining } }
  /-- There is no shutdown, protocol_driver_homa.cc:422-437. -/
  | proceed {s t w id} : s.workers[t]? = some w → w.place = .received (some id) →
      s.shutdown = false →
      ServerStep s .silent { s with workers := s.workers.set t { w with place := .parsing id } }
  /-- The message is parsed and handed to the handler, protocol_driver_homa.cc:458-491. -/
  | parse {s t w id} : s.workers[t]? = some w → w.place = .parsing id → s.mapped = true →
      ServerStep s (.handled id) { s with
        workers := s.workers.set t { place := .receiving, owed := id :: w.owed } }
  /-- The message is read after the buffer is gone. -/
  | parseUnmapped {s} {t : Nat} {w : Worker} {id} : s.workers[t]? = some w → w.place = .parsing id →
      s.mapped = false → ServerStep s .useAfterUnmap s
  /-- The response is sent, protocol_driver_homa.cc:469-486, possibly from another thread. -/
  | respond {s t w id} : s.workers[t]? = some w → id ∈ w.owed →
      ServerStep s (.responded id) { s with
        workers := s.workers.set t { w with owed := w.owed.erase id } }
  /-- The thread ends, protocol_driver_homa.cc:494-497. -/
  | leave {s t w} : s.workers[t]? = some w → w.place = .draining → w.owed = [] →
      ServerStep s .silent { s with workers := s.workers.set t { w with place := .gone } }
  /-- `ShutdownServer`, protocol_driver_homa.cc:295-320: one wake-up for each thread. -/
  | shutdown {s} : s.shutdown = false →
      ServerStep s .shutdownCalled { s with shutdown := true, wakes := s.wakes + s.workers.length }
  /-- A thread is joined, and then the buffer is unmapped, protocol_driver_homa.cc:321-329. -/
  | join {s w} : s.shutdown = true → s.workers[s.joined]? = some w → w.place = .gone →
      ServerStep s .silent { s with joined := s.joined + 1, mapped := false }
  /-- protocol_driver_homa.cc:330-332. -/
  | return_ {s} : s.shutdown = true → s.returned = false → s.joined = s.workers.length →
      ServerStep s .shutdownReturned { s with returned := true }

/-- The histories of a driver with `n` server threads.
Code: protocol_driver_homa.cc:295-333, 414-497. -/
inductive ServerRun (n : Nat) : List ServerEvent → Server → Prop
  | start : ServerRun n [] { workers := List.replicate n {} }
  | step {h s e s'} : ServerRun n h s → ServerStep s e s' → ServerRun n (h ++ [e]) s'

/-- How a server goes on from a state.  Code: protocol_driver_homa.cc:295-333, 414-497. -/
inductive ServerSteps : Server → List ServerEvent → Server → Prop
  | done {s} : ServerSteps s [] s
  | step {s e s' h s''} : ServerStep s e s' → ServerSteps s' h s'' → ServerSteps s (e :: h) s''

end Distbench.Homa
