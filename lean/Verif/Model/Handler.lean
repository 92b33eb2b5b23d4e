import Verif.Model.Basic

/-! Model of the requests an engine sends (`RunRpcActionIterationCommon`, distbench_engine.cc:2104-
2240), of the way incoming requests are handled (`RpcHandler`, 977-1049, `ComputeResponseSize`,
1530-1552), of the protocol drivers' servers as far as they call the handler, and of cancellation
(904-912, 2205-2217). -/

namespace Distbench.Handler

/-- `message TraceContext`, distbench.proto:38-66. -/
structure TraceContext where
  engineIds : List Int := []
  listInvocations : List Int := []
  listIndices : List Int := []
  actionIndices : List Int := []
  iterations : List Int := []
  fanouts : List Int := []
  deriving DecidableEq, Repr

/-- The metadata of a request, distbench.proto:287-302.  `padTo` stands for the payload: the size
passed to `AddPadding`, if it was called. -/
structure Request where
  rpcIndex : Option Int := none
  trace : Option TraceContext := none
  warmup : Option Bool := none
  responseSize : Option Int := none
  processingNs : Option Int := none
  padTo : Option Int := none
  deriving DecidableEq, Repr

/-- A response, distbench.proto:304-321; `padTo` as in a request. -/
structure Response where
  error : Str := []
  serverInstance : Option Int := none
  padTo : Option Int := none
  deriving DecidableEq, Repr

/-! ### sending -/

/-- The place an RPC is sent from: `trace_id_`, the invocation and the index of the action list, the
index of the action and the number of the iteration.  Code: distbench_engine.cc:2104-2145. -/
structure Place where
  engine : Int
  invocation : Int
  list : Int
  action : Int
  iteration : Int
  deriving DecidableEq, Repr

/-- How the size of the request is determined: by a joint sample, or by a draw for the payload
override of the action, by a draw for the payload of the RPC, or by a fixed size.
Code: distbench_engine.cc:2122-2165. -/
structure Sizes where
  joint : Option (List Int)
  overrideDraw : Option Int
  payloadDraw : Option Int
  fixed : Int
  deriving DecidableEq, Repr

/-- One iteration of an RPC action.  Code: distbench_engine.cc:2104-2165. -/
structure Iteration where
  place : Place
  rpcIndex : Int
  warmup : Bool
  tracingInterval : Int
  traceCounter : Int
  sizes : Sizes
  targets : List Int
  deriving DecidableEq, Repr

/-- Conversion of `int64_t` to `int`.  Code: distbench_engine.cc:2122-2165. -/
def narrow (n : Int) : Int := (n + 2 ^ 31) % 2 ^ 32 - 2 ^ 31

/-- `do_trace` before looking at the incoming request, distbench_engine.cc:2119-2121.  The counter
is an `int64_t` (distbench_engine.h:158), `trace_count` an `int`. -/
def dueForTrace (it : Iteration) : Bool :=
  it.tracingInterval > 0 && (narrow it.traceCounter).tmod it.tracingInterval == 0

/-- distbench_engine.cc:2123-2141: the trace context common to the RPCs of the iteration. -/
def commonTrace (incoming : Request) (it : Iteration) : Option TraceContext :=
  let doTrace := dueForTrace it || incoming.trace.isSome
  if doTrace then
    let c := incoming.trace.getD {}
    some { c with
      engineIds := c.engineIds ++ [it.place.engine]
      listInvocations := c.listInvocations ++ [it.place.invocation]
      listIndices := c.listIndices ++ [it.place.list]
      actionIndices := c.actionIndices ++ [it.place.action]
      iterations := c.iterations ++ [it.place.iteration] }
  else none

/-- distbench_engine.cc:2145-2175: the size of the requests and the size asked for.  `none`: the
sample has no first field. -/
def sizesOf (s : Sizes) : Option (Int × Option Int) :=
  match s.joint with
  | some [] => none
  | some [a] => some (a, some a)
  | some (a :: b :: _) => some (a, some b)
  | none =>
    match s.overrideDraw with
    | some d => some (d, none)
    | none =>
      match s.payloadDraw with
      | some d => some (d, none)
      | none => some (if s.fixed ≥ 0 then s.fixed else 0, none)

/-- The request to the target at position `i`, distbench_engine.cc:2141-2188. -/
def requestTo (incoming : Request) (it : Iteration) (i : Nat) : Option Request :=
  (sizesOf it.sizes).map fun (size, asked) =>
    { rpcIndex := some it.rpcIndex
      warmup := some it.warmup
      responseSize := asked
      trace := (commonTrace incoming it).map fun c => { c with fanouts := c.fanouts ++ [(i : Int)] }
      padTo := some size }

/-- All requests of the iteration, with their targets; `ub` if the sample is empty.
Code: distbench_engine.cc:2104-2240. -/
def requests (incoming : Request) (it : Iteration) : Outcome (List (Int × Request)) :=
  it.targets.zipIdx.foldr (fun (t, i) acc =>
    match requestTo incoming it i with
    | none => .ub
    | some r => acc.bind fun rs => .ok ((t, r) :: rs)) (.ok [])

/-- The request that `RunTraffic` makes up for the list of the service itself,
distbench_engine.cc:885-886. -/
def topRequest : Request := { responseSize := some 0 }

/-! ### replay -/

/-- The request of a replayed RPC, distbench_engine.cc:1218-1246: over a multi-server channel
nothing is set. -/
def replayRequest (channel : Bool) (requestSize responseSize : Int) : Request :=
  if channel then {} else { responseSize := some responseSize, padTo := some requestSize }

/-- The trace context in the log of a replay, distbench_engine.cc:1303-1307 and 1821-1831. -/
def replayTrace (incoming : Request) (p : Place) : TraceContext :=
  let c := incoming.trace.getD {}
  { c with
    engineIds := c.engineIds ++ [p.engine]
    listInvocations := c.listInvocations ++ [p.invocation]
    listIndices := c.listIndices ++ [p.list]
    actionIndices := c.actionIndices ++ [p.action]
    iterations := c.iterations ++ [p.iteration] }

/-- The metadata of the log of a replay, distbench_engine.cc:1303-1308 and 1812-1831.
`RunRpcReplayTrace` is told whether this is warmup, and makes no use of it. -/
structure ReplayLog where
  trace : TraceContext
  warmup : Option Bool
  deriving DecidableEq, Repr

/-- The log of a replay: the trace it belongs to; the warm-up flag is not handed on.
Code: distbench_engine.cc:1051-1100, 1259-1309. -/
def replayLog (incoming : Request) (p : Place) (_forceWarmup : Bool) : ReplayLog :=
  { trace := replayTrace incoming p, warmup := none }

/-! ### cancellation -/

/-- `absl::Status` as far as it is used for cancelling: the name of the code and the message.
Code: distbench_engine.cc:904-912. -/
structure Status where
  code : Str
  message : Str
  deriving DecidableEq, Repr

/-- `Status::ToString()` of a status that is not OK.  Code: distbench_engine.cc:904-912. -/
def Status.text (s : Status) : Str := s.code ++ ": ".toList ++ s.message

/-- `canceled_`, `cancelation_reason_` and `cancelation_time_`: set together.
Code: distbench_engine.h:433-436; distbench_engine.cc:904-912. -/
structure Cancel where
  reason : Str
  time : Int
  deriving DecidableEq, Repr

/-- `CancelTraffic`, distbench_engine.cc:904-912, at time `now`. -/
def cancel (c : Option Cancel) (status : Status) (now grace : Int) : Option Cancel :=
  match c with
  | some c => some c
  | none => some { reason := status.text, time := now + grace }

/-- `"Traffic cancelled: "`.  Code: distbench_engine.cc:977-1049. -/
def cancelledText : Str := "Traffic cancelled: ".toList

/-- What a client does about the error message of a response, distbench_engine.cc:2209-2213. -/
def onError (c : Option Cancel) (error : Str) (now : Int) : Option Cancel :=
  if "Traffic cancelled: RESOURCE_EXHAUSTED:".toList.isPrefixOf error then
    cancel c { code := "UNKNOWN".toList, message := "Peer reported ".toList ++ error } now 0
  else c

/-! ### handling -/

/-- An entry of `server_rpc_table_`: `response_payload_index`, `response_payload_size` and whether the
RPC names a multi-server channel are those of its definition.  Code: distbench_engine.h:147-152. -/
structure ServerRpc where
  allowed : Bool
  handler : Int
  hasChannel : Bool
  responseIndex : Int
  responseSize : Int
  deriving DecidableEq, Repr

/-- The engine as far as handling depends on it.  Code: distbench_engine.cc:977-1049. -/
structure Server where
  table : List ServerRpc
  instance_ : Int
  canceled : Option Cancel

/-- `ComputeResponseSize`, distbench_engine.cc:1530-1552; `draw k` is a number drawn from size
distribution `k`.  Without an explicit size the RPC index is used without a check. -/
def computeResponseSize (s : Server) (r : Request) (override : Int) (draw : Int → Int) :
    Outcome Int :=
  match r.responseSize with
  | some n => .ok n
  | none =>
    let i := r.rpcIndex.getD 0
    if i < 0 then .ub
    else
      match s.table[i.toNat]? with
      | none => .ub
      | some d =>
        if override = -1 ∧ d.responseIndex ≥ 0 then .ok (draw d.responseIndex)
        else if override = -1 then .ok (if d.responseSize ≥ 0 then d.responseSize else 0)
        else .ok (draw override)

/-- What is done with the state of an RPC.  Code: distbench_engine.cc:977-1049. -/
inductive Effect where
  | respond (r : Response)
  | free
  deriving DecidableEq, Repr

/-- What remains to be done: nothing; an action list, on this thread or on another; a pause.
Code: distbench_engine.cc:977-1049. -/
inductive Rest where
  | nothing
  | list (k : Int) (inline : Bool)
  | sleep (ns : Int)
  deriving DecidableEq, Repr

/-- What the handler did, the response as it stands, and the rest.
Code: distbench_engine.cc:977-1049. -/
structure Handled where
  effects : List Effect
  response : Response := {}
  rest : Rest
  deriving DecidableEq, Repr

/-- Send the response and free the state.  Code: distbench_engine.cc:977-1049. -/
def answer (r : Response) : Handled := { effects := [.respond r, .free], response := r, rest := .nothing }

/-- Decimal digits, as `StrCat` writes an `int`.  Code: distbench_engine.cc:977-1049. -/
def intText (n : Int) : Str := (toString n).toList

/-- distbench_engine.cc:978-983: the reason, if traffic was cancelled and the grace period is over. -/
def late (s : Server) (now : Int) : Option Str :=
  match s.canceled with
  | some c => if now > c.time then some c.reason else none
  | none => none

/-- `RpcHandler`, distbench_engine.cc:977-1049. -/
def handle (s : Server) (now : Int) (dedicated : Bool) (draw : Int → Int) (r : Request) :
    Outcome Handled :=
  match late s now with
  | some reason => .ok (answer { error := cancelledText ++ reason })
  | none =>
    match r.rpcIndex with
    | none =>
      match r.responseSize with
      | none => .ok (answer { error := "rpc has no index, and no response size: ".toList })
      | some _ => .ok { effects := [], response := { serverInstance := some s.instance_ }
                        rest := .sleep (r.processingNs.getD 0) }
    | some i =>
      if i < 0 ∨ i ≥ s.table.length then
        .ok (answer { error := "rpc_index out of range: ".toList ++ intText i })
      else
        match s.table[i.toNat]? with
        | none => .ub
        | some d =>
          if !d.allowed then
            .ok (answer { error :=
              "rpc_index should never be sent to this service: ".toList ++ intText i })
          else
            let resp : Response :=
              { serverInstance := if d.hasChannel then some s.instance_ else none }
            if d.handler = -1 then
              (computeResponseSize s r d.responseIndex draw).bind fun n =>
                .ok (answer { resp with padTo := some n })
            else .ok { effects := [], response := resp, rest := .list d.handler dedicated }

/-! ### the servers of the protocol drivers -/

/-- The servers: gRPC calls the handler on a thread of its own and returns when it is done
(protocol_driver_grpc.cc:305-324); gRPC callback and polling servers, Homa and Mercury hand the rest
to a thread pool (protocol_driver_grpc.cc:592-612 and 716-731, protocol_driver_homa.cc:462-496,
protocol_driver_mercury.cc:390-409). -/
inductive Driver where
  | inline
  | handoff
  deriving DecidableEq, Repr

/-- `have_dedicated_thread`, as the driver sets it.  Code: protocol_driver_grpc.cc:296-330, 579-620. -/
def Driver.dedicated : Driver → Bool
  | .inline => true
  | .handoff => false

/-- Everything done with the state of an RPC, if running an action list does `ofList`.
Code: distbench_engine.cc:977-1049. -/
def allEffects (h : Handled) (ofList : Int → List Effect) : List Effect :=
  match h.rest with
  | .nothing => h.effects
  | .list k _ => h.effects ++ ofList k
  | .sleep _ => h.effects

/-- The responses that reach the client.  An inline server copies the response when it is sent, and
returns what is there in the end: an empty message if nothing was sent.
Code: protocol_driver_grpc.cc:296-330, 579-620. -/
def received (d : Driver) (effects : List Effect) : List Response :=
  let sent := effects.filterMap fun x => match x with | .respond r => some r | .free => none
  match d with
  | .handoff => sent
  | .inline => [sent.getLast?.getD {}]

/-! ### the limit on pending RPCs -/

/-- RPCs in flight; callbacks running (an RPC stays in `pending_rpcs_` until its callback returns,
distbench_engine.cc:2181 and 2228, and the callback may start the RPCs of the next iteration);
whether traffic was cancelled by this limit. -/
structure Pending where
  inFlight : Nat
  callbacks : Nat
  counter : Nat
  exceeded : Bool
  deriving DecidableEq, Repr

/-- Before the first RPC.  Code: distbench_engine.cc:2181-2238. -/
def Pending.start : Pending := { inFlight := 0, callbacks := 0, counter := 0, exceeded := false }

/-- `initiate`: lines 2181-2235; `check`: 2236-2238, by any thread that initiated; `complete`: the
driver calls the callback; `return`: the end of the callback.  Code: distbench_engine.cc:2181-2238. -/
inductive PendingStep (limit : Int) : Pending → Pending → Prop where
  | initiate {p} : PendingStep limit p
      { p with inFlight := p.inFlight + 1, counter := p.counter + 1 }
  | check {p} : PendingStep limit p { p with exceeded := p.exceeded || (p.counter : Int) > limit }
  | complete {p n} : p.inFlight = n + 1 →
      PendingStep limit p { p with inFlight := n, callbacks := p.callbacks + 1 }
  | return {p n} : p.callbacks = n + 1 →
      PendingStep limit p { p with callbacks := n, counter := p.counter - 1 }

end Distbench.Handler
