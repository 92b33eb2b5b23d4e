import Verif.Model.Drivers

/-! Model of what the composite protocol drivers do with the calls of the driver interface
(protocol_driver_double_barrel.cc:67-143, composable_rpc_counter.cc:59-116,
protocol_driver.cc:139-158). -/

namespace Distbench.Compose

/-- The calls of the interface, protocol_driver.h:76-131.  `rpc` stands for the state and the done
callback that are handed over.  Left out: `GetTransportStats` (see Model/Drivers.lean). -/
inductive Call where
  | setHandler
  | setNumPeers (n : Int)
  | setNumChannels (n : Int)
  | connect (info : Str) (peer : Int)
  | connectFailure (info : Str)
  | initiate (peer : Int) (rpc : Nat)
  | churn (peer : Int)
  | shutdownClient
  | shutdownServer
  | setupChannel (peers : List Int) (channel : Int)
  | initiateToChannel (channel : Int) (rpc : Nat)
  deriving DecidableEq, Repr

/-- A driver: a real one, which has a number and the calls it got so far, or a composite one, with
`use_instance_1_` (protocol_driver_double_barrel.h:56) or `client_rpc_cnt_`
(composable_rpc_counter.h:52). -/
inductive Tree where
  | leaf (id : Nat) (calls : List Call)
  | doubleBarrel (use : Int) (instance1 instance2 : Tree)
  | counter (client : Nat) (instance1 : Tree)
  deriving DecidableEq, Repr

/-- What comes of a call: the drivers afterwards, the status that is returned (`ok` if nothing is
returned), and the RPCs that were ended at once, with an error, by calling their done callback.
Code: protocol_driver.cc:141-158. -/
structure Result where
  tree : Tree
  status : Outcome Unit := .ok ()
  failed : List Nat := []

/-- protocol_driver.cc:144-145, 153-154. -/
def unsupported : String := "This protocol driver does not support multi-server channels."

/-- A call of a real driver; what it returns is given from outside.
Code: protocol_driver.h:76-131. -/
def callLeaf (status : Nat → Call → Outcome Unit) (id : Nat) (calls : List Call) (c : Call) : Result :=
  { tree := .leaf id (calls ++ [c])
    status := match c with
      | .connect _ _ => status id c
      | .setupChannel _ _ => status id c
      | _ => .ok () }

/-- A call of a driver.
* double barrel, protocol_driver_double_barrel.cc:67-76 (`SetHandler`, `SetNumPeers`), 86-91
  (`HandleConnect`), 93-97 (`HandleConnectFailure`), 119-128 (`InitiateRpc`), 130-143;
* counter, composable_rpc_counter.cc:59-72, 81-89, 98-116;
* both inherit protocol_driver.cc:139-158: multi-server channels. -/
def Tree.call (status : Nat → Call → Outcome Unit) : Tree → Call → Result
  | .leaf id calls, c => callLeaf status id calls c
  | .doubleBarrel use a b, c =>
    match c with
    | .connect _ _ =>
      match (a.call status c).status with
      | .ok () =>
        { tree := .doubleBarrel use (a.call status c).tree (b.call status c).tree
          status := (b.call status c).status }
      | other => { tree := .doubleBarrel use (a.call status c).tree b, status := other }
    | .initiate _ _ =>
      if use % 2 = 1 then
        { tree := .doubleBarrel (Drivers.wrap32 (use + 1)) (a.call status c).tree b }
      else
        { tree := .doubleBarrel (Drivers.wrap32 (use + 1)) a (b.call status c).tree }
    | .setNumChannels _ => { tree := .doubleBarrel use a b }
    | .setupChannel _ _ => { tree := .doubleBarrel use a b, status := .error unsupported }
    | .initiateToChannel _ rpc => { tree := .doubleBarrel use a b, failed := [rpc] }
    | _ => { tree := .doubleBarrel use (a.call status c).tree (b.call status c).tree }
  | .counter n a, c =>
    match c with
    | .initiate _ _ => { tree := .counter (n + 1) (a.call status c).tree }
    | .setNumChannels _ => { tree := .counter n a }
    | .setupChannel _ _ => { tree := .counter n a, status := .error unsupported }
    | .initiateToChannel _ rpc => { tree := .counter n a, failed := [rpc] }
    | _ => { tree := .counter n (a.call status c).tree, status := (a.call status c).status }

/-- `HandlePreConnect`: the real driver whose server peers are told to connect to,
protocol_driver_double_barrel.cc:80-84, composable_rpc_counter.cc:76-79. -/
def Tree.server : Tree → Nat
  | .leaf id _ => id
  | .doubleBarrel _ a _ => a.server
  | .counter _ a => a.server

/-- A sequence of calls.  Code: protocol_driver.h:76-131. -/
def Tree.run (status : Nat → Call → Outcome Unit) : Tree → List Call → Tree
  | t, [] => t
  | t, c :: rest => ((t.call status c).tree).run status rest

end Distbench.Compose
