import Verif.Spec.Services
import Verif.Model.Grpc

/-! Specification vocabulary for the gRPC driver. -/

namespace Distbench.Spec
open Services Grpc

/-- The text of a setting: that of the first entry with this name and a text, else the default. -/
def TextOf (settings : List NamedSetting) (name dflt v : Str) : Prop :=
  (∃ pre e post, settings = pre ++ e :: post ∧ StringEntry name v e ∧
    ∀ e' ∈ pre, ∀ w, ¬ StringEntry name w e') ∨
  ((∀ e ∈ settings, ∀ w, ¬ StringEntry name w e) ∧ v = dflt)

/-- The number of a setting: that of the first entry with this name and a number, else the
default. -/
def NumberOf (settings : List NamedSetting) (name : Str) (dflt v : Int) : Prop :=
  (∃ pre e post, settings = pre ++ e :: post ∧ IntEntry name v e ∧
    ∀ e' ∈ pre, ∀ w, ¬ IntEntry name w e') ∨
  ((∀ e ∈ settings, ∀ w, ¬ IntEntry name w e) ∧ v = dflt)

/-- The names of the clients in the documentation. -/
def clientName : ClientKind → Str
  | .polling => "polling".toList
  | .callback => "callback".toList

/-- The names of the servers. -/
def serverName : ServerKind → Str
  | .inline => "inline".toList
  | .handoff => "handoff".toList
  | .polling => "polling".toList

/-- The settings describe a pool of threads. -/
def PoolSettings (cpus : Int) (settings : List NamedSetting) : Prop :=
  ∃ size type, NumberOf settings "threadpool_size".toList cpus size ∧
    TextOf settings "threadpool_type".toList [] type ∧ 1 ≤ size ∧
    type ∈ [[], "simple".toList, "elastic".toList, "null".toList]

/-- Splitting a text at the commas, as gRPC does with the addresses of a target. -/
def commaParts : Str → List Str
  | [] => [[]]
  | c :: s =>
    if c = ',' then [] :: commaParts s
    else
      match commaParts s with
      | [] => [[c]]
      | p :: ps => (c :: p) :: ps

/-- An address of IP version 6 is written in brackets. -/
def IsV6 (a : Str) : Prop := a.head? = some '['

/-- The target tells gRPC to connect to these addresses: the scheme of their family, a colon, and
the list of them. -/
def Addresses (target : Str) (addresses : List Str) : Prop :=
  (∃ rest, target = "ipv4:".toList ++ rest ∧ commaParts rest = addresses ∧
    ∀ a ∈ addresses, ¬ IsV6 a) ∨
  (∃ rest, target = "ipv6:".toList ++ rest ∧ commaParts rest = addresses ∧
    ∀ a ∈ addresses, IsV6 a)

/-- What a setting asks to be given to gRPC: its text, else its number. -/
def argumentOf (s : NamedSetting) : Option (Str × Argument) :=
  s.name.bind fun n =>
    match s.stringValue with
    | some v => some (n, .text v)
    | none => s.int64Value.map fun v => (n, .int v)

/-- A client before its first RPC. -/
def newClient (peers channels : List Bool) : Client := { peers, channels }

/-- The RPCs started, in order: caller and request.  The place in this list identifies an RPC. -/
def started (ops : List Op) : List (Nat × Request) :=
  ops.filterMap fun | .start _ c r => some (c, r) | _ => none

/-- The RPCs that gRPC has ended, and how. -/
def endedBy (ops : List Op) : List (Nat × Ending) :=
  ops.filterMap fun | .finish id e => some (id, e) | _ => none

/-- The RPCs whose done callback was called. -/
def calledBack (ops : List Op) : List Nat :=
  ops.filterMap fun | .callback id => some id | _ => none

/-- The RPCs whose done callback has returned. -/
def cameBack (ops : List Op) : List Nat :=
  ops.filterMap fun | .returned id => some id | _ => none

/-- Only new RPCs and `ShutdownClient` can still happen. -/
def AtRest (k : ClientKind) (c : Client) : Prop :=
  ∀ op, (∀ t i r, op ≠ .start t i r) → op ≠ .shutdown → step k c op = none

/-- What the engine finds in the state of an RPC that ended so. -/
def Shows (request : Request) (e : Ending) (c : Caller) : Prop :=
  match e with
  | .response r => c.success = some true ∧ c.request = some request ∧ c.response = r
  | .failure m => c.success = some false ∧ c.response.error = m

/-- The target is a connected peer or channel. -/
def Connected (peers channels : List Bool) : Target → Prop
  | .peer i => ∃ n : Nat, i = n ∧ peers[n]? = some true
  | .channel i => ∃ n : Nat, i = n ∧ channels[n]? = some true

end Distbench.Spec
