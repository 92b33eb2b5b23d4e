import Verif.Model.Grpc
import Verif.Model.Netutils

/-! Model of how a client is connected to a server: what a server tells about itself after
`Initialize` (protocol_driver_grpc.cc:331-381, 622-650, 788-830, protocol_driver_homa.cc:105-225 and
284-293, protocol_driver_mercury.cc:45-146) and what a client makes of it (protocol_driver_grpc.cc:57-76,
116-130, protocol_driver_homa.cc:242-282).

The wire format of `ServerAddress` is not modelled: what is told is the message. -/

namespace Distbench.Connect
open Netutils

/-! ### Addresses as text -/

/-- The loop of `inet_pton` for `AF_INET` (C library), used at protocol_driver_homa.cc:258: the octets
that are complete, the octet that is being read, and the rest of the text. -/
def pton4Loop (done : List Nat) (cur : Option Nat) : Str → Option (List Nat)
  | [] =>
    match cur with
    | some v => if done.length = 3 then some (done ++ [v]) else none
    | none => none
  | c :: rest =>
    if 48 ≤ c.toNat ∧ c.toNat ≤ 57 then
      match cur with
      | some v =>
        if v = 0 then none
        else if v * 10 + (c.toNat - 48) > 255 then none
        else pton4Loop done (some (v * 10 + (c.toNat - 48))) rest
      | none => if done.length = 4 then none else pton4Loop done (some (c.toNat - 48)) rest
    else if c = '.' then
      match cur with
      | some v => if done.length = 3 then none else pton4Loop (done ++ [v]) none rest
      | none => none
    else none

/-- `inet_pton(AF_INET, …)`: the four octets.  Code: protocol_driver_homa.cc:258. -/
def pton4 (s : Str) : Option (List Nat) := pton4Loop [] none s

/-- The end of `inet_pton` for `AF_INET6` (C library): the groups read and where `::` was.
Code: protocol_driver_homa.cc:268. -/
def finish6 (done : List Nat) (gap : Option Nat) : Option (List Nat) :=
  match gap with
  | some k =>
    if 8 ≤ done.length then none
    else some (done.take k ++ List.replicate (8 - done.length) 0 ++ done.drop k)
  | none => if done.length = 8 then some done else none

/-- The loop of `inet_pton` for `AF_INET6` (C library), used at protocol_driver_homa.cc:268: the groups
that are complete (pairs of bytes), where `::` was (`colonp`), the number of digits seen, their value,
the text from the beginning of the group (`curtok`), and the rest of the text. -/
def pton6Loop (done : List Nat) (gap : Option Nat) (digits val : Nat) (tok : Str) : Str → Option (List Nat)
  | [] =>
    if digits = 0 then finish6 done gap
    else if 8 ≤ done.length then none
    else finish6 (done ++ [val]) gap
  | c :: rest =>
    match hexValue c with
    | some d => if digits = 4 then none else pton6Loop done gap (digits + 1) (val * 16 + d) tok rest
    | none =>
      if c = ':' then
        if digits = 0 then
          match gap with
          | some _ => none
          | none => pton6Loop done (some done.length) 0 0 rest rest
        else if rest = [] then none
        else if 8 ≤ done.length then none
        else pton6Loop (done ++ [val]) gap 0 0 rest rest
      else if c = '.' ∧ done.length ≤ 6 then
        match pton4 tok with
        | some [a, b, c, d] => finish6 (done ++ [a * 256 + b, c * 256 + d]) gap
        | _ => none
      else none

/-- `inet_pton(AF_INET6, …)`: the eight groups.  Code: protocol_driver_homa.cc:268. -/
def pton6 (s : Str) : Option (List Nat) :=
  match s with
  | [] => none
  | ':' :: ':' :: rest => pton6Loop [] none 0 0 (':' :: rest) (':' :: rest)
  | ':' :: _ => none
  | s => pton6Loop [] none 0 0 s s

/-! ### Servers -/

/-- The drivers with a server of their own.  Code: protocol_driver_grpc.cc:331, 622, 788,
protocol_driver_homa.cc:105, protocol_driver_mercury.cc:45. -/
inductive Driver where
  | grpc
  | homa
  | mercury
  deriving DecidableEq, Repr

/-- The answers of the operating system and of the libraries during `Initialize`: whether all sockets,
classes and contexts can be made, and the port to which the server is bound, if it can be bound.
Code: protocol_driver_grpc.cc:345-362, protocol_driver_homa.cc:139-206,
protocol_driver_mercury.cc:72-135. -/
structure Answers where
  resources : Bool
  bound : Option Nat
  deriving DecidableEq, Repr

/-- `ServerAddress`, distbench.proto:337-341. -/
structure ServerAddress where
  ip : Str
  port : Int
  socketAddress : Str
  deriving DecidableEq, Repr

/-- A server after `Initialize`: the address it has chosen, the port to which it is bound, the port it
keeps as `server_port_`, `server_socket_address_`, and what it has written to `*port`.
Code: protocol_driver_grpc.cc:356-358, protocol_driver_homa.cc:208-222. -/
structure Server where
  ip : DeviceIp
  bound : Nat
  serverPort : Int
  socketAddress : Str
  told : Int
  deriving DecidableEq, Repr

/-- The socket address that the Homa driver keeps, protocol_driver_homa.cc:208-216.  The socket has the
family of the address. -/
def homaSocketAddress (a : DeviceIp) (port : Int) : Str :=
  if a.isV4 then a.ip ++ ':' :: Services.showInt port
  else '[' :: a.ip ++ "]:".toList ++ Services.showInt port

/-- `Initialize` of the servers, once the settings are accepted; `ip` is what `IpAddressForDevice` returns,
`requested` is `*port` before.  `none` is an error.  gRPC writes the port to which it has bound the
server, Homa asks for it with `getsockname`; Mercury leaves `*port` as it is (its address is a text of
the library's own).  Code: protocol_driver_grpc.cc:331-365, protocol_driver_homa.cc:132-225,
protocol_driver_mercury.cc:58-146. -/
def initServer (d : Driver) (ip : Option DeviceIp) (requested : Int) (os : Answers) : Option Server :=
  match ip with
  | none => none
  | some ip =>
    if os.resources = false then none
    else
      match os.bound with
      | none => none
      | some p =>
        match d with
        | .grpc => some { ip := ip, bound := p, serverPort := p, socketAddress := socketAddressForIp ip p, told := p }
        | .homa => some { ip := ip, bound := p, serverPort := p, socketAddress := homaSocketAddress ip p, told := p }
        | .mercury => some { ip := ip, bound := p, serverPort := 0, socketAddress := [], told := requested }

/-- `HandlePreConnect` of the gRPC and Homa servers, protocol_driver_grpc.cc:372-381,
protocol_driver_homa.cc:284-293. -/
def handlePreConnect (s : Server) : ServerAddress :=
  { ip := s.ip.ip, port := s.serverPort, socketAddress := s.socketAddress }

/-! ### Clients -/

/-- `HandleConnect` of the gRPC clients with the transport "tcp": the targets of the channels to the peers
(`none` before).  `info` is the message, or `none` if it does not parse; then the message is empty, and
so is the target.  A peer out of range fails a CHECK.
Code: protocol_driver_grpc.cc:57-68, 116-130. -/
def grpcConnect (targets : List (Option Str)) (info : Option ServerAddress) (peer : Int) :
    Outcome (List (Option Str)) :=
  if peer < 0 then .crash
  else if targets.length ≤ peer.toNat then .crash
  else
    let address := match info with
      | some i => i.socketAddress
      | none => []
    .ok (targets.set peer.toNat (some (Grpc.addGrpcProtocol address)))

/-- `sockaddr_in_union`: the family, the port, and the rest of the union, which is an IPv4 address or the
flow information at the same place (`word`), and an IPv6 address.  All zero when new.
Code: protocol_driver_homa.cc:250-271, protocol_driver_homa.h:66. -/
structure SockAddr where
  v4 : Option Bool
  port : Nat
  word : List Nat
  groups : List Nat
  deriving DecidableEq, Repr

/-- `peer_addresses_.resize`, protocol_driver_homa.cc:238-240. -/
def freshAddr : SockAddr := { v4 := none, port := 0, word := [0, 0, 0, 0], groups := List.replicate 8 0 }

/-- `htons` of an `int32`: the lower 16 bits.  Code: protocol_driver_homa.cc:255, 265. -/
def portBits (port : Int) : Nat := (port % 65536).toNat

/-- `c_str()` as the C library sees it.  Code: protocol_driver_homa.cc:250-253. -/
def cstr (s : Str) : Str := s.takeWhile (fun c => c ≠ Char.ofNat 0)

/-- What `HandleConnect` writes to the address of a peer, and whether it succeeds.
Code: protocol_driver_homa.cc:250-279. -/
def writeAddr (old : SockAddr) (info : ServerAddress) : SockAddr × Bool :=
  let text := cstr info.ip
  if ':' ∉ text then
    match pton4 text with
    | some a => ({ old with v4 := some true, port := portBits info.port, word := a }, true)
    | none => ({ old with v4 := some true, port := portBits info.port }, false)
  else
    match pton6 text with
    | some a => ({ old with v4 := some false, port := portBits info.port, groups := a }, true)
    | none => ({ old with v4 := some false, port := portBits info.port }, false)

/-- `ProtocolDriverHoma::HandleConnect`, protocol_driver_homa.cc:242-282: the addresses of the peers and
whether the call succeeds. -/
def homaConnect (peers : List SockAddr) (info : Option ServerAddress) (peer : Int) :
    Outcome (List SockAddr × Bool) :=
  if peer < 0 then .crash
  else
    match peers[peer.toNat]? with
    | none => .crash
    | some old =>
      match info with
      | none => .ok (peers, false)
      | some i => .ok (peers.set peer.toNat (writeAddr old i).1, (writeAddr old i).2)

end Distbench.Connect
