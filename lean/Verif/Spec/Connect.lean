import Verif.Model.Connect

/-! Vocabulary for connections: the texts of IP addresses (RFC 4291, section 2.2, for IPv6), and where a
client is connected to. -/

namespace Distbench.Spec
open Connect

/-- The value of a decimal digit. -/
def decDigit (c : Char) : Option Nat := if '0' ≤ c ∧ c ≤ '9' then some (c.toNat - 48) else none

/-- The value of a hexadecimal digit, in lower or upper case. -/
def hexDigit (c : Char) : Option Nat :=
  if '0' ≤ c ∧ c ≤ '9' then some (c.toNat - 48)
  else if 'a' ≤ c ∧ c ≤ 'f' then some (c.toNat - 87)
  else if 'A' ≤ c ∧ c ≤ 'F' then some (c.toNat - 55)
  else none

/-- The number with these digits, after the digits of `n`. -/
def digitsAfter (base : Nat) (digit : Char → Option Nat) (n : Nat) : Str → Option Nat
  | [] => some n
  | c :: t =>
    match digit c with
    | none => none
    | some d => digitsAfter base digit (n * base + d) t

/-- A decimal number below 256 without needless zeros. -/
def OctetText (t : Str) (v : Nat) : Prop :=
  t ≠ [] ∧ digitsAfter 10 decDigit 0 t = some v ∧ v < 256 ∧ (t.head? = some '0' → t = ['0'])

/-- Octets separated by dots. -/
inductive Octets : Str → List Nat → Prop where
  | one {t v} : OctetText t v → Octets t [v]
  | more {t v u l} : OctetText t v → Octets u l → Octets (t ++ '.' :: u) (v :: l)

/-- The text of an IPv4 address: four octets. -/
def V4Text (t : Str) (a : List Nat) : Prop := Octets t a ∧ a.length = 4

/-- A hexadecimal number of one to four digits. -/
def GroupText (t : Str) (v : Nat) : Prop :=
  1 ≤ t.length ∧ t.length ≤ 4 ∧ digitsAfter 16 hexDigit 0 t = some v

/-- One or more groups separated by colons. -/
inductive Groups : Str → List Nat → Prop where
  | one {t v} : GroupText t v → Groups t [v]
  | more {t v u l} : GroupText t v → Groups u l → Groups (t ++ ':' :: u) (v :: l)

/-- The same, where the last two groups may be written as an IPv4 address. -/
inductive LastGroups : Str → List Nat → Prop where
  | one {t v} : GroupText t v → LastGroups t [v]
  | dotted {t a b c d} : V4Text t [a, b, c, d] → LastGroups t [a * 256 + b, c * 256 + d]
  | more {t v u l} : GroupText t v → LastGroups u l → LastGroups (t ++ ':' :: u) (v :: l)

/-- The text of an IPv6 address: eight groups, or fewer with one `::` for the groups that are missing,
which are zero. -/
inductive V6Text : Str → List Nat → Prop where
  | full {t l} : LastGroups t l → l.length = 8 → V6Text t l
  | gap {t1 l1 t2 l2} : (t1 = [] ∧ l1 = [] ∨ Groups t1 l1) → (t2 = [] ∧ l2 = [] ∨ LastGroups t2 l2) →
      l1.length + l2.length < 8 →
      V6Text (t1 ++ "::".toList ++ t2) (l1 ++ List.replicate (8 - (l1.length + l2.length)) 0 ++ l2)

/-- `a` (four octets or eight groups) is the address that the text of a device's address denotes. -/
def DeviceAddress (ip : Netutils.DeviceIp) (a : List Nat) : Prop :=
  if ip.isV4 then V4Text ip.ip a else V6Text ip.ip a

/-- A place that clients can connect to. -/
structure Endpoint where
  v4 : Bool
  address : List Nat
  port : Nat

/-- The socket address names this place; IPv6 has no flow information. -/
def Names (a : SockAddr) (e : Endpoint) : Prop :=
  a.v4 = some e.v4 ∧ a.port = e.port ∧
    if e.v4 then a.word = e.address else a.groups = e.address ∧ a.word = [0, 0, 0, 0]

/-- A target of gRPC that names this place: `ipv4:a.b.c.d:port` or `ipv6:[…]:port`. -/
def TargetNames (target : Str) (e : Endpoint) : Prop :=
  ∃ ip, if e.v4 then V4Text ip e.address ∧ target = "ipv4:".toList ++ ip ++ ':' :: Services.digits e.port
    else V6Text ip e.address ∧ target = "ipv6:[".toList ++ ip ++ "]:".toList ++ Services.digits e.port

/-- The text `getnameinfo` makes of an address of a device: the address, and for IPv6 addresses of the
link a `%` and the name of the interface. -/
def DeviceText (ip : Netutils.DeviceIp) (a : List Nat) : Prop :=
  DeviceAddress ip a ∨ (ip.isV4 = false ∧ ∃ t zone, ip.ip = t ++ '%' :: zone ∧ V6Text t a)

/-- Connection data that names a place. -/
def InfoNames (i : ServerAddress) (e : Endpoint) : Prop :=
  i.port = e.port ∧ e.port < 65536 ∧ if e.v4 then V4Text i.ip e.address else V6Text i.ip e.address

/-- A Homa client with `n` peers after these calls of `HandleConnect`, all successful. -/
inductive HomaCalls (n : Nat) : List (ServerAddress × Nat) → List SockAddr → Prop where
  | fresh : HomaCalls n [] (List.replicate n freshAddr)
  | call {calls peers i k peers'} : HomaCalls n calls peers →
      homaConnect peers (some i) (k : Nat) = .ok (peers', true) → HomaCalls n (calls ++ [(i, k)]) peers'

/-- A gRPC client with `n` peers after these calls of `HandleConnect`. -/
inductive GrpcCalls (n : Nat) : List (ServerAddress × Nat) → List (Option Str) → Prop where
  | fresh : GrpcCalls n [] (List.replicate n none)
  | call {calls targets i k targets'} : GrpcCalls n calls targets →
      grpcConnect targets (some i) (k : Nat) = .ok targets' → GrpcCalls n (calls ++ [(i, k)]) targets'

/-- The connection data of the last call for a peer. -/
def lastCall (calls : List (ServerAddress × Nat)) (k : Nat) : Option ServerAddress :=
  ((calls.filter fun c => c.2 = k).getLast?).map (·.1)

end Distbench.Spec
