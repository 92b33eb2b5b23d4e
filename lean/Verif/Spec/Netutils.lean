import Verif.Model.Netutils

/-! Specification of the choice of network addresses. -/

namespace Distbench.Spec
open Netutils

/-- `a` is an IP address of the device, or of any device if none is named. -/
def IsAddressOf (host : List Interface) (netdev : Str) (a : DeviceIp) : Prop :=
  (∃ i ∈ host, i.device = a.device ∧ i.text = some a.ip ∧
    i.family = some (if a.isV4 then .inet else .inet6)) ∧ (netdev = [] ∨ a.device = netdev)

/-- The text of an address begins like this. -/
def Begins (a : DeviceIp) (text : String) : Prop := ∃ rest, a.ip = text.toList ++ rest

/-- An address the program takes for link-local. -/
def Skipped (a : DeviceIp) : Prop := Begins a "fe80:" ∨ Begins a "169.254.255"

/-- An address that may be chosen. -/
def Usable (host : List Interface) (netdev : Str) (a : DeviceIp) : Prop :=
  IsAddressOf host netdev a ∧ ¬ Skipped a

/-- The IPv4 address with these four octets. -/
def IsQuad (a : DeviceIp) (o1 o2 o3 o4 : Nat) : Prop :=
  a.isV4 = true ∧ o1 < 256 ∧ o2 < 256 ∧ o3 < 256 ∧ o4 < 256 ∧
  a.ip = Services.digits o1 ++ '.' :: Services.digits o2 ++ '.' :: Services.digits o3 ++ '.' ::
    Services.digits o4

/-- Private IPv4 networks (RFC 1918): 10.0.0.0/8, 172.16.0.0/12 and 192.168.0.0/16. -/
def PrivateQuad (o1 o2 : Nat) : Prop :=
  o1 = 10 ∨ (o1 = 172 ∧ 16 ≤ o2 ∧ o2 ≤ 31) ∨ (o1 = 192 ∧ o2 = 168)

/-- Link-local IPv4 addresses (RFC 3927): 169.254.0.0/16. -/
def LinkLocalQuad (o1 o2 : Nat) : Prop := o1 = 169 ∧ o2 = 254

/-- On the loopback device. -/
def OnLoopback (a : DeviceIp) : Prop := a.device = "lo".toList

/-- A hexadecimal digit. -/
def hexChar (d : Nat) : Char := if d < 10 then Char.ofNat (48 + d) else Char.ofNat (87 + d)

/-- A group of an IPv6 address: hexadecimal, without leading zeros. -/
def hexText (n : Nat) : Str := if n < 16 then [hexChar n] else hexText (n / 16) ++ [hexChar (n % 16)]

end Distbench.Spec
