import Verif.Model.Services

/-! Model of the choice of network addresses (distbench_netutils.cc). -/

namespace Distbench.Netutils
open Services

/-- The address families of `getifaddrs` entries.  Code: distbench_netutils.cc:47-77. -/
inductive Family where
  | inet
  | inet6
  | other
  deriving DecidableEq, Repr

/-- One entry of the list returned by `getifaddrs`: the name of the device, the family of the address
(`none` if `ifa_addr` is null) and the numeric text `getnameinfo` makes of it (`none` if that
fails).  Code: distbench_netutils.cc:47-77. -/
structure Interface where
  device : Str
  family : Option Family
  text : Option Str
  deriving DecidableEq, Repr

/-- `DeviceIpAddress`, distbench_netutils.h:24-48.  `isV4` is `net_family_ == AF_INET`; the family is
always one of `AF_INET` and `AF_INET6`. -/
structure DeviceIp where
  ip : Str
  device : Str
  isV4 : Bool
  deriving DecidableEq, Repr

/-- `GetAllAddresses`, distbench_netutils.cc:47-77.  `host` is the list `getifaddrs` returns (empty if
it fails). -/
def getAllAddresses (host : List Interface) (netdev : Str) : List DeviceIp :=
  match host with
  | [] => []
  | i :: rest =>
    match i.family with
    | none => getAllAddresses rest netdev
    | some f =>
      if f ≠ .inet ∧ f ≠ .inet6 then getAllAddresses rest netdev
      else
        match i.text with
        | none => getAllAddresses rest netdev
        | some text =>
          if netdev = [] ∨ netdev = i.device then
            { ip := text, device := i.device, isV4 := decide (f = .inet) } :: getAllAddresses rest netdev
          else getAllAddresses rest netdev

/-- `DeviceIpAddress::isLoopback`, distbench_netutils.cc:138. -/
def isLoopback (a : DeviceIp) : Bool := a.device = "lo".toList

/-- `DeviceIpAddress::isLinkLocal`, distbench_netutils.cc:154-156. -/
def isLinkLocal (a : DeviceIp) : Bool :=
  "fe80:".toList.isPrefixOf a.ip || "169.254.255".toList.isPrefixOf a.ip

/-- Hexadecimal digits as `getnameinfo` prints them.  Code: distbench_netutils.cc:140-156. -/
def hexValue (c : Char) : Option Nat :=
  if 48 ≤ c.toNat ∧ c.toNat ≤ 57 then some (c.toNat - 48)
  else if 97 ≤ c.toNat ∧ c.toNat ≤ 102 then some (c.toNat - 87)
  else if 65 ≤ c.toNat ∧ c.toNat ≤ 70 then some (c.toNat - 55)
  else none

/-- The digits `%x` consumes: value, number of digits, rest.  Code: distbench_netutils.cc:140-156. -/
def hexRun (acc count : Nat) : Str → Nat × Nat × Str
  | [] => (acc, count, [])
  | c :: rest =>
    match hexValue c with
    | none => (acc, count, c :: rest)
    | some d => hexRun (acc * 16 + d) (count + 1) rest

/-- `%x` of `sscanf`.  Simplification: no white space, sign or "0x", which do not occur in the text of
an address; values are reduced to 32 bits (a group of an address has at most four digits).
Code: distbench_netutils.cc:140-156. -/
def scanHex (s : Str) : Option (Nat × Str) :=
  match hexRun 0 0 s with
  | (_, 0, _) => none
  | (v, _, rest) => some (v % 2 ^ 32, rest)

/-- `sscanf(s, "2002:%x:%x:", &upper, &lower)` when it returns 2, distbench_netutils.cc:144. -/
def scan6to4 (s : Str) : Option (Nat × Nat) :=
  if "2002:".toList.isPrefixOf s then
    match scanHex (s.drop 5) with
    | some (upper, ':' :: rest) =>
      match scanHex rest with
      | some (lower, _) => some (upper, lower)
      | none => none
    | _ => none
  else none

/-- `absl::StrFormat("%d.%d.%d.%d", …)`.  Code: distbench_netutils.cc:158-175. -/
def dotted (a b c d : Nat) : Str := digits a ++ '.' :: digits b ++ '.' :: digits c ++ '.' :: digits d

/-- `DeviceIpAddress::isPrivate`, distbench_netutils.cc:140-152. -/
def isPrivate (a : DeviceIp) : Bool :=
  let ip := match scan6to4 a.ip with
    | some (upper, lower) => dotted (upper / 256) (upper % 256) (lower / 256) (lower % 256)
    | none => a.ip
  "10.".toList.isPrefixOf ip || "172.16".toList.isPrefixOf ip || "192.168".toList.isPrefixOf ip ||
    "fc00:".toList.isPrefixOf ip || "fd00:".toList.isPrefixOf ip

/-- `current_score`, distbench_netutils.cc:115-121. -/
def score (preferV4 : Bool) (a : DeviceIp) : Int :=
  (if a.isV4 = preferV4 then 1 else 0) + (if isPrivate a then 1 else 0) + (if isLoopback a then 0 else 2)

/-- The loop at distbench_netutils.cc:109-126: the best address so far and its score. -/
def bestLoop (preferV4 : Bool) : List DeviceIp → Int × Option DeviceIp → Int × Option DeviceIp
  | [], best => best
  | a :: rest, best =>
    if isLinkLocal a then bestLoop preferV4 rest best
    else if score preferV4 a > best.1 then bestLoop preferV4 rest (score preferV4 a, some a)
    else bestLoop preferV4 rest best

/-- `GetBestAddress`, distbench_netutils.cc:83-134; `none` is the error NotFound. -/
def getBestAddress (host : List Interface) (netdev : Str) (preferV4 : Bool) : Option DeviceIp :=
  let all := getAllAddresses host netdev
  if netdev ≠ [] then
    match all.find? (fun a => !isLinkLocal a && a.isV4 == preferV4) with
    | some a => some a
    | none => all.find? (fun a => !isLinkLocal a)
  else
    match bestLoop preferV4 all (-1, none) with
    | (s, best) => if s < 0 then none else best

/-- `IpAddressForDevice`, distbench_netutils.cc:198-217; `flag` is `--prefer_ipv4`. -/
def ipAddressForDevice (flag : Bool) (host : List Interface) (netdev : Str) (version : Int) :
    Option DeviceIp :=
  if version = 4 then
    match getBestAddress host netdev true with
    | some a => if !a.isV4 then none else some a
    | none => none
  else if version = 6 then
    match getBestAddress host netdev false with
    | some a => if a.isV4 then none else some a
    | none => none
  else getBestAddress host netdev flag

/-- `HasOnlyIPv4`, distbench_netutils.cc:177-182. -/
def hasOnlyV4 (host : List Interface) (netdev : Str) : Bool :=
  (getAllAddresses host netdev).all fun a => a.isV4 || isLinkLocal a

/-- `SocketAddressForIp`, distbench_netutils.cc:226-231. -/
def socketAddressForIp (a : DeviceIp) (port : Int) : Str :=
  if a.isV4 then a.ip ++ ':' :: showInt port
  else '[' :: a.ip ++ "]:".toList ++ showInt port

/-- `SocketAddressForDevice`, distbench_netutils.cc:219-224. -/
def socketAddressForDevice (flag : Bool) (host : List Interface) (netdev : Str) (port : Int) : Option Str :=
  (getBestAddress host netdev flag).map fun a => socketAddressForIp a port

/-- `GetBindAddressFromPort`, distbench_netutils.cc:186-196.  Simplification: the interfaces do not
change between the two calls of `getifaddrs`. -/
def getBindAddressFromPort (flag : Bool) (host : List Interface) (netdev : Str) (port : Int) : Str :=
  match netdev, getBestAddress host netdev flag with
  | _ :: _, some a => socketAddressForIp a port
  | _, _ =>
    if hasOnlyV4 host netdev || flag then "0.0.0.0:".toList ++ showInt port
    else "[::]:".toList ++ showInt port

end Distbench.Netutils
