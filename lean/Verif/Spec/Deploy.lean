import Verif.Model.Deploy

/-! Vocabulary for deploy_to_cloudlab.sh: which device can be used, and with which address. -/

namespace Distbench.Spec
open Deploy

/-- The name of a device that is listed with or without a suffix. -/
def BaseName (listed name : Str) : Prop :=
  (listed = name ∧ '@' ∉ name) ∨ ∃ suffix, listed = name ++ '@' :: suffix ∧ '@' ∉ suffix

/-- The address is one of the link only. -/
def LinkLocal (a : Str) : Prop := ∃ rest, a = "fe80".toList ++ rest

/-- The address at which the device is reached: that of IPv6 in brackets, unless there is none or only
one of the link; then that of IPv4. -/
def HasAddress (d : Netdev) (ip : Str) : Prop :=
  (d.v6 ≠ [] ∧ ¬ LinkLocal d.v6 ∧ ip = ['['] ++ d.v6 ++ [']']) ∨
  ((d.v6 = [] ∨ LinkLocal d.v6) ∧ d.v4 ≠ [] ∧ ip = d.v4)

/-- The letters `lo` are found in the name. -/
def NamesLo (s : Str) : Prop := ∃ a b, s = a ++ ['l', 'o'] ++ b

/-- A private device, not named like the loopback, that has an address. -/
def Candidate (d : Netdev) : Prop :=
  ¬ NamesLo d.listed ∧ d.isPublic = false ∧ ∃ ip, HasAddress d ip

/-- The stages of a deployment: clearing the nodes, copying the program, starting it. -/
def stage : Act → Nat
  | .kill _ => 0
  | .binary _ => 1
  | .sequencer _ _ => 2
  | .nodeManager _ _ _ => 3

/-- The line of a host with a private address of the network 10. -/
def PrivateLine (l : Str) : Prop := ∃ rest, l = "10.".toList ++ rest

/-- How many of the lines satisfy a property. -/
inductive LinesWith (p : Str → Prop) : List Str → Nat → Prop
  | nil : LinesWith p [] 0
  | yes {l ls n} : p l → LinesWith p ls n → LinesWith p (l :: ls) (n + 1)
  | no {l ls n} : ¬ p l → LinesWith p ls n → LinesWith p (l :: ls) n

/-- The local repository was asked for, with the check. -/
def LocalAsked (repo : Str) : Prop := repo = [] ∨ repo = "local".toList

end Distbench.Spec
