import Verif.Model.Drivers

/-! What the properties of the protocol drivers say. -/

namespace Distbench.Spec
open Distbench.Drivers

/-- The protocol name stands for a real driver, not for a composite driver or an alias. -/
def IsRealDriver (extra : List Str) (p : Str) : Prop :=
  p = "grpc".toList ∨ p = "grpc_async_callback".toList ∨
    (p ∈ extra ∧ p ≠ "double_barrel".toList ∧ p ≠ "composable_rpc_counter".toList)

/-- The setting of a composite driver that says which driver it stands on, if it is one. -/
def compositeKey (p : Str) : Option Str :=
  if p = "double_barrel".toList then some "next_protocol_driver".toList
  else if p = "composable_rpc_counter".toList then some "driver_under_test".toList
  else none

/-- The protocol name is an alias: neither a real nor a composite driver. -/
def IsAlias (extra : List Str) (p : Str) : Prop := ¬ IsRealDriver extra p ∧ compositeKey p = none

/-- The options that a composite driver gives to the driver under it: the last setting with the
key names the protocol and is taken out, everything else is kept. -/
inductive HandsDown (key : Str) (o : Options) : Options → Prop where
  | named (before after : List Setting) (s : Setting) (settings : o.serverSettings = before ++ s :: after)
      (key_eq : s.name = key) (last : ∀ t ∈ after, t.name ≠ key) :
      HandsDown key o { o with protocol := some s.value, serverSettings := before ++ after }
  | unnamed (absent : ∀ t ∈ o.serverSettings, t.name ≠ key) : HandsDown key o o

/-- One level down in the allocation: from an alias to the options it stands for, or from a
composite driver to the driver under it. -/
inductive Under (env : Env) (o : Options) : Options → Prop where
  | alias (resolve : Str → Outcome Options) (o' : Options) (is : IsAlias env.extra o.protocolName)
      (resolver : env.resolver = some resolve) (found : resolve o.protocolName = .ok o') : Under env o o'
  | composite (key : Str) (o' : Options) (is : compositeKey o.protocolName = some key)
      (inner : HandsDown key o o') : Under env o o'

/-- `k` levels down. -/
inductive LevelsDown (env : Env) : Nat → Options → Options → Prop where
  | here (o : Options) : LevelsDown env 0 o o
  | down (k : Nat) (o o' o'' : Options) (first : Under env o o') (rest : LevelsDown env k o' o'') :
      LevelsDown env (k + 1) o o''

/-- The driver is the one that the options describe. -/
inductive Built (env : Env) : Options → Driver → Prop where
  | leaf (o : Options) (is : IsRealDriver env.extra o.protocolName) : Built env o (.leaf o)
  | alias (o o' : Options) (d : Driver) (is : IsAlias env.extra o.protocolName) (under : Under env o o')
      (built : Built env o' d) : Built env o d
  | doubleBarrel (o o' : Options) (d1 d2 : Driver) (is : o.protocolName = "double_barrel".toList)
      (under : HandsDown "next_protocol_driver".toList o o') (built1 : Built env o' d1) (built2 : Built env o' d2) :
      Built env o (.doubleBarrel d1 d2)
  | counter (o o' : Options) (d : Driver) (is : o.protocolName = "composable_rpc_counter".toList)
      (under : HandsDown "driver_under_test".toList o o') (built : Built env o' d) : Built env o (.counter d)

/-- The options of the real drivers of a driver. -/
def leaves : Driver → List Options
  | .leaf o => [o]
  | .doubleBarrel a b => leaves a ++ leaves b
  | .counter d => leaves d

/-- All services of this type choose the driver options `n`, and there is one. -/
def ChoosesOptions (services : List ServiceOptions) (t n : Str) : Prop :=
  (∃ s ∈ services, s.name = t) ∧ ∀ s ∈ services, s.name = t → s.optionsName = some n

/-- No service of this type chooses driver options. -/
def ChoosesNone (services : List ServiceOptions) (t : Str) : Prop :=
  ∀ s ∈ services, s.name = t → s.optionsName = none

/-- The first entry of the table with this name. -/
def FirstEntry (table : List Options) (n : Str) (o : Options) : Prop :=
  ∃ before after, table = before ++ o :: after ∧ o.name = some n ∧ ∀ e ∈ before, e.name ≠ some n

/-- Options completed with the default protocol and device. -/
def completed (o : Options) (protocol netdev : Str) : Options :=
  { o with protocol := some (o.protocol.getD protocol), netdev := some (o.netdev.getD netdev) }

/-- Every second element, starting with the first. -/
def everyOther {α : Type} : List α → List α
  | [] => []
  | [a] => [a]
  | a :: _ :: rest => a :: everyOther rest

end Distbench.Spec
