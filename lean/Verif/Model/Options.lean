import Verif.Model.Grpc
import Verif.Model.Tables

/-! The helpers that add a named option to the options of a protocol driver or to an activity
(distbench_utils.cc 432-465), and the options of the benchmarks that use them
(protocol_driver_benchmark.cc). -/

namespace Distbench.Options
open Services

/-- `AddServerInt64OptionTo`, distbench_utils.cc 432-437. -/
def addServerInt64 (o : Grpc.Options) (name : Str) (value : Int) : Grpc.Options :=
  { o with serverSettings := o.serverSettings ++ [{ name := some name, int64Value := some value }] }

/-- `AddServerStringOptionTo`, distbench_utils.cc 439-444. -/
def addServerString (o : Grpc.Options) (name value : Str) : Grpc.Options :=
  { o with serverSettings := o.serverSettings ++ [{ name := some name, stringValue := some value }] }

/-- `AddClientStringOptionTo`, distbench_utils.cc 446-451. -/
def addClientString (o : Grpc.Options) (name value : Str) : Grpc.Options :=
  { o with clientSettings := o.clientSettings ++ [{ name := some name, stringValue := some value }] }

/-- `AddActivitySettingIntTo`, distbench_utils.cc 453-458. -/
def addActivityInt (a : Tables.ActivityConfig) (name : Str) (value : Int) : Tables.ActivityConfig :=
  { a with settings := a.settings ++ [{ name := some name, int64Value := some value }] }

/-- `AddActivitySettingStringTo`, distbench_utils.cc 460-465. -/
def addActivityString (a : Tables.ActivityConfig) (name value : Str) : Tables.ActivityConfig :=
  { a with settings := a.settings ++ [{ name := some name, stringValue := some value }] }

/-- `GetNamedServerSettingString`, distbench_utils.cc 307-311. -/
def serverString (o : Grpc.Options) (name default_ : Str) : Str :=
  getNamedSettingString o.serverSettings name default_

/-- `GetNamedClientSettingString`, distbench_utils.cc 313-317. -/
def clientString (o : Grpc.Options) (name default_ : Str) : Str :=
  getNamedSettingString o.clientSettings name default_

/-- `GetNamedServerSettingInt64`, distbench_utils.cc 342-346. -/
def serverInt64 (o : Grpc.Options) (name : Str) (default_ : Int) : Int :=
  getNamedSettingInt64 o.serverSettings name default_

/-- `GetNamedClientSettingInt64`, distbench_utils.cc 348-352. -/
def clientInt64 (o : Grpc.Options) (name : Str) (default_ : Int) : Int :=
  getNamedSettingInt64 o.clientSettings name default_

/-- One call of a helper on the options of a protocol driver, distbench_utils.cc 432-451. -/
inductive Call where
  | serverInt (name : Str) (value : Int)
  | serverText (name value : Str)
  | clientText (name value : Str)
  deriving DecidableEq, Repr

/-- The effect of one call, distbench_utils.cc 432-451. -/
def call (o : Grpc.Options) : Call → Grpc.Options
  | .serverInt n v => addServerInt64 o n v
  | .serverText n v => addServerString o n v
  | .clientText n v => addClientString o n v

/-- Calls one after the other, as in protocol_driver_benchmark.cc 112-115. -/
def calls (o : Grpc.Options) : List Call → Grpc.Options
  | [] => o
  | c :: rest => calls (call o c) rest

/-- The options of the handoff benchmarks, protocol_driver_benchmark.cc 109-147, which differ in
the type of the pool only.  Simplification: the text that `ProtoToString` prints and
`PdoFromString` reads back is the options themselves. -/
def handoffBenchmark (pool : Str) : Grpc.Options :=
  calls { protocol := "grpc".toList }
    [.clientText "client_type".toList "polling".toList,
     .serverText "server_type".toList "handoff".toList,
     .serverText "threadpool_type".toList pool,
     .serverInt "threadpool_size".toList 8]

end Distbench.Options
