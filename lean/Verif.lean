import Verif.Props.Payload
import Verif.Props.Services
import Verif.Props.Distribution
import Verif.Props.Placement
import Verif.Props.Fanout
import Verif.Props.Tables
import Verif.Props.Config
import Verif.Props.ActionList
import Verif.Props.Progress
import Verif.Props.OpenLoop
import Verif.Props.Sampling
import Verif.Props.Replay
import Verif.Props.Handler
import Verif.Props.Sequencer
import Verif.Props.Timeout
import Verif.Props.Netutils
import Verif.Props.Threadpool
import Verif.Props.Overload
import Verif.Props.Summary
import Verif.Props.Drivers
import Verif.Props.Peers
import Verif.Props.Grpc
import Verif.Props.GrpcServer
import Verif.Props.Lifetime
import Verif.Props.Node
import Verif.Props.Activity
import Verif.Props.Collect
import Verif.Props.Checkout
import Verif.Props.Cli
import Verif.Props.Cancel
import Verif.Props.Homa
import Verif.Props.Mercury
import Verif.Props.Teardown
import Verif.Props.Usage
import Verif.Props.Clock
import Verif.Props.Compose
import Verif.Props.RpcAction
import Verif.Props.Commands
import Verif.Props.LocalStart
import Verif.Props.Deploy
import Verif.Props.Setup
import Verif.Props.Locks
import Verif.Props.NodeLocks
import Verif.Props.Analysis
import Verif.Props.Serving
import Verif.Props.Traffic
import Verif.Props.TrafficCancel
import Verif.Props.Report
import Verif.Props.Connect
import Verif.Props.HomaWire
import Verif.Props.Whole
import Verif.Props.TrafficTime
import Verif.Props.WholeTime
import Verif.Props.Loops
import Verif.Props.LoopsCancel
import Verif.Props.Builder
import Verif.Props.BuilderLoad
import Verif.Props.BuilderCheck
import Verif.Props.Digest
import Verif.Props.Modes
import Verif.Props.Workloads
import Verif.Props.Options
import Verif.Props.ServerState
