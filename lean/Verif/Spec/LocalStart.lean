import Verif.Model.LocalStart
import Verif.Spec.Workloads

/-! Vocabulary for start_distbench_localhost.sh: how its options are given and what was asked for. -/

namespace Distbench.Spec
open LocalStart

/-- The arguments give these options: `-v` and `-d`, and `-n` and `-c` with a value. -/
inductive LocalOptions : List (Char × Str) → List Str → Prop
  | none : LocalOptions [] []
  | flag {c os arguments} : c = 'v' ∨ c = 'd' → LocalOptions os arguments →
      LocalOptions ((c, []) :: os) (['-', c] :: arguments)
  | value {c a os arguments} : c = 'n' ∨ c = 'c' → LocalOptions os arguments →
      LocalOptions ((c, a) :: os) (['-', c] :: a :: arguments)

/-- The number of nodes that was asked for: the last one given, or one. -/
def nodesAsked (os : List (Char × Str)) : Str :=
  match (os.filter fun o => o.1 = 'n').getLast? with
  | some o => o.2
  | none => "1".toList

/-- Debugging was asked for. -/
def debugAsked (os : List (Char × Str)) : Prop := ∃ a, ('d', a) ∈ os

/-- The node managers among the processes, with the ports of their sequencers and their own. -/
def managersOf : List Proc → List (Int × Int)
  | [] => []
  | .nodeManager s p :: rest => (s, p) :: managersOf rest
  | .sequencer _ _ :: rest => managersOf rest

/-- The sequencers among the processes, with their ports and the nodes that they are to start. -/
def sequencersOf : List Proc → List (Int × Option Str)
  | [] => []
  | .sequencer p n :: rest => (p, n) :: sequencersOf rest
  | .nodeManager _ _ :: rest => sequencersOf rest

/-- A port that a server can be given. -/
def ValidPort (p : Int) : Prop := 0 < p ∧ p < 65536

end Distbench.Spec
