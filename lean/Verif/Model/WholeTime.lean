import Verif.Model.Whole
import Verif.Model.TrafficTime

/-! From a traffic configuration whose actions may have time limits to the traffic of a whole test:
distbench_engine.cc:437-660, 876-905, 977-1049, 1793-1994, 2044-2102, 2238-2258, 2381-2517.

Simplified: as Model/Whole.lean and Model/TrafficTime.lean; the numbers of iterations do not overflow. -/

namespace Distbench.Whole
open Tables Services

/-- The engine that runs the list of the run `j`.  Code: distbench_engine.cc:1908-2102. -/
def runner (s : Traffic.State) (j : Nat) : Nat := ((s.jobs[j]?).map (·.engine)).getD 0

/-- A step, taken by one engine on the grounds of its own tables and its own clock.
Code: distbench_engine.cc:977-2110. -/
def TStep (w : Test) (s : Traffic.TState) : Traffic.TOp → Traffic.TState → Prop
  | .base op, s' => Chosen w s.base op ∧
      Traffic.tstep (engineConfig w (fun _ => fanOf op) (engineOf s.base op)) s (.base op) = some s'
  | .late j a, s' => Traffic.tstep (engineConfig w (fun _ => 0) (runner s.base j)) s (.late j a) = some s'
  | .stop j a, s' => Traffic.tstep (engineConfig w (fun _ => 0) (runner s.base j)) s (.stop j a) = some s'

/-- The test may take these steps and come to this state.  Code: distbench_engine.cc:876-2110. -/
inductive TRuns (w : Test) : List Traffic.TOp → Traffic.TState → Prop where
  | start : TRuns w [] { base := start w }
  | step {ops : List Traffic.TOp} {s s' : Traffic.TState} (op : Traffic.TOp) :
      TRuns w ops s → TStep w s op s' → TRuns w (ops ++ [op]) s'

end Distbench.Whole
