import Verif.Model.Overload

/-! Specification of the protection against too many threads. -/

namespace Distbench.Spec
open Overload

/-- The number of registered threads that have not ended. -/
def liveThreads (s : State) : Nat := s.threads.countP (fun t => t ≠ .ended)

/-- The operations that change the threshold. -/
def SetsThreshold : Op → Prop
  | .threshold _ => True
  | _ => False

/-- The operations that change the threshold or the callback. -/
def Configures : Op → Prop
  | .threshold _ => True
  | .callback _ => True
  | _ => False

end Distbench.Spec
