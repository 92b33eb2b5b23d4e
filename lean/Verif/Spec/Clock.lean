import Verif.Model.Clock

/-! Specification of the waits. -/

namespace Distbench.Spec
open Clock

/-- The deadline has passed. -/
def Passed (deadline : Deadline) (now : Int) : Prop := ∃ d, deadline = some d ∧ d ≤ now

/-- The contract of `absl::Mutex`: a call returns when the condition holds or the deadline it was given
has passed. -/
def MutexContract (ops : List Op) : Prop :=
  ∀ d a, Op.attempt d a ∈ ops → a.holds = true ∨ Passed d a.now

/-- Whether the thread has the mutex after these steps; `none` if it locks a mutex it has, or waits for
or unlocks one it has not. -/
def ownership (lock : Bool) : Bool → List Op → Option Bool
  | has, [] => some has
  | has, .attempt _ _ :: rest => if has = !lock then ownership lock true rest else none
  | has, .unlock :: rest => if has then ownership lock false rest else none

/-- A clock that always goes forward. -/
def Ticks : Int → List Int → Prop
  | _, [] => True
  | last, now :: rest => last < now ∧ Ticks now rest

end Distbench.Spec
