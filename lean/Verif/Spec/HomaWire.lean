import Verif.Model.HomaWire

/-! Vocabulary for Homa messages. -/

namespace Distbench.Spec
open Payload HomaWire

/-- The receiver certainly ends up with exactly this message. -/
def Delivers (nocopy : Bool) (page maxPages : Nat) (old : Msg) (msg : List Nat) (m : Msg) : Prop :=
  ∀ r, Receive nocopy page maxPages old msg r ↔ r = .parsed true m

/-- The largest message that Homa carries, the size of its pages, and the number of pages for such a
message. -/
def homaMax : Nat := 1000000
def homaPage : Nat := 65536
def homaPages : Nat := 16

end Distbench.Spec
