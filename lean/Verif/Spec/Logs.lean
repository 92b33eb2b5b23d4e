import Verif.Model.Logs

/-! Vocabulary for logs. -/

namespace Distbench.Spec
open Sampling Logs

/-- The samples that a run filed under `k`. -/
def filed (report : List (Key × Sample)) (k : Key) : List Sample :=
  (report.filter (fun e => e.1 = k)).map (·.2)

/-- What a reader of the log finds for a peer and an RPC among the successful (or failed) samples. -/
def found (log : List (Str × PeerLog)) (name : Str) (rpc : Nat) (success : Bool) : List Sample :=
  match log.lookup name with
  | none => []
  | some peer => match peer.lookup rpc with
    | none => []
    | some l => if success then l.successful else l.failed

/-- No two peers have the same name. -/
def UniqueNames (names : List (List Str)) : Prop :=
  ∀ (i j i' j' : Nat) row row' x, names[i]? = some row → row[j]? = some x →
    names[i']? = some row' → row'[j']? = some x → i = i' ∧ j = j'

end Distbench.Spec
