import Verif.Model.Node

/-! What the properties of the node manager say, in terms of the history of calls. -/

namespace Distbench.Spec
open Distbench.Drivers Distbench.Node

/-- The call is a configuration request to node `i` that is not turned down for its thread limit. -/
def Reconfigures (i : Nat) (op : Op) : Prop :=
  ∃ w c s, op = .configure i w c s ∧ 0 < c.maxThreads

/-- The call ends the services that node `i` has: a configuration request, or a collection of the
results that clears them. -/
def EndsServices (i : Nat) (op : Op) : Prop := Reconfigures i op ∨ op = .collect i true

/-- `post` is the part of the history after the last call that ended the services of node `i`;
`start` is that call, `none` if there was none. -/
def After (i : Nat) (h : List (Op × Reply)) (start : Option (Op × Reply)) (post : List (Op × Reply)) : Prop :=
  (∀ x ∈ post, ¬ EndsServices i x.1) ∧
    match start with
    | none => h = post
    | some x => EndsServices i x.1 ∧ ∃ pre, h = pre ++ x :: post

/-- What the service instance of node `i` has recorded. -/
def recordedBy (i : Nat) (name : Str) (post : List (Op × Reply)) : List Record :=
  post.filterMap fun x =>
    match x.1 with
    | .record j n r => if j = i ∧ n = name then some r else none
    | _ => none

/-- The reasons for which traffic on node `i` was cancelled, in order. -/
def reasonsGiven (i : Nat) (post : List (Op × Reply)) : List Str :=
  post.filterMap fun x =>
    match x.1 with
    | .cancel j reason => if j = i then some reason else none
    | _ => none

/-- The record is the trace of a replay. -/
def isTrace : Record → Bool
  | .replay _ => true
  | _ => false

/-- The type of a service instance: what precedes the first slash of its name. -/
def IsTypeOf (name t : Str) : Prop := '/' ∉ t ∧ ∃ rest, name = t ++ '/' :: rest

/-- The last introduction of peers to node `i` succeeded, and there was one. -/
def KnowsPeers (i : Nat) (post : List (Op × Reply)) : Prop :=
  ∃ before connect peers r after, post = before ++ (.introduce i connect peers, r) :: after ∧
    r.error = none ∧ ∀ x ∈ after, ∀ connect' peers', x.1 ≠ .introduce i connect' peers'

/-- A request to run traffic on node `i` failed. -/
def RunFailed (i : Nat) (post : List (Op × Reply)) : Prop := ∃ r, (Op.run i, r) ∈ post ∧ r.error ≠ none

/-- Node manager `i` is the one created last in the process, and none was destroyed since. -/
def Newest (i : Nat) (h : List (Op × Reply)) : Prop :=
  ∃ before r after, h = before ++ (.create, r) :: after ∧
    (before.filter fun x => match x.1 with | .create => true | _ => false).length = i ∧
    ∀ x ∈ after, x.1 ≠ .create ∧ ∀ j, x.1 ≠ .destroy j

end Distbench.Spec
