import Verif.Model.Collect

/-! What the properties of collecting results say. -/

namespace Distbench.Spec
open Distbench.Collect

/-- The RPCs that have ended in a history, in order: what the results should have. -/
def rpcsEnded : List Op → List Entry
  | [] => []
  | .complete l peer sample _ :: rest => ⟨l, peer, sample⟩ :: rpcsEnded rest
  | _ :: rest => rpcsEnded rest

/-- For each list started, in order, whether it has activities. -/
def listsStarted : List Op → List Bool
  | [] => []
  | .start _ activities :: rest => activities :: listsStarted rest
  | _ :: rest => listsStarted rest

/-- A history in which the results are collected in the end: what happens before, and what happens
meanwhile. -/
def collecting (before meanwhile : List Op) : List Op := before ++ .beginCollect :: meanwhile ++ [.endCollect]

/-- The steps of a collection itself. -/
def ofCollection : Op → Bool
  | .readPeer | .readActivities | .endCollect => true
  | _ => false

end Distbench.Spec
