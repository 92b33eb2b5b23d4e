import Verif.Model.Homa

/-! Specification of the Homa protocol driver. -/

namespace Distbench.Spec
open Homa

/-- The event is the done callback of RPC `id`. -/
def isCallbackOf (id : Nat) : ClientEvent → Bool
  | .calledBack i _ => i == id
  | _ => false

/-- How often the done callback of RPC `id` ran. -/
def callbacksOf (id : Nat) (h : List ClientEvent) : Nat := h.countP (isCallbackOf id)

/-- How often RPC `id` was initiated. -/
def initiationsOf (id : Nat) (h : List ClientEvent) : Nat := h.count (.initiated id)

/-- Every call of `InitiateRpc` is over: the request was accepted, or the callback ran. -/
def AllSettled (h : List ClientEvent) : Prop :=
  ∀ id, .initiated id ∈ h → .accepted id ∈ h ∨ 0 < callbacksOf id h

/-- No RPC is initiated. -/
def NoneInitiated (h : List ClientEvent) : Prop := ∀ id, .initiated id ∉ h

/-- No RPC fails after it was accepted. -/
def NoneFailed (h : List ClientEvent) : Prop := ∀ id, .failed id ∉ h

/-- How often request `id` was handed to the handler. -/
def handlingsOf (id : Nat) (h : List ServerEvent) : Nat := h.count (.handled id)

/-- How often request `id` was answered. -/
def answersTo (id : Nat) (h : List ServerEvent) : Nat := h.count (.responded id)

end Distbench.Spec
