import Verif.Model.Replay

/-! Vocabulary for trace replay. -/

namespace Distbench.Spec
open Replay

/-- `x` is what the record says, or else what the defaults say. -/
def Inherits {α : Type} (x record defaults : Option α) : Prop :=
  (∀ v, record = some v → x = some v) ∧ (record = none → x = defaults)

/-- Record `i` is to be replayed by this client instance: it names this instance, or none. -/
def Belongs (e : Env) (i : Nat) : Prop :=
  i < e.records.length ∧ ∀ c, (e.record i).clientInstance = some c → c = e.localInstance

/-- Record `i` refers to record `j`, and both are replayed by this instance. -/
def RefersTo (e : Env) (i j : Nat) : Prop :=
  Belongs e i ∧ Belongs e j ∧ ∃ d ∈ (e.record i).priorRpcDistances, (i : Int) - 1 - d = j

/-- All distances are non-negative and less than the index of the record. -/
def GoodDistances (e : Env) : Prop :=
  ∀ i, Belongs e i → ∀ d ∈ (e.record i).priorRpcDistances, 0 ≤ d ∧ d < i

/-- The records that refer to others are timed relative to them. -/
def GoodModes (e : Env) : Prop :=
  ∀ i j, RefersTo e i j → e.mode i = .priorStart ∨ e.mode i = .priorEnd

/-- Every record names a multi-server channel that there is, or else a server instance that there is and that
the client is connected to (the identifiers of connected peers are not negative). -/
def GoodServers (e : Env) : Prop :=
  ∀ i, Belongs e i →
    (∀ c, (e.record i).channelIndex = some c → 0 ≤ c ∧ c < e.channels.length) ∧
    ((e.record i).channelIndex = none → 0 ≤ (e.record i).serverInstance.getD 0 ∧
      ∃ id, e.pdIds[((e.record i).serverInstance.getD 0).toNat]? = some id ∧ 0 ≤ id)

/-- `w` goes to the server (or over the multi-server channel) that record `i` names. -/
def RightTarget (e : Env) (i : Nat) (w : Sent) : Prop :=
  (∀ c, (e.record i).channelIndex = some c →
    0 ≤ c ∧ c < e.channels.length ∧ w.channel = e.channels[c.toNat]? ∧ w.peer = none) ∧
  ((e.record i).channelIndex = none →
    0 ≤ (e.record i).serverInstance.getD 0 ∧
    (e.record i).serverInstance.getD 0 < e.pdIds.length ∧
    w.peer = e.pdIds[((e.record i).serverInstance.getD 0).toNat]? ∧ w.channel = none)

/-- `w` has the sizes of record `i`. -/
def RightSizes (e : Env) (i : Nat) (w : Sent) : Prop :=
  w.requestSize = some ((e.record i).requestSize.getD 0) ∧
  w.responseSize = some ((e.record i).responseSize.getD 0)

/-- How often `i` was issued. -/
def timesIssued (i : Nat) (log : List Event) : Nat :=
  log.countP (fun ev => match ev with | .issued k _ _ => k == i | _ => false)

/-- How many samples of `i` there are. -/
def timesSampled (i : Nat) (log : List Event) : Nat :=
  log.countP (fun ev => match ev with | .sampled k _ _ => k == i | _ => false)

/-- `s'` is reached from `s`. -/
inductive Continues (e : Env) (p : Plan) (s : State) : State → Prop where
  | refl : Continues e p s s
  | step {s' s''} : Continues e p s s' → Step e p s' s'' → Continues e p s s''

/-- A run with its number of moves: steps that are not just the passing of time. -/
inductive Moves (e : Env) (p : Plan) : Nat → State → Prop where
  | start (now : Int) : Moves e p 0 (Replay.start p now)
  | wait {n s} (t : Int) : Moves e p n s → s.now ≤ t → Moves e p n { s with now := t }
  | move {n s s'} : Moves e p n s → Step e p s s' → (∀ t, s' ≠ { s with now := t }) →
      Moves e p (n + 1) s'

/-- The callbacks of finished RPCs took the lock in the order of their end times so far. -/
def InOrder (log : List Event) : Prop :=
  ∀ l1 l2 l3 i j si li sj lj, log = l1 ++ .sampled i si li :: l2 ++ .sampled j sj lj :: l3 →
    si + li ≤ sj + lj

end Distbench.Spec
