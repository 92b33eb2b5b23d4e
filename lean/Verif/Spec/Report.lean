import Verif.Model.Report
import Verif.Spec.TrafficCancel
import Verif.Spec.Logs
import Verif.Spec.Summary

/-! Vocabulary for the results of a whole test. -/

namespace Distbench.Spec
open Traffic Report

/-- The instances have distinct names, each engine of the test is one instance, and `engines` lists all
engines of the test. -/
structure Deployed (cfg : Config) (S : Setup) (engines : List Nat) : Prop where
  names : UniqueNames S.names
  nodup : engines.Nodup
  named : ∀ e ∈ engines, ∃ x, S.nameAt e = some x
  distinct : ∀ e ∈ engines, ∀ e' ∈ engines, S.place e = S.place e' → e = e'
  all : ∀ e, TakesPart cfg e → e ∈ engines

/-- The engine that made an RPC. -/
def clientOf (s : State) (c : Call) : Option Nat := (s.jobs[c.job]?).map (·.engine)

/-- How many RPCs of kind `q` engine `e` made to engine `t`. -/
def madeBetween (s : State) (e t q : Nat) : Nat :=
  s.calls.countP fun c => clientOf s c = some e && c.target = t && c.rpc = q

/-- How many samples a test result has for an RPC from one instance to another. -/
def samplesIn (r : Summary.Result) (i t : Str) (q : Nat) : Nat :=
  ((peersOf r).map fun p => if p.1 = i ∧ p.2.1 = t then
    (p.2.2.map fun l => if l.1 = q then l.2.successful.length + l.2.failed.length else 0).sum else 0).sum

/-- How many RPCs of a kind with this name succeeded and were not made for warmup. -/
def measuredRpcs (S : Setup) (rpcNames : List Str) (s : State) (name : Str) : Nat :=
  s.calls.zipIdx.countP fun x =>
    rpcNames.getD x.1.rpc [] = name && !S.failed x.2 && !S.warmup x.2

/-- How many RPCs the run `j` made. -/
def madeBy (s : State) (j : Nat) : Nat := s.calls.countP fun c => c.job = j

/-- How many of `n` samples are kept with this `max_rpc_samples`: all, or at most the maximum. -/
def keptOf (limit : Int) (n : Nat) : Nat := if limit ≤ 0 then n else min limit.toNat n

/-- No list that is run limits the samples. -/
def NoLimit (S : Setup) (s : State) : Prop := ∀ k ∈ s.jobs, S.limit k.list ≤ 0

/-- `kinds` lists every kind of RPC that some action makes. -/
def AllKinds (cfg : Config) (kinds : List Nat) : Prop :=
  kinds.Nodup ∧ ∀ l, ∀ x ∈ cfg.actions l, ∀ q fan, x.work = .rpc q fan → q ∈ kinds

/-- How many RPCs from engine `e` to engine `t` succeeded. -/
def succeededBetween (S : Setup) (s : State) (e t : Nat) : Nat :=
  s.calls.zipIdx.countP fun x => clientOf s x.1 = some e && x.1.target = t && !S.failed x.2

end Distbench.Spec
