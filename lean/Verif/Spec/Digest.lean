import Verif.Model.Digest

/-! Specification of the latency reports.  A message is a length and a latency in microseconds. -/

namespace Distbench.Spec
open Digest

/-- A message of this length occurs. -/
def Occurs (msgs : List (Int × Rat)) (length : Int) : Prop := ∃ m ∈ msgs, m.1 = length

/-- The latencies of the messages of a length. -/
def usecOf (msgs : List (Int × Rat)) (length : Int) : List Rat :=
  (msgs.filter fun m => m.1 = length).map (·.2)

/-- How many messages are no longer than this. -/
def upTo (msgs : List (Int × Rat)) (length : Int) : Nat := msgs.countP fun m => m.1 ≤ length

/-- How many messages are shorter than this. -/
def shorter (msgs : List (Int × Rat)) (length : Int) : Nat := msgs.countP fun m => m.1 < length

/-- `rtts` has the messages by their length: each length that occurs once, with its latencies. -/
def ByLength (rtts : List (Int × List Rat)) (msgs : List (Int × Rat)) : Prop :=
  (rtts.map Prod.fst).Nodup ∧ (∀ length, length ∈ rtts.map Prod.fst ↔ Occurs msgs length) ∧
  ∀ e ∈ rtts, e.2 = usecOf msgs e.1

/-- `v` is one of the values, and the one with `k` values before it when they are in order. -/
def HasRankRat (l : List Rat) (k : Nat) (v : Rat) : Prop :=
  v ∈ l ∧ l.countP (fun x => x < v) ≤ k ∧ k < l.countP (fun x => x ≤ v)

/-- What a row of the digest has to say of the messages of its length. -/
structure RightRow (msgs : List (Int × Rat)) (r : Row) : Prop where
  count : r.count = (usecOf msgs r.length).length
  cumFrac : r.cumFrac = (upTo msgs r.length : Rat) / (msgs.length : Rat)
  min : HasRankRat (usecOf msgs r.length) 0 r.min
  p50 : HasRankRat (usecOf msgs r.length) (r.count / 2) r.p50
  p99 : HasRankRat (usecOf msgs r.length) (r.count * 99 / 100) r.p99
  p999 : HasRankRat (usecOf msgs r.length) (r.count * 999 / 1000) r.p999

/-- The selectors of a curve, and how many of `n` latencies are smaller than the one drawn. -/
def curves : List (String × (Nat → Nat)) :=
  [("min", fun _ => 0), ("p50", fun n => n / 2), ("p99", fun n => n * 99 / 100),
   ("p999", fun n => n * 999 / 1000)]

/-- What is relied on in Python: a number that is written can be read again, and has no blanks. -/
structure Faithful (py : Python) : Prop where
  toInt : ∀ n, py.toInt (Services.showInt n) = some n
  toFloat : ∀ x, py.toFloat (py.repr x) = some x
  word : ∀ x, py.repr x ≠ [] ∧ ∀ c ∈ py.repr x, 32 < c.toNat

end Distbench.Spec
