import Verif.Model.Analysis

/-! Specification of the analysis of results, by counting samples. -/

namespace Distbench.Spec
open Analysis

/-- The keys of all maps of a result are different, as protobuf sees to. -/
def KeysUnique (t : Test) : Prop :=
  (t.logs.map Prod.fst).Nodup ∧ (∀ c ∈ t.logs, (c.2.map Prod.fst).Nodup) ∧
  ∀ c ∈ t.logs, ∀ s ∈ c.2, (s.2.map Prod.fst).Nodup

/-- The samples of the logs between a client instance and the servers. -/
def samplesOfClient (logs : PeerLogs) : List Sample := logs.flatMap fun s => s.2.flatMap (·.2)

/-- All samples in a result. -/
def allSamples (t : Test) : List Sample := t.logs.flatMap fun c => samplesOfClient c.2

/-- The service an instance belongs to: its name up to the first slash. -/
def serviceOf (instance_ : Str) : Str := instance_.takeWhile (· ≠ '/')

/-- The samples that count: all, or those that are not from the warm-up. -/
def kept (warmups : Bool) (l : List Sample) : List Sample := l.filter fun s => warmups || !s.warmup

/-- Sizes and latencies of samples. -/
def sizesAndLatencies (l : List Sample) : List (Int × Int) := l.map fun s => (s.size, s.latency)

/-- The latencies of the rows with a certain size. -/
def latenciesOfSize (rows : List (Int × Int)) (size : Int) : List Int :=
  (rows.filter fun r => r.1 = size).map (·.2)

/-- `v` (in hundredths) is where a share of `p` (in hundredths of a percent) of the values has been
passed: with `k` the share of the way from the first value (0) to the last one (n-1), rounded down, at
least `k+1` values are at most `v` and at least `n-1-k` are at least `v`. -/
def IsPercentile (l : List Int) (p : Nat) (v : Int) : Prop :=
  (l.length - 1) * p / 10000 + 1 ≤ l.countP (fun x => x * 100 ≤ v) ∧
  l.length - 1 - (l.length - 1) * p / 10000 ≤ l.countP (fun x => v ≤ x * 100)

/-- `v` (in hundredths) is the interpolated percentile `p` (in hundredths of a percent) of the values, rounded
to the nearest hundredth: in the ascending list of the values, a share of `p` of the way from the first to
the last one ends `r` ten-thousandths behind the value number `k`. -/
def IsInterpolated (l : List Int) (p : Nat) (v : Int) : Prop :=
  ∀ (a : List Int), a.Perm l → a.Pairwise (· ≤ ·) →
    ∀ k r : Nat, (l.length - 1) * p = k * 10000 + r → r < 10000 →
      ∀ lo hi : Int, a[k]? = some lo → a[k + 1]?.getD lo = hi →
        lo * (10000 - r) + hi * r - 50 ≤ v * 100 ∧ v * 100 ≤ lo * (10000 - r) + hi * r + 50

/-- The words of a text: maximal runs of characters other than blanks and ends of lines, in lines. -/
def words (line : Str) : List Str :=
  ((line.foldr (fun c acc => if c = ' ' then [] :: acc else
      match acc with
      | [] => [[c]]
      | w :: ws => (c :: w) :: ws) [[]]).filter (· ≠ []))

/-- The lines of a text, each of which is ended by a newline. -/
def textLines : Str → List Str
  | [] => []
  | c :: rest =>
    if c = '\n' then [] :: textLines rest
    else
      match textLines rest with
      | [] => [[c]]
      | l :: ls => (c :: l) :: ls

/-- Names of services and RPCs that make for different files: no empty names of services, no slashes,
no RPC with the name of another one or that of the summary. -/
structure GoodNames (t : Test) : Prop where
  services : ∀ r ∈ t.rpcs, (∀ c ∈ r.clients, c ≠ [] ∧ '/' ∉ c) ∧ r.server ≠ [] ∧ '/' ∉ r.server
  rpcs : ∀ r ∈ t.rpcs, '/' ∉ r.name ∧ r.name ≠ "pairwise_summary".toList
  unique : (t.rpcs.map (·.name)).Nodup

end Distbench.Spec
