import Verif.Model.Analysis

/-! Model of the latency reports, homa_experiments/cp_node_analysis.py.  Exceptions are errors; `float` is
modelled by rational numbers. -/

namespace Distbench.Digest
open Services (showInt)
open Analysis (sortBy intLe pad15)

/-- What the scripts use of Python: `int(…)` and `float(…)` of a word, and how a `float` is written (library
contracts).  Code: homa_experiments/cp_node_analysis.py:72-73, analysis/results_conversion.py:88. -/
structure Python where
  toInt : Str → Option Int
  toFloat : Str → Option Rat
  repr : Rat → Str

/-- The data of an experiment: message lengths with the latencies of the messages, in the order of a Python
dictionary.  Code: homa_experiments/cp_node_analysis.py:61, 74-77. -/
abbrev Rtts := List (Int × List Rat)

/-- `rtts[length]`.  Code: homa_experiments/cp_node_analysis.py:75, 188-190. -/
def Rtts.get : Rtts → Int → Option (List Rat)
  | [], _ => none
  | (k, l) :: rest, key => if k = key then some l else Rtts.get rest key

/-- One more latency, homa_experiments/cp_node_analysis.py:74-77. -/
def Rtts.add : Rtts → Int → Rat → Rtts
  | [], length, usec => [(length, [usec])]
  | (k, l) :: rest, length, usec =>
    if k = length then (k, l ++ [usec]) :: rest else (k, l) :: Rtts.add rest length usec

/-- White space.  Code: homa_experiments/cp_node_analysis.py:64, 67 (`strip`, `split`).  Simplification: that of
ASCII. -/
def isBlank (c : Char) : Bool := c = ' ' || (9 ≤ c.toNat && c.toNat ≤ 13) || (28 ≤ c.toNat && c.toNat ≤ 31)

/-- `split()`, homa_experiments/cp_node_analysis.py:67: the runs of characters other than white space. -/
def splitWords : Str → List Str
  | [] => []
  | c :: cs =>
    if isBlank c then splitWords cs
    else
      match cs with
      | [] => [[c]]
      | d :: _ =>
        if isBlank d then [c] :: splitWords cs
        else
          match splitWords cs with
          | [] => [[c]]
          | w :: ws => (c :: w) :: ws

/-- The lines of a file, homa_experiments/cp_node_analysis.py:63. -/
def fileLines : Str → List Str
  | [] => []
  | c :: rest =>
    if c = '\n' then [] :: fileLines rest
    else
      match fileLines rest with
      | [] => [[c]]
      | l :: ls => (c :: l) :: ls

/-- One line of a file, homa_experiments/cp_node_analysis.py:64-77: `stripped[0]` of a blank line is an error. -/
def readLine (py : Python) (rtts : Rtts) (line : Str) : Outcome Rtts :=
  match splitWords line with
  | [] => .error "IndexError"
  | first :: others =>
    if first.head? = some '#' then .ok rtts
    else
      match others with
      | [] => .ok rtts
      | second :: _ =>
        match py.toInt first, py.toFloat second with
        | some length, some usec => .ok (rtts.add length usec)
        | _, _ => .error "ValueError"

/-- The loop over the lines, homa_experiments/cp_node_analysis.py:63-77. -/
def readLines (py : Python) : Rtts → List Str → Outcome Rtts
  | rtts, [] => .ok rtts
  | rtts, line :: rest => (readLine py rtts line).bind fun r => readLines py r rest

/-- `read_rtts`, homa_experiments/cp_node_analysis.py:52-79. -/
def readRtts (py : Python) (text : Str) : Outcome Rtts := readLines py [] (fileLines text)

/-- `HomaFormatter.format_file`, analysis/results_conversion.py:81-89. -/
def homaFile (py : Python) (suppressHeader : Bool) (rows : List (Int × Int)) : Str :=
  (if suppressHeader then []
   else pad15 "Request_size".toList ++ ' ' :: "Latency_us".toList ++ ['\n']) ++
  rows.flatMap fun r => pad15 (showInt r.1) ++ ' ' :: py.repr ((r.2 : Rat) / 1000) ++ ['\n']

/-- The order of numbers.  Code: homa_experiments/cp_node_analysis.py:176 (`sorted`). -/
def ratLe (a b : Rat) : Bool := a ≤ b

/-- `digest["total_messages"]`, homa_experiments/cp_node_analysis.py:156-157. -/
def total (rtts : Rtts) : Nat := (rtts.map fun x => x.2.length).sum

/-- The loop of `get_buckets`, homa_experiments/cp_node_analysis.py:122-125. -/
def bucketLoop (rtts : Rtts) (all : Nat) : Nat → List Int → List (Int × Rat)
  | _, [] => []
  | cumulative, length :: rest =>
    let c := cumulative + ((rtts.get length).getD []).length
    (length, (c : Rat) / (all : Rat)) :: bucketLoop rtts all c rest

/-- `sorted(rtts.keys())`, homa_experiments/cp_node_analysis.py:123, 165. -/
def lengths (rtts : Rtts) : List Int := sortBy intLe (rtts.map Prod.fst)

/-- `get_buckets`, homa_experiments/cp_node_analysis.py:111-126. -/
def buckets (rtts : Rtts) : List (Int × Rat) := bucketLoop rtts (total rtts) 0 (lengths rtts)

/-- One place of the lists of a digest, which grow together: homa_experiments/cp_node_analysis.py:170-180.  Left
out: the slowdowns, which stay empty. -/
structure Row where
  length : Int
  cumFrac : Rat
  count : Nat
  min : Rat
  p50 : Rat
  p99 : Rat
  p999 : Rat
  deriving DecidableEq

/-- The variables of the loop.  Code: homa_experiments/cp_node_analysis.py:160-164. -/
structure Bucket where
  length : Int
  cumFrac : Rat
  next : Nat
  rtts : List Rat
  count : Nat

/-- A place of the digest is filled, homa_experiments/cp_node_analysis.py:170-180. -/
def close (b : Bucket) : Outcome Row :=
  let sorted := sortBy ratLe (if b.rtts.length = 0 then [0] else b.rtts)
  match sorted[0]?, sorted[b.count / 2]?, sorted[b.count * 99 / 100]?, sorted[b.count * 999 / 1000]? with
  | some a, some x, some y, some z =>
    .ok { length := b.length, cumFrac := b.cumFrac, count := b.count, min := a, p50 := x, p99 := y, p999 := z }
  | _, _, _, _ => .error "IndexError"

/-- The loop of `get_digest`, homa_experiments/cp_node_analysis.py:168-190. -/
def digestLoop (rtts : Rtts) (bs : List (Int × Rat)) : List Int → Bucket → List Row → Outcome (List Row)
  | [], _, rows => .ok rows
  | length :: rest, b, rows =>
    if b.length < length then
      (close b).bind fun row =>
        match bs[b.next]? with
        | none => .ok (rows ++ [row])
        | some (l, f) =>
          match rtts.get length with
          | some new => digestLoop rtts bs rest
              { length := l, cumFrac := f, next := b.next + 1, rtts := new, count := new.length } (rows ++ [row])
          | none => .error "KeyError"
    else
      match rtts.get length with
      | some new => digestLoop rtts bs rest
          { b with rtts := b.rtts ++ new, count := b.count + new.length } rows
      | none => .error "KeyError"

/-- `get_digest`, homa_experiments/cp_node_analysis.py:128-192, of an experiment that there is. -/
def digest (rtts : Rtts) : Outcome (List Row) :=
  match buckets rtts with
  | [] => .error "IndexError"
  | (l, f) :: _ => digestLoop rtts (buckets rtts) (lengths rtts ++ [999999999])
      { length := l, cumFrac := f, next := 1, rtts := [], count := 0 } []

/-- The inner loop of the labels of the x-axis, homa_experiments/cp_node_analysis.py:265-276: positions and message
lengths.  Simplifications: the quotients are exact; `fuel`, which is as large as the number of rounds can be,
ends the recursion; the texts of the labels are left out. -/
def tickLoop (all cumulative : Nat) (length : Int) : Nat → Nat → List (Rat × Int) × Nat
  | 0, tick => ([], tick)
  | fuel + 1, tick =>
    if all * tick ≤ cumulative * 10 then
      let r := tickLoop all cumulative length fuel (tick + 1)
      (((all * tick : Nat) / 10 / (all : Rat), length) :: r.1, r.2)
    else ([], tick)

/-- The outer loop, homa_experiments/cp_node_analysis.py:263-276. -/
def axisLoop (rtts : Rtts) (all : Nat) : List Int → Nat → Nat → List (Rat × Int)
  | [], _, _ => []
  | length :: rest, cumulative, tick =>
    let c := cumulative + ((rtts.get length).getD []).length
    let r := tickLoop all c length (c * 10 + 1) tick
    r.1 ++ axisLoop rtts all rest c r.2

/-- The labels of the x-axis of a plot, homa_experiments/cp_node_analysis.py:253-278: a division by zero is
an error. -/
def axisLabels (rtts : Rtts) : Outcome (List (Rat × Int)) :=
  (digest rtts).bind fun _ =>
    if total rtts = 0 then .error "ZeroDivisionError" else .ok (axisLoop rtts (total rtts) (lengths rtts) 0 0)

/-- The loop of `make_histogram`, homa_experiments/cp_node_analysis.py:338-347, from the second point on; `x0` and
`y0` are the point before. -/
def stepLoop (after : Bool) : Rat → Rat → List (Rat × Rat) → List (Rat × Rat)
  | _, _, [] => []
  | x0, y0, (x, y) :: rest => (if after then (x, y0) else (x0, y)) :: (x, y) :: stepLoop after x y rest

/-- `make_histogram`, homa_experiments/cp_node_analysis.py:317-348: points instead of two lists.
Simplification: the two lists have the same length. -/
def makeHistogram (points : List (Rat × Rat)) (init : Option (Rat × Rat)) (after : Bool) : List (Rat × Rat) :=
  init.toList ++ match points with
    | [] => []
    | (x, y) :: rest => (x, y) :: stepLoop after x y rest

/-- Which list is drawn, homa_experiments/cp_node_analysis.py:354-367. -/
def select (percentile : String) (r : Row) : Option Rat :=
  if percentile = "min" then some r.min
  else if percentile = "p50" then some r.p50
  else if percentile = "p99" then some r.p99
  else if percentile = "p999" then some r.p999
  else none

/-- `plot_rtts`, homa_experiments/cp_node_analysis.py:350-370: the points of the curve. -/
def plotRtts (rtts : Rtts) (percentile : String) : Outcome (List (Rat × Rat)) :=
  (digest rtts).bind fun rows =>
    match rows.mapM fun r => (select percentile r).map fun y => (r.cumFrac, y) with
    | none => .error "Bad percentile selector"
    | some points =>
      match points with
      | [] => .error "IndexError"
      | (_, y) :: _ => .ok (makeHistogram points (some (0, y)) false)

end Distbench.Digest
