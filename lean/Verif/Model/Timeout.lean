import Verif.Model.Sequencer

/-! Model of the timeouts of a test sequence (distbench_busybox.cc): what the command line client
computes, and the deadlines it and the sequencer set. -/

namespace Distbench.Timeout
open Placement Services Sequencer

/-- `std::numeric_limits<int64_t>::min()`.  Code: distbench_busybox.cc:117, 121. -/
def int64Min : Int := -2 ^ 63

/-- The loop of `GetTestSequenceTimeout`, distbench_busybox.cc:112-137.  A test is represented by its
attributes; `sum` is `accumulated_timeout`, whose overflow is undefined. -/
def timeoutLoop (default_ : Int) : List (Map Str) → Int → Outcome (Except Str Int)
  | [], sum => .ok (.ok (if sum = 0 then default_ else sum))
  | test :: rest, sum =>
    match namedAttributeInt64 test "test_timeout".toList int64Min with
    | .error e => .ok (.error e)
    | .ok v =>
      if v = int64Min then .ok (.ok default_)
      else if v ≤ 0 then
        .ok (.error ("Invalid test_timeout specified (".toList ++ showInt v ++
          "). test_timeout should be a stricly positive integer in seconds.".toList))
      else if InI64 (sum + v) then timeoutLoop default_ rest (sum + v)
      else .ub

/-- `GetTestSequenceTimeout`, distbench_busybox.cc:112-137. -/
def getTestSequenceTimeout (tests : List (Map Str)) (default_ : Int) : Outcome (Except Str Int) :=
  timeoutLoop default_ tests 0

/-- `SetAllTestTimeoutAttributesTo`, distbench_busybox.cc:139-145. -/
def setAllTimeouts (tests : List (Map Str)) (value : Str) : List (Map Str) :=
  tests.map fun t => t.set "test_timeout".toList value

/-- The part of `MainRunTests` that deals with timeouts, distbench_busybox.cc:158-174 and 190 (and
distbench_utils.cc:162-167):
the tests that are sent and the deadline in seconds.  `flag` is `ToInt64Seconds` of
`--max_test_duration`; the deadline is converted to the `int` parameter of
`SetGrpcClientContextDeadline`. -/
def mainRunTests (flag : Int) (tests : List (Map Str)) :
    Outcome (Except Str (List (Map Str) × Int)) :=
  let sent := if flag ≠ 0 then setAllTimeouts tests (showInt flag) else tests
  let default_ := if flag ≠ 0 then flag else 60 * 60
  (getTestSequenceTimeout sent default_).bind fun
    | .error e => .ok (.error e)
    | .ok timeout => .ok (.ok (sent, toInt32 timeout))

/-- How long the sequencer lets a test run: the attribute it reads and its default,
distbench_test_sequencer.cc:396-398, as the `int` it is converted to. -/
def testDeadline (test : Map Str) : Except Str Int :=
  (namedAttributeInt64 test "test_timeout".toList 3600).map toInt32

end Distbench.Timeout
