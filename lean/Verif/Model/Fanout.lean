import Verif.Model.Services
import Verif.Model.Placement

/-! Model of RPC fan-out: parsing the `fanout_filter` of an RPC and choosing the instances of the
server service one iteration sends to (distbench_engine.cc:185-317, 2242-2517). -/

namespace Distbench.Fanout
open Services

/-- Axis of the three families that exist per axis.  Code: distbench_engine.h:80-100. -/
inductive Axis where
  | x | y | z
  deriving DecidableEq, Repr

/-- `FanoutFilter`, distbench_engine.h:80-101.  The values 0-7 are a bit mask of the coordinates
that have to agree; `kAll` is `grid false false false`. -/
inductive Filter where
  | grid (sameX sameY sameZ : Bool)
  | ring (axis : Axis)
  | alternatingRing (axis : Axis)
  | linear (axis : Axis)
  | randomSingle
  | roundRobin
  | stochastic
  deriving DecidableEq, Repr

/-- `StochasticDist`, distbench_engine.h:75-78.  Simplification: the probability is the rational
value of the float. -/
structure StochasticDist where
  probability : Rat
  nbTargets : Int
  deriving DecidableEq, Repr

/-- The parsed filter: the fields of `RpcDefinition` it is stored in, distbench_engine.h:109-112. -/
structure Parsed where
  filter : Filter
  distance : Int := 0
  dist : List StochasticDist := []
  deriving DecidableEq, Repr

/-- The map of filter names without parameters, distbench_engine.cc:189-208. -/
def plainFilters : List (Str × Filter) :=
  [("".toList, .grid false false false),
   ("all".toList, .grid false false false),
   ("random".toList, .randomSingle),
   ("random_single".toList, .randomSingle),
   ("round_robin".toList, .roundRobin),
   ("same_x".toList, .grid true false false),
   ("same_y".toList, .grid false true false),
   ("same_z".toList, .grid false false true),
   ("same_xy".toList, .grid true true false),
   ("same_xz".toList, .grid true false true),
   ("same_yz".toList, .grid false true true),
   ("same_xyz".toList, .grid true true true),
   ("ring_x".toList, .ring .x),
   ("ring_y".toList, .ring .y),
   ("ring_z".toList, .ring .z),
   ("alternating_ring_x".toList, .alternatingRing .x),
   ("alternating_ring_y".toList, .alternatingRing .y),
   ("alternating_ring_z".toList, .alternatingRing .z)]

/-- The map of filter names with parameters, distbench_engine.cc:225-230. -/
def paramFilters : List (Str × Filter) :=
  [("stochastic".toList, .stochastic), ("linear_x".toList, .linear .x),
   ("linear_y".toList, .linear .y), ("linear_z".toList, .linear .z)]

/-- `std::map::find`.  Code: distbench_engine.cc:185-317. -/
def findFilter : List (Str × Filter) → Str → Option Filter
  | [], _ => none
  | (k, v) :: rest, name => if k = name then some v else findFilter rest name

/-- `absl::StrSplit(s, c)`: split at every occurrence of the character.
Code: distbench_engine.cc:275-276. -/
def strSplit (c : Char) : Str → List Str
  | [] => [[]]
  | d :: ds =>
    if d = c then [] :: strSplit c ds
    else match strSplit c ds with
      | [] => [[d]]
      | w :: ws => (d :: w) :: ws

/-- `sscanf(params, "{%d}", &distance)`, distbench_engine.cc:252-253, as used there: any non-zero
return value, also EOF when the text ends before the number, counts as success. -/
def parseDistance (params : Str) : Outcome Int :=
  match params.takeWhile (· ≠ Char.ofNat 0) with
  | '{' :: rest =>
    match scanInt rest with
    | .inputFailure => .ok 0
    | .matchFailure => .error "Could not parse parameter"
    | .ub => .ub
    | .value v _ => .ok v
  | [] => .ok 0
  | _ => .error "Could not parse parameter"

/-- `absl::SimpleAtoi` into an `int`.  Code: distbench_engine.cc:293. -/
def simpleAtoi32 (s : Str) : Option Int :=
  match Placement.simpleAtoi64 s with
  | some v => if InI32 v then some v else none
  | none => none

/-- One element of the stochastic list, distbench_engine.cc:277-303.  `atof` is
`absl::SimpleAtof`. -/
def parseStochasticItem (atof : Str → Option Rat) (s : Str) : Outcome StochasticDist :=
  match strSplit ':' s with
  | [p, n] =>
    match atof p with
    | none => .error "unable to decode probability"
    | some pr =>
      if pr < 0 ∨ 1 < pr then .error "probability should be between 0. and 1."
      else match simpleAtoi32 n with
        | none => .error "unable to decode nb_targets"
        | some k => if k < 0 then .error "nb_targets should be >= 0" else .ok ⟨pr, k⟩
  | _ => .error "only 1 : accepted"

/-- The loop over the elements, distbench_engine.cc:276-306. -/
def parseStochasticItems (atof : Str → Option Rat) : List Str → Outcome (List StochasticDist)
  | [] => .ok []
  | s :: rest =>
    match parseStochasticItem atof s with
    | .ok d =>
      match parseStochasticItems atof rest with
      | .ok ds => .ok (d :: ds)
      | .error m => .error m
      | .ub => .ub
      | .crash => .crash
    | .error m => .error m
    | .ub => .ub
    | .crash => .crash

/-- The stochastic parameters, distbench_engine.cc:263-314. -/
def parseStochastic (atof : Str → Option Rat) (params : Str) : Outcome (List StochasticDist) :=
  match params with
  | '{' :: rest =>
    if rest.getLast? = some '}' then
      match parseStochasticItems atof (strSplit ',' rest.dropLast) with
      | .ok [] => .error "need at least a value pair"
      | r => r
    else .error "should ends with }"
  | _ => .error "should starts with stochastic{"

/-- `InitializeRpcFanoutFilter`, distbench_engine.cc:185-317. -/
def initializeRpcFanoutFilter (atof : Str → Option Rat) (text : Str) : Outcome Parsed :=
  match findFilter plainFilters text with
  | some f => .ok { filter := f }
  | none =>
    if '{' ∈ text then
      let name := text.takeWhile (· ≠ '{')
      let params := text.dropWhile (· ≠ '{')
      match findFilter paramFilters name with
      | none => .error "Unknown fanout_filter"
      | some .stochastic =>
        match parseStochastic atof params with
        | .ok ds => .ok { filter := .stochastic, dist := ds }
        | .error m => .error m
        | .ub => .ub
        | .crash => .crash
      | some f =>
        match parseDistance params with
        | .ok d => .ok { filter := f, distance := d }
        | .error m => .error m
        | .ub => .ub
        | .crash => .crash
    else .error "Unknown fanout_filter"

/-! ### choosing targets -/

/-- `for (int i = a; i < b; ++i)`.  Code: distbench_engine.cc:2258-2379. -/
def intRange (a b : Int) : List Int := (List.range (b - a).toNat).map (fun (k : Nat) => a + k)

/-- Map a partial function over a list; `none` (undefined behaviour) if it is undefined anywhere.
Code: distbench_engine.cc:2258-2379. -/
def mapOpt {α β : Type} (f : α → Option β) : List α → Option (List β)
  | [] => some []
  | a :: l =>
    match f a, mapOpt f l with
    | some b, some bs => some (b :: bs)
    | _, _ => none

/-- `x + y * x_size + z * x_size * y_size` in `int` arithmetic, the expression of
distbench_engine.cc:2286-2287, 2338-2339 and 2373. -/
def cellTarget (peer : ServiceSpec) (x y z : Int) : Option Int := do
  let a ← chk32 (y * peer.getX)
  let b ← chk32 (x + a)
  let c ← chk32 (z * peer.getX)
  let d ← chk32 (c * peer.getY)
  chk32 (b + d)

/-- `PickGridTargets`, distbench_engine.cc:2342-2379. -/
def pickGridTargets (sameX sameY sameZ : Bool) (self : GridIndex) (peer : ServiceSpec) :
    Option (List Int) :=
  let xs := if sameX then intRange self.x (self.x + 1) else intRange 0 peer.getX
  let ys := if sameY then intRange self.y (self.y + 1) else intRange 0 peer.getY
  let zs := if sameZ then intRange self.z (self.z + 1) else intRange 0 peer.getZ
  mapOpt (fun c : Int × Int × Int => cellTarget peer c.1 c.2.1 c.2.2)
    (xs.flatMap fun i => ys.flatMap fun j => zs.map fun k => (i, j, k))

/-- `PickLinearTargets`, distbench_engine.cc:2258-2288. -/
def pickLinearTargets (axis : Axis) (distance : Int) (self : GridIndex) (peer : ServiceSpec) :
    Option (List Int) := do
  let x ← if axis = .x then chk32 (self.x + distance) else some self.x
  let y ← if axis = .y then chk32 (self.y + distance) else some self.y
  let z ← if axis = .z then chk32 (self.z + distance) else some self.z
  if x < 0 ∨ y < 0 ∨ z < 0 then some []
  else if x ≥ peer.getX ∨ y ≥ peer.getY ∨ z ≥ peer.getZ then some []
  else do
    let t ← cellTarget peer x y z
    some [t]

/-- `a & 0x1` of a non-negative int.  Code: distbench_engine.cc:2309, 2317, 2325. -/
def isOdd (a : Int) : Bool := a % 2 = 1

/-- The offset added along each axis by the `switch` of `PickRingTargets`,
distbench_engine.cc:2295-2333. -/
def ringOffset (alternating : Bool) (axis : Axis) (self : GridIndex) : Int :=
  if alternating then
    match axis with
    | .x => if isOdd self.y then -1 else 1
    | .y => if isOdd self.x then -1 else 1
    | .z => if isOdd self.x then -1 else 1
  else 1

/-- `PickRingTargets`, distbench_engine.cc:2290-2340. -/
def pickRingTargets (alternating : Bool) (axis : Axis) (self : GridIndex) (peer : ServiceSpec) :
    Option (List Int) := do
  let off := ringOffset alternating axis self
  let x ← chk32 (self.x + peer.getX)
  let y ← chk32 (self.y + peer.getY)
  let z ← chk32 (self.z + peer.getZ)
  let x ← if axis = .x then chk32 (x + off) else some x
  let y ← if axis = .y then chk32 (y + off) else some y
  let z ← if axis = .z then chk32 (z + off) else some z
  let x ← cmod x peer.getX
  let y ← cmod y peer.getY
  let z ← cmod z peer.getZ
  let t ← cellTarget peer x y z
  some [t]

/-- Everything one call of `PickRpcFanoutTargets` reads: the RPC definition, the sender's place, the
number of servers, the tracing counter and the random draws.  `draw hi` is the value of
`std::uniform_int_distribution<int>(0, hi)`, `uniform` that of `absl::Uniform(0, 1.0)`, `shuffle`
the permutation of `std::shuffle`.  Code: distbench_engine.cc:2381-2517. -/
structure Ctx where
  parsed : Parsed
  peer : ServiceSpec
  excludeSelf : Bool
  numServers : Int
  instance_ : Int
  grid : GridIndex
  counter : Int
  draw : Int → Int
  uniform : Rat
  shuffle : List Int → List Int

/-- The random choice of the number of targets, distbench_engine.cc:2466-2475.  Simplification:
exact rather than float addition. -/
def stochasticCount (uniform : Rat) (current : Rat) : List StochasticDist → Int
  | [] => 0
  | d :: ds => if uniform ≤ current + d.probability then d.nbTargets
               else stochasticCount uniform (current + d.probability) ds

/-- C++ `std::remove` + `erase` of one value, distbench_engine.cc:2486-2488, 2497-2499. -/
def eraseValue (v : Int) (l : List Int) : List Int := l.filter (· ≠ v)

/-- `std::vector::resize`: cut, or fill up with zeros.  Code: distbench_engine.cc:2484. -/
def resize (l : List Int) (n : Nat) : List Int := l.take n ++ List.replicate (n - l.length) 0

/-- `std::iota(targets.begin(), targets.end(), 0)` of the vector just reserved: it assigns to the
elements the vector has.  Code: distbench_engine.cc:2477. -/
def iota (l : List Int) : List Int := (List.range l.length).map (fun (k : Nat) => (k : Int))

/-- The `switch` of `PickRpcFanoutTargets`, distbench_engine.cc:2395-2494.  `none` is undefined
behaviour. -/
def rawTargets (c : Ctx) : Option (List Int) :=
  match c.parsed.filter with
  | .grid sx sy sz => pickGridTargets sx sy sz c.grid c.peer
  | .linear a => pickLinearTargets a c.parsed.distance c.grid c.peer
  | .ring a => pickRingTargets false a c.grid c.peer
  | .alternatingRing a => pickRingTargets true a c.grid c.peer
  | .randomSingle =>
    if c.excludeSelf then
      let t := c.draw (c.numServers - 2)
      some [if t = c.instance_ then c.numServers - 1 else t]
    else some [c.draw (c.numServers - 1)]
  | .roundRobin =>
    if c.excludeSelf then
      if c.numServers - 1 = 0 then none else
      let t := c.counter.tmod (c.numServers - 1)
      some [if t = c.instance_ then c.numServers - 1 else t]
    else if c.numServers = 0 then none else some [c.counter.tmod c.numServers]
  | .stochastic =>
    let nb := stochasticCount c.uniform 0 c.parsed.dist
    let nb := if nb > c.numServers then c.numServers else nb
    let targets := iota []
    let targets := if c.excludeSelf then eraseValue c.instance_ targets else targets
    some (resize (c.shuffle targets) nb.toNat)

/-- The sort key of the comparator, distbench_engine.cc:2508-2512. -/
def sortKey (numServers instance_ a : Int) : Int := (a + (numServers - instance_)) % numServers

/-- Insert into a sorted list.  Code: distbench_engine.cc:2508. -/
def insertBy (key : Int → Int) (a : Int) : List Int → List Int
  | [] => [a]
  | b :: l => if key b < key a then b :: insertBy key a l else a :: b :: l

/-- `std::sort` with the comparator.  Simplification: insertion sort; the result of sorting distinct
keys does not depend on the algorithm.  The sums in the comparator are exact integers here.
Code: distbench_engine.cc:2508. -/
def sortBy (key : Int → Int) : List Int → List Int
  | [] => []
  | a :: l => insertBy key a (sortBy key l)

/-- `PickRpcFanoutTargets`, distbench_engine.cc:2383-2517. -/
def pickRpcFanoutTargets (c : Ctx) : Option (List Int) :=
  if c.excludeSelf ∧ c.numServers = 1 then some []
  else match rawTargets c with
    | none => none
    | some targets =>
      let targets := if c.excludeSelf then eraseValue c.instance_ targets else targets
      if c.parsed.filter = .stochastic then some targets
      else if c.excludeSelf then some (sortBy (sortKey c.numServers c.instance_) targets)
      else some (c.shuffle targets)

/-- The two atomic accesses an iteration of a round-robin RPC makes to the shared counter: reading it
to choose the target (distbench_engine.cc:2441, 2449) and incrementing it afterwards
(distbench_engine.cc:2119). -/
inductive CounterEvent where
  | choose
  | count
  deriving DecidableEq, Repr

/-- The counter values read by the `choose` events of an interleaving of iterations.
Code: distbench_engine.cc:2104-2120, 2381-2517. -/
def countersRead (counter : Int) : List CounterEvent → List Int
  | [] => []
  | .choose :: rest => counter :: countersRead counter rest
  | .count :: rest => countersRead (counter + 1) rest

end Distbench.Fanout
