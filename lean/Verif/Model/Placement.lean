import Verif.Model.Services

/-! Model of constraint checking and service placement: distbench_utils.cc:861-925,
distbench_test_sequencer.cc:225-371. -/

namespace Distbench.Placement
open Services

/-- White space stripped by `absl::SimpleAtoi` (`absl::ascii_isspace`).
Code: distbench_utils.cc:878. -/
def isSpace (c : Char) : Bool := isCSpace c

/-- `absl::SimpleAtoi` to `int64_t` (library contract): strips white space at both ends, then
requires an optional sign, at least one digit, nothing else, and a value that fits.
Code: distbench_utils.cc:363, 878. -/
def simpleAtoi64 (s : Str) : Option Int :=
  match ((s.dropWhile isSpace).reverse.dropWhile isSpace).reverse with
  | [] => none
  | c :: cs =>
    let body := if c = '-' ∨ c = '+' then cs else c :: cs
    if body ≠ [] ∧ body.all isCDigit then
      let v : Int := if c = '-' then -(digitsValue 0 body : Int) else digitsValue 0 body
      if InI64 v then some v else none
    else none

/-- `message Attribute`, distbench.proto:193-196; absent strings read as empty. -/
structure Attribute where
  name : Str := []
  value : Str := []
  deriving DecidableEq, Repr

/-- `enum Constraint.Relation`, traffic_config.proto:80-86. -/
inductive Relation where
  | unknown | equal | notEqual | moduloEqual | moduloNotEqual
  deriving DecidableEq, Repr

/-- `message Constraint`, traffic_config.proto:79-96; an absent modulus reads as 0. -/
structure Constraint where
  attributeName : Str := []
  relation : Relation := .unknown
  stringValues : List Str := []
  int64Values : List Int := []
  modulus : Int := 0
  deriving DecidableEq, Repr

/-- `message ConstraintSet`, traffic_config.proto:73-77. -/
abbrev ConstraintSet := List Constraint

/-- `message ConstraintList`, traffic_config.proto:68-71. -/
abbrev ConstraintList := List ConstraintSet

/-- `CheckStringConstraint`, distbench_utils.cc:861-873. -/
def checkStringConstraint (stringValue : Str) (a : Attribute) (c : Constraint) : Bool :=
  match c.relation with
  | .equal => a.value = stringValue
  | .notEqual => a.value ≠ stringValue
  | _ => false

/-- C++ `%` on `int64_t`: undefined for a zero divisor and for `INT64_MIN % -1`.
Code: distbench_utils.cc:875-892. -/
def mod64 (a b : Int) : Option Int :=
  if b = 0 ∨ (a = -2 ^ 63 ∧ b = -1) then none else some (a.tmod b)

/-- `CheckIntConstraint`, distbench_utils.cc:875-892. -/
def checkIntConstraint (intValue : Int) (a : Attribute) (c : Constraint) : Outcome Bool :=
  match simpleAtoi64 a.value with
  | none => .ok false
  | some v =>
    match c.relation with
    | .equal => .ok (v = intValue)
    | .notEqual => .ok (v ≠ intValue)
    | .moduloEqual =>
      match mod64 v c.modulus with
      | none => .ub
      | some r => .ok (r = intValue)
    | .moduloNotEqual =>
      match mod64 v c.modulus with
      | none => .ub
      | some r => .ok (r ≠ intValue)
    | .unknown => .ok false

/-- A loop `for (x : xs) if (check(x)) return true;` that falls through with `false`.
Code: distbench_utils.cc:894-925. -/
def anyTrue {α : Type} (check : α → Outcome Bool) : List α → Outcome Bool
  | [] => .ok false
  | x :: xs =>
    match check x with
    | .ok true => .ok true
    | .ok false => anyTrue check xs
    | .error m => .error m
    | .ub => .ub
    | .crash => .crash

/-- A loop `for (x : xs) if (!check(x)) return false;` that falls through with `true`.
Code: distbench_utils.cc:894-925. -/
def allTrue {α : Type} (check : α → Outcome Bool) : List α → Outcome Bool
  | [] => .ok true
  | x :: xs =>
    match check x with
    | .ok true => allTrue check xs
    | .ok false => .ok false
    | .error m => .error m
    | .ub => .ub
    | .crash => .crash

/-- The body of the attribute loop of `CheckConstraint`, distbench_utils.cc:897-906. -/
def checkAttribute (c : Constraint) (a : Attribute) : Outcome Bool :=
  if a.name ≠ c.attributeName then .ok false
  else if c.stringValues.any (fun s => checkStringConstraint s a c) then .ok true
  else anyTrue (fun n => checkIntConstraint n a c) c.int64Values

/-- `CheckConstraint`, distbench_utils.cc:894-909. -/
def checkConstraint (c : Constraint) (attributes : List Attribute) : Outcome Bool :=
  anyTrue (checkAttribute c) attributes

/-- `CheckConstraintSet`, distbench_utils.cc:911-917. -/
def checkConstraintSet (cs : ConstraintSet) (attributes : List Attribute) : Outcome Bool :=
  anyTrue (fun c => checkConstraint c attributes) cs

/-- `CheckConstraintList`, distbench_utils.cc:919-925. -/
def checkConstraintList (cl : ConstraintList) (attributes : List Attribute) : Outcome Bool :=
  allTrue (fun cs => checkConstraintSet cs attributes) cl

/-! ### placement -/

/-- `std::map<std::string, std::set<std::string>>`, as an association list.  Simplification: the
order of the keys and of the elements is not represented.  Code: distbench_test_sequencer.cc:225-371. -/
abbrev NodeServiceMap := List (Str × List Str)

/-- `m[node].insert(service)`.  Code: distbench_test_sequencer.cc:245-371. -/
def NodeServiceMap.insert (m : NodeServiceMap) (node service : Str) : NodeServiceMap :=
  match m with
  | [] => [(node, [service])]
  | (n, ss) :: rest =>
    if n = node then (n, if service ∈ ss then ss else service :: ss) :: rest
    else (n, ss) :: NodeServiceMap.insert rest node service

/-- What the solver reads of a `DistributedSystemDescription` and of the registered nodes.
`services` is `all_services` (distbench_test_sequencer.cc:258-269); protobuf maps are given in their
(unspecified) iteration order, `nodes` in the sorted order of `std::map`. -/
structure Problem where
  services : List Str
  nodes : List (Str × List Attribute)
  bundles : List (Str × List Str) := []
  serviceConstraints : List (Str × ConstraintList) := []

/-- Local variables of `ConstraintSolver`: `unplaced_services`, `idle_nodes` (in sorted order) and
`node_service_map`.  Code: distbench_test_sequencer.cc:245-371. -/
structure State where
  unplaced : List Str
  idle : List Str
  placed : NodeServiceMap

/-- The services of one bundle, distbench_test_sequencer.cc:272-280. -/
def placeBundleServices (node : Str) : List Str → State → Outcome State
  | [], st => .ok st
  | s :: rest, st =>
    if s ∈ st.unplaced then
      placeBundleServices node rest
        { st with placed := st.placed.insert node s, unplaced := st.unplaced.filter (· ≠ s) }
    else .error "Service was not found or already placed."

/-- The bundles, distbench_test_sequencer.cc:271-287. -/
def placeBundles : List (Str × List Str) → State → Outcome State
  | [], st => .ok st
  | (node, ss) :: rest, st =>
    match placeBundleServices node ss st with
    | .ok st =>
      if node ∈ st.idle then placeBundles rest { st with idle := st.idle.filter (· ≠ node) }
      else .error "Node was not found or not idle."
    | .error m => .error m
    | .ub => .ub
    | .crash => .crash

/-- `constraints[key] = value` on the protobuf map `constraints`.
Code: distbench_test_sequencer.cc:225-300. -/
def setConstraint (m : List (Str × ConstraintList)) (key : Str) (v : ConstraintList) :
    List (Str × ConstraintList) :=
  match m with
  | [] => [(key, v)]
  | (k, w) :: rest => if k = key then (k, v) :: rest else (k, w) :: setConstraint rest key v

/-- `constraints.find(key)`.  Code: distbench_test_sequencer.cc:245-371. -/
def findConstraint (m : List (Str × ConstraintList)) (key : Str) : Option ConstraintList :=
  match m with
  | [] => none
  | (k, w) :: rest => if k = key then some w else findConstraint rest key

/-- The wildcard loop, distbench_test_sequencer.cc:290-302. -/
def applyWildcard (glob : Str → Str → Bool) (given : List (Str × ConstraintList)) (key : Str)
    (v : ConstraintList) (services : List Str) (m : List (Str × ConstraintList)) :
    List (Str × ConstraintList) :=
  services.foldl (fun m s =>
    if glob key s then
      if (findConstraint given s).isSome then m else setConstraint m s v
    else m) m

/-- Constraint resolution, distbench_test_sequencer.cc:288-306.  `glob` is
`fnmatch(.., .., FNM_PATHNAME) == 0`, left arbitrary. -/
def resolveConstraints (glob : Str → Str → Bool) (p : Problem) : List (Str × ConstraintList) :=
  p.serviceConstraints.foldl (fun m (key, v) =>
    if '*' ∈ key then applyWildcard glob p.serviceConstraints key v p.services m
    else setConstraint m key v) []

/-- `node_attributes[node]`.  Code: distbench_test_sequencer.cc:245-371. -/
def attributesOf (nodes : List (Str × List Attribute)) (node : Str) : List Attribute :=
  match nodes with
  | [] => []
  | (n, a) :: rest => if n = node then a else attributesOf rest node

/-- The loop over the idle nodes, distbench_test_sequencer.cc:313-321: the first that satisfies. -/
def firstFit (nodes : List (Str × List Attribute)) (cl : ConstraintList) :
    List Str → Outcome (Option Str)
  | [] => .ok none
  | n :: rest =>
    match checkConstraintList cl (attributesOf nodes n) with
    | .ok true => .ok (some n)
    | .ok false => firstFit nodes cl rest
    | .error m => .error m
    | .ub => .ub
    | .crash => .crash

/-- The loop over the constrained services, distbench_test_sequencer.cc:308-324. -/
def placeConstrained (nodes : List (Str × List Attribute)) (constraints : List (Str × ConstraintList)) :
    List Str → State → Outcome State
  | [], st => .ok st
  | s :: rest, st =>
    match findConstraint constraints s with
    | none => placeConstrained nodes constraints rest st
    | some cl =>
      match firstFit nodes cl st.idle with
      | .ok (some n) =>
        placeConstrained nodes constraints rest
          { placed := st.placed.insert n s, idle := st.idle.filter (· ≠ n),
            unplaced := st.unplaced.filter (· ≠ s) }
      | .ok none => .error "couldn't be placed"
      | .error m => .error m
      | .ub => .ub
      | .crash => .crash

/-- The remaining services, distbench_test_sequencer.cc:340-357; `failed` says whether `failures`
is non-empty. -/
def placeRemaining : List Str → List Str → NodeServiceMap → Bool → Outcome NodeServiceMap
  | [], _, m, failed =>
    if failed then .error "No idle node for placement of services" else .ok m
  | _ :: rest, [], m, _ => placeRemaining rest [] m true
  | s :: rest, n :: idle, m, failed => placeRemaining rest idle (m.insert n s) failed

/-- `ConstraintSolver`, distbench_test_sequencer.cc:245-371. -/
def constraintSolver (glob : Str → Str → Bool) (p : Problem) : Outcome NodeServiceMap :=
  match placeBundles p.bundles
      { unplaced := p.services, idle := p.nodes.map (·.1), placed := [] } with
  | .ok st =>
    match placeConstrained p.nodes (resolveConstraints glob p) p.services st with
    | .ok st =>
      if st.unplaced = [] then .ok st.placed
      else placeRemaining (p.services.filter (· ∈ st.unplaced)) st.idle st.placed false
    | .error m => .error m
    | .ub => .ub
    | .crash => .crash
  | .error m => .error m
  | .ub => .ub
  | .crash => .crash

/-- The instance names of a description, distbench_test_sequencer.cc:258-269 (the same names, in the
same order, as `AllServiceInstances`). -/
def problemServices (services : List ServiceSpec) : Option (List Str) := allServiceInstances services

/-- `ret.value()[alias]` for every registered node, distbench_test_sequencer.cc:236-241. -/
def addEmpty (m : NodeServiceMap) (node : Str) : NodeServiceMap :=
  if node ∈ m.map (·.1) then m else m ++ [(node, [])]

/-- `PlaceServices`, distbench_test_sequencer.cc:225-243, on the nodes that are not pending. -/
def placeServices (glob : Str → Str → Bool) (p : Problem) : Outcome NodeServiceMap :=
  match constraintSolver glob p with
  | .ok m => .ok ((p.nodes.map (·.1)).foldl addEmpty m)
  | .error m => .error m
  | .ub => .ub
  | .crash => .crash

end Distbench.Placement
