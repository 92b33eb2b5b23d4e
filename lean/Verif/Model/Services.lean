import Verif.Model.Basic

/-! Model of service specifications, instance naming and name tables:
distbench_utils.cc:87-137, 284-352, 647-742, 816-826. -/

namespace Distbench.Services

/-- `message ServiceSpec`, traffic_config.proto:40-52.  `multi_server_channels` and
`protocol_driver_options_name` are carried by no function modelled here and are left out. -/
structure ServiceSpec where
  name : Str := []
  count : Option Int := none
  xSize : Option Int := none
  ySize : Option Int := none
  zSize : Option Int := none
  deriving DecidableEq, Repr

/-- Protobuf accessor `count()`, default 0 (traffic_config.proto:42). -/
def ServiceSpec.getCount (s : ServiceSpec) : Int := s.count.getD 0
/-- Protobuf accessor `x_size()`, default 1 (traffic_config.proto:44). -/
def ServiceSpec.getX (s : ServiceSpec) : Int := s.xSize.getD 1
/-- Protobuf accessor `y_size()`, default 1 (traffic_config.proto:46). -/
def ServiceSpec.getY (s : ServiceSpec) : Int := s.ySize.getD 1
/-- Protobuf accessor `z_size()`, default 1 (traffic_config.proto:48). -/
def ServiceSpec.getZ (s : ServiceSpec) : Int := s.zSize.getD 1

/-- The tail of `GetCanonicalServiceSpec` once the product is known,
distbench_utils.cc:673-679. -/
def finishCanonical (s : ServiceSpec) (xyz : Int) : Outcome ServiceSpec :=
  match s.count with
  | some c =>
    if c ≠ xyz then .error "count does not match x/y/z size" else .ok s
  | none => .ok { s with count := some xyz }

/-- `GetCanonicalServiceSpec`, distbench_utils.cc:647-692.  `xyz_size` is an `int`; an overflowing
product is undefined behaviour. -/
def getCanonicalServiceSpec (s : ServiceSpec) : Outcome ServiceSpec :=
  match s.xSize with
  | some x =>
    if x ≤ 0 then .error "x_size must be positive"
    else
      match chk32 (1 * x) with
      | none => .ub
      | some xyz =>
        match s.ySize with
        | some y =>
          if y ≤ 0 then .error "y_size must be positive"
          else
            match chk32 (xyz * y) with
            | none => .ub
            | some xyz =>
              match s.zSize with
              | some z =>
                if z ≤ 0 then .error "z_size must be positive"
                else
                  match chk32 (xyz * z) with
                  | none => .ub
                  | some xyz => finishCanonical s xyz
              | none => finishCanonical s xyz
        | none =>
          match s.zSize with
          | some _ => .error "z_size cannot be specified without y_size."
          | none => finishCanonical s xyz
  | none =>
    let ret := { s with xSize := some s.getCount }
    match s.ySize with
    | some _ => .error "y_size cannot be specified without x_size."
    | none =>
      match s.zSize with
      | some _ => .error "z_size cannot be specified without x_size and y_size."
      | none => .ok ret

/-- `struct GridIndex`, distbench_utils.h:59-63. -/
structure GridIndex where
  x : Int
  y : Int
  z : Int
  deriving DecidableEq, Repr

/-- `GetInstanceFromGridIndex`, distbench_utils.cc:708-712; `none` is integer overflow. -/
def getInstanceFromGridIndex (s : ServiceSpec) (i : GridIndex) : Option Int := do
  let a ← chk32 (i.y * s.getX)
  let b ← chk32 (i.x + a)
  let c ← chk32 (i.z * s.getX)
  let d ← chk32 (c * s.getY)
  chk32 (b + d)

/-- C++ `/` on `int`; `none` is division by zero or overflow.  Code: distbench_utils.cc:714-726. -/
def cdiv (a b : Int) : Option Int := if b = 0 then none else chk32 (a.tdiv b)

/-- C++ `%` on `int`; `none` is division by zero or overflow of the quotient.
Code: distbench_utils.cc:714-726. -/
def cmod (a b : Int) : Option Int :=
  if b = 0 then none else if InI32 (a.tdiv b) then some (a.tmod b) else none

/-- `GetServiceIndex`, distbench_utils.cc:714-726; `none` is a division by a zero size. -/
def getServiceIndex (s : ServiceSpec) (instance_ : Int) : Option GridIndex :=
  match s.xSize with
  | none => some ⟨instance_, 0, 0⟩
  | some x => do
    let rx ← cmod instance_ x
    match s.ySize with
    | none => some ⟨rx, 0, 0⟩
    | some y => do
      let q ← cdiv instance_ x
      let ry ← cmod q y
      match s.zSize with
      | none => some ⟨rx, ry, 0⟩
      | some _ => do
        let q' ← cdiv instance_ x
        let rz ← cdiv q' y
        some ⟨rx, ry, rz⟩

/-- Decimal digits of a natural number, most significant first.  Code: distbench_utils.cc:728-741. -/
def digits (n : Nat) : Str :=
  if n < 10 then [Char.ofNat (48 + n)]
  else digits (n / 10) ++ [Char.ofNat (48 + n % 10)]

/-- `absl::StrCat` of an `int`.  Code: distbench_utils.cc:728-741. -/
def showInt (n : Int) : Str :=
  if n < 0 then '-' :: digits n.natAbs else digits n.natAbs

/-- `GetInstanceName`, distbench_utils.cc:728-741. -/
def getInstanceName (s : ServiceSpec) (instance_ : Int) : Option Str :=
  match s.xSize with
  | none => some (s.name ++ '/' :: showInt instance_)
  | some _ => do
    let index ← getServiceIndex s instance_
    match s.zSize with
    | some _ =>
      some (s.name ++ '/' :: showInt index.x ++ '/' :: showInt index.y ++ '/' :: showInt index.z)
    | none =>
      match s.ySize with
      | some _ => some (s.name ++ '/' :: showInt index.x ++ '/' :: showInt index.y)
      | none => some (s.name ++ '/' :: showInt index.x)

/-- White space skipped by the `%d` conversion (`isspace` in the C locale).
Code: distbench_utils.cc:694-706. -/
def isCSpace (c : Char) : Bool :=
  c = ' ' || c = '\t' || c = '\n' || c = '\r' || c = Char.ofNat 11 || c = Char.ofNat 12

/-- Digits read by the `%d` conversion.  Code: distbench_utils.cc:694-706. -/
def isCDigit (c : Char) : Bool := '0' ≤ c && c ≤ '9'

/-- Value of a string of digits.  Code: distbench_utils.cc:694-706. -/
def digitsValue (acc : Nat) (s : Str) : Nat :=
  s.foldl (fun acc c => acc * 10 + (c.toNat - 48)) acc

/-- Result of one `%d` conversion.  Code: distbench_utils.cc:694-706. -/
inductive Scan where
  | inputFailure
  | matchFailure
  | ub
  | value (v : Int) (rest : Str)
  deriving DecidableEq, Repr

/-- One `%d` conversion of `sscanf` (C runtime contract); a value outside `int` is undefined.
Code: distbench_utils.cc:694-706. -/
def scanInt (s : Str) : Scan :=
  match s.dropWhile isCSpace with
  | [] => .inputFailure
  | c :: cs =>
    let neg := c = '-'
    let body := if c = '-' ∨ c = '+' then cs else c :: cs
    let ds := body.takeWhile isCDigit
    if ds = [] then .matchFailure
    else
      let v : Int := if neg then -(digitsValue 0 ds : Int) else digitsValue 0 ds
      if InI32 v then .value v (body.dropWhile isCDigit) else .ub

/-- `GetGridIndexFromName`, distbench_utils.cc:694-706.  `sscanf` stops at the terminating NUL.
`sscanf` returning EOF (nothing to read) is non-zero, so only a matching failure of the first
conversion is fatal. -/
def getGridIndexFromName (name : Str) : Outcome GridIndex :=
  let view := match name.dropWhile (· ≠ '/') with
    | [] => name
    | _ :: rest => rest
  let cstr := view.takeWhile (· ≠ Char.ofNat 0)
  match scanInt cstr with
  | .inputFailure => .ok ⟨0, 0, 0⟩
  | .matchFailure => .crash
  | .ub => .ub
  | .value x rest =>
    match rest with
    | '/' :: rest =>
      match scanInt rest with
      | .inputFailure | .matchFailure => .ok ⟨x, 0, 0⟩
      | .ub => .ub
      | .value y rest =>
        match rest with
        | '/' :: rest =>
          match scanInt rest with
          | .inputFailure | .matchFailure => .ok ⟨x, y, 0⟩
          | .ub => .ub
          | .value z _ => .ok ⟨x, y, z⟩
        | _ => .ok ⟨x, y, 0⟩
    | _ => .ok ⟨x, 0, 0⟩

/-- The loop body shared by the `Enumerate*` functions, `ret[name] = ret.size()`; in C++17 and
later the right-hand side is evaluated before the subscript inserts.
Code: distbench_utils.cc:87-127. -/
def enumerate (names : List Str) : NameMap :=
  names.foldl (fun ret name => ret.set name (ret.length : Int)) []

/-- `EnumerateServiceTypes`, distbench_utils.cc:87-95. -/
def enumerateServiceTypes (services : List ServiceSpec) : NameMap :=
  enumerate (services.map (·.name))

/-- `EnumerateServiceSizes`, distbench_utils.cc:97-105. -/
def enumerateServiceSizes (services : List ServiceSpec) : NameMap :=
  services.foldl (fun ret s => ret.set s.name s.getCount) []

/-- `EnumerateRpcs`, distbench_utils.cc:107-114, on the names of the rpc descriptions. -/
def enumerateRpcs (rpcNames : List Str) : NameMap := enumerate rpcNames

/-- Names of the instances `0 .. count-1` of one service, in order: the inner loop of
distbench_utils.cc:120 and 820; `none` is undefined behaviour in `GetInstanceName`. -/
def serviceInstanceNames (s : ServiceSpec) : Option (List Str) :=
  (List.range s.getCount.toNat).mapM (fun i : Nat => getInstanceName s i)

/-- `AllServiceInstances`, distbench_utils.cc:816-826. -/
def allServiceInstances (services : List ServiceSpec) : Option (List Str) :=
  (services.mapM serviceInstanceNames).map List.flatten

/-- `EnumerateServiceInstanceIds`, distbench_utils.cc:116-127. -/
def enumerateServiceInstanceIds (services : List ServiceSpec) : Option NameMap :=
  (services.mapM serviceInstanceNames).map fun names => enumerate names.flatten

/-- `GetServiceSpec`, distbench_utils.cc:129-137. -/
def getServiceSpec (name : Str) (services : List ServiceSpec) : Outcome ServiceSpec :=
  match services.find? (fun s => s.name == name) with
  | some s => .ok s
  | none => .error "not found"

/-- `message NamedSetting`, traffic_config.proto:236-240. -/
structure NamedSetting where
  name : Option Str := none
  stringValue : Option Str := none
  int64Value : Option Int := none
  deriving DecidableEq, Repr

/-- `GetNamedSettingString`, distbench_utils.cc:284-305. -/
def getNamedSettingString (settings : List NamedSetting) (settingName default_ : Str) : Str :=
  match settings with
  | [] => default_
  | s :: rest =>
    match s.name with
    | none => getNamedSettingString rest settingName default_
    | some n =>
      if n ≠ settingName then getNamedSettingString rest settingName default_
      else
        match s.int64Value with
        | some _ => getNamedSettingString rest settingName default_
        | none =>
          match s.stringValue with
          | some v => v
          | none => getNamedSettingString rest settingName default_

/-- `GetNamedSettingInt64`, distbench_utils.cc:319-340. -/
def getNamedSettingInt64 (settings : List NamedSetting) (settingName : Str) (default_ : Int) : Int :=
  match settings with
  | [] => default_
  | s :: rest =>
    match s.name with
    | none => getNamedSettingInt64 rest settingName default_
    | some n =>
      if n ≠ settingName then getNamedSettingInt64 rest settingName default_
      else
        match s.stringValue with
        | some _ => getNamedSettingInt64 rest settingName default_
        | none =>
          match s.int64Value with
          | some v => v
          | none => getNamedSettingInt64 rest settingName default_

end Distbench.Services
