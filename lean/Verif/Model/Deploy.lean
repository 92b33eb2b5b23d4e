import Verif.Model.Basic

/-! deploy_to_cloudlab.sh: the choice of the network device and of the address of the test sequencer,
and the processes that are started on the nodes of the cluster. -/

namespace Distbench.Deploy

/-! ### the network device -/

/-- A network device that is up, as `ip` lists it: its name, perhaps with a suffix after `@`; whether
the public address is found among its addresses; its first addresses of both kinds, `[]` if none.
Code: deploy_to_cloudlab.sh 219-237, 268-273, 284. -/
structure Netdev where
  listed : Str
  isPublic : Bool := false
  v4 : Str := []
  v6 : Str := []
  deriving DecidableEq, Repr

/-- What `grep -v lo` looks for, deploy_to_cloudlab.sh 272.  Simplification: only in the name; the rest of
the line has the state and the flags in capitals and the address in hexadecimal. -/
def hasLo : Str → Bool
  | [] => false
  | c :: rest => (c == 'l' && rest.head? == some 'o') || hasLo rest

/-- `${netdev%@*}`: without the last `@` and what follows it, deploy_to_cloudlab.sh 282. -/
def strip (s : Str) : Str :=
  if '@' ∈ s then ((s.reverse.dropWhile (· ≠ '@')).drop 1).reverse else s

/-- `dev_is_usable`, deploy_to_cloudlab.sh 239-260: what it prints, and whether it succeeds. -/
def usable (d : Netdev) : Str × Bool :=
  let v6 := if d.v6.take 4 = "fe80".toList then [] else d.v6
  if d.v4 = [] ∧ v6 = [] then ([], false)
  else if v6 = [] then (d.v4, true)
  else ('[' :: v6 ++ [']'], true)

/-- The variables of the script that the loop sets: PRIVATE_NETDEV and SEQUENCER_IP, `none` while it
is not set.  Code: deploy_to_cloudlab.sh 290-292. -/
structure Choice where
  device : Str
  ip : Option Str
  deriving DecidableEq, Repr

/-- The loop over the devices, deploy_to_cloudlab.sh 279-297.  The assignment in the condition of
line 290 takes place also when the function fails. -/
def tryDevices : List Netdev → Choice → Choice
  | [], c => c
  | d :: rest, c =>
    if d.isPublic then tryDevices rest c
    else
      match usable d with
      | (ip, true) => ⟨strip d.listed, some ip⟩
      | (ip, false) => tryDevices rest { c with ip := some ip }

/-- How the choice ends: because there are no devices (the pipeline or the test after it), with the one that there is no
address, with bash's message that SEQUENCER_IP is not set (`set -u`, deploy_to_cloudlab.sh 77), or with
the device and the address.  Code: deploy_to_cloudlab.sh 270-277, 303-309. -/
inductive Picked where
  | noDevices
  | noAddress
  | notSet
  | ok (device ip : Str)
  deriving DecidableEq, Repr

/-- The check after the choice, deploy_to_cloudlab.sh 303-307. -/
def checked (c : Choice) : Picked :=
  match c.ip with
  | none => .notSet
  | some [] => .noAddress
  | some ip => .ok c.device ip

/-- The choice, deploy_to_cloudlab.sh 263-307; `argument` is the fifth argument, `[]` if it is not
given, and `env` the variable SEQUENCER_IP of the environment. -/
def pick (argument : Str) (env : Option Str) (devices : List Netdev) : Picked :=
  if argument ≠ [] then checked ⟨argument, env⟩
  else
    let list := devices.filter fun d => !hasLo d.listed
    if list = [] then .noDevices
    else checked (tryDevices list ⟨[], env⟩)

/-! ### the processes -/

/-- What is done on a node of the cluster, by the number of the node, deploy_to_cloudlab.sh 450-507:
old processes are killed and the old binary removed; the new binary is put there; the test sequencer or a
node manager, with its alias and port, is started. -/
inductive Act where
  | kill (node : Nat)
  | binary (node : Nat)
  | sequencer (node port : Nat)
  | nodeManager (node alias port : Nat)
  deriving DecidableEq, Repr

/-- The loop that starts the node managers, from node `i` on, deploy_to_cloudlab.sh 491-507. -/
def startManagers (port : Nat) : Nat → Nat → List Act
  | _, 0 => []
  | i, n + 1 => .nodeManager i i port :: startManagers (port + 1) (i + 1) n

/-- The end of the remote script, deploy_to_cloudlab.sh 450-507, on a cluster of `n` nodes.
Simplification: the commands succeed, and those of one loop are listed in the order of the nodes. -/
def launch (n : Nat) : List Act :=
  (List.range n).map .kill ++ .binary 0 :: (List.range (n - 1)).map (fun i => .binary (i + 1)) ++
    .sequencer 0 10000 :: startManagers 9000 0 n

/-- `grep ^10 | wc -l` over the lines of /etc/hosts of the first node, deploy_to_cloudlab.sh 183. -/
def countNodes (hosts : List Str) : Nat := hosts.countP fun l => l.take 2 = "10".toList

/-- The number of nodes, deploy_to_cloudlab.sh 122, 180-196; `asked` is the fourth argument, 0 if it is not
given, and `answers` which nodes answer a ping.  `none`: the script ends with an error, as it does, by
`pipefail`, if no line is found. -/
def nodesUsed (asked : Int) (hosts : List Str) (answers : Nat → Bool) : Option Nat :=
  if asked ≤ 0 then
    if countNodes hosts = 0 then none else some (countNodes hosts)
  else if answers (asked.toNat - 1) then some asked.toNat
  else none

/-! ### the version -/

/-- The files of a version, or of a working tree, with their contents, deploy_to_cloudlab.sh 131. -/
abbrev Files := List (Str × Str)

/-- The local repository: its branches with the versions committed to them, the branch that is checked
out, the files that git tracks with what is staged of them, and the files in the working tree.
Code: deploy_to_cloudlab.sh 69, 131, 214. -/
structure Source where
  branches : List (Str × Files)
  current : Str
  index : Files
  work : Files
  deriving DecidableEq, Repr

/-- `git diff --exit-code`, deploy_to_cloudlab.sh 131: the working tree against what is staged. -/
def unchanged (s : Source) : Bool := s.index.all fun e => s.work.lookup e.1 = some e.2

/-- `git push -f mirror --all`, deploy_to_cloudlab.sh 214: all branches are set; others stay. -/
def push (branches mirror : List (Str × Files)) : List (Str × Files) :=
  branches ++ mirror.filter fun b => (branches.lookup b.1).isNone

/-- Where the version to be built comes from: the script ends with an error; a branch of a repository
elsewhere; or a branch of the mirror on the cluster.  Code: deploy_to_cloudlab.sh 125-140, 198-217. -/
inductive Sourced where
  | refused
  | elsewhere (url branch : Str)
  | mirrored (mirror : List (Str × Files)) (branch : Str)
  deriving DecidableEq, Repr

/-- The second and third argument, `[]` if not given, and what is done with them, deploy_to_cloudlab.sh
119-140, 198-217.  Simplification: the cluster is there, and pushing succeeds. -/
def source (repo branch : Str) (s : Source) (mirror : List (Str × Files)) : Sourced :=
  let repo := if repo = [] then "local".toList else repo
  let branch := if branch = [] then s.current else branch
  if repo = "localnocheck".toList then .mirrored (push s.branches mirror) branch
  else if repo = "local".toList then
    if unchanged s then .mirrored (push s.branches mirror) branch else .refused
  else .elsewhere repo branch

end Distbench.Deploy
