import Verif.Model.Services

/-! `git_clone_or_update` (git_clone_or_update.sh 22-153), with which the deployment and the set-up
scripts (deploy_to_cloudlab.sh 382-388, setup_mercury.sh 45-53 and 87-94) fetch a version of a
repository into a working tree and bring it up to date. -/

namespace Distbench.Checkout

/-- The files of a version, or on disk: path and content; the first entry of a path counts.  Stands
for what git reads and writes in git_clone_or_update.sh 110-152. -/
abbrev Files := List (Str × Str)

/-- The content of a path, `none` where there is no such file; for git_clone_or_update.sh
110-152. -/
def content : Files → Str → Option Str
  | [], _ => none
  | (q, c) :: rest, p => if q = p then some c else content rest p

/-- A working tree as git_clone_or_update.sh 93-133 looks at it. -/
structure Tree where
  /-- The version that `HEAD` stands for, `none` if there is no commit yet. -/
  head : Option Files
  /-- The paths in the index. -/
  tracked : List Str
  /-- What is on disk. -/
  files : Files
  /-- Some remote branch or tag contains `HEAD` (lines 123-124). -/
  upstream : Bool
  /-- The name under `.git/worktrees` of GITDIR, `none` for a directory that is no working tree of
  GITDIR (lines 98-100). -/
  name : Option Str
  deriving DecidableEq, Repr

/-- What lies at GITDIR, git_clone_or_update.sh 75-79. -/
inductive Place where
  | nothing | file | directory
  deriving DecidableEq, Repr

/-- The state of the machine that git_clone_or_update.sh 31-133 looks at. -/
structure World where
  /-- The origin of the repository that the current directory lies in, `[]` if none (line 58). -/
  topUrl : Str := []
  /-- The origin of the repository that GITDIR lies in, `[]` if none (line 65). -/
  oldUrl : Str := []
  /-- Whether GITDIR itself is the top of that repository (line 66). -/
  top : Bool := true
  gitdir : Place := .nothing
  tree : Option Tree := none
  deriving DecidableEq, Repr

/-- The four arguments after `readlink` and the current directory, git_clone_or_update.sh 28-32. -/
structure Args where
  remote : Str
  version : Str
  gitdir : Str
  worktree : Str
  pwd : Str
  deriving DecidableEq, Repr

/-- How the function ends: with its own error status, by a failed git command (the scripts run under
`set -e`: setup_mercury.sh 29, deploy_to_cloudlab.sh 90), or well. -/
inductive End where
  | refused (code : Nat)
  | failed
  | done
  deriving DecidableEq, Repr

/-- The remote and the network, git_clone_or_update.sh 33, 134 and 142-152: whether `ls-remote` works, whether
`fetch` works, the files of the version asked for, `none` if the remote has no such branch or tag
(any more), and whether the version is a tag; tags that are gone stay in GITDIR. -/
structure Remote where
  answers : Bool
  fetches : Bool
  version : Option Files
  isTag : Bool
  deriving DecidableEq, Repr

/-- The pattern `${dir}/*` of the two `case` statements, git_clone_or_update.sh 39-57.
Simplification: `dir` has no pattern characters. -/
def within (dir path : Str) : Bool := (dir ++ ['/']).isPrefixOf path

/-- The last component of a path, which git takes for the name of a new working tree
(`git worktree add`, git_clone_or_update.sh 137).  Simplification: this name is not taken. -/
def baseName : Str → Str
  | [] => []
  | c :: s => if '/' ∈ s then baseName s else if c = '/' then s else c :: s

/-- `! git diff --stat --exit-code HEAD`, git_clone_or_update.sh 111: the tracked files on disk or
the index differ from `HEAD`, or there is no `HEAD`. -/
def differs (t : Tree) : Bool :=
  match t.head with
  | none => true
  | some h =>
    (t.tracked.any fun p => content h p != content t.files p) ||
      (h.any fun e => !t.tracked.contains e.1)

/-- The checks of an existing working tree, git_clone_or_update.sh 93-131: the error status, if any.
`git log` fails without a commit. -/
def checkTree (version : Str) (t : Tree) : Option Nat :=
  if t.name ≠ some version then some 7
  else if differs t then some 8
  else if t.head.isSome && !t.upstream then some 9
  else none

/-- `git reset --hard`, git_clone_or_update.sh 142-152: the files of the version are written, those
that were tracked and are not in the version are removed, all others stay.  Simplification: no path
is a directory of another. -/
def reset (version : Files) (t : Tree) : Tree :=
  { t with
    head := some version
    tracked := version.map (·.1)
    files := version ++ t.files.filter fun e => !t.tracked.contains e.1
    upstream := true }

/-- The switch to a new remote, git_clone_or_update.sh 73-91; the flag tells whether its commands
succeed (renaming `origin` fails where there is none). -/
def switch (a : Args) (w : World) : End × World :=
  if w.oldUrl = a.remote then (.done, w)
  else match w.gitdir with
    | .file => (.refused 6, w)
    | .directory =>
      if w.oldUrl = [] then (.failed, w)
      else (.done, { w with oldUrl := a.remote })
    | .nothing => (.done, { w with oldUrl := a.remote, top := true, gitdir := .directory })

/-- The end of the function, git_clone_or_update.sh 134-152.  If the remote has no such version, then
line 150 goes back to the local branch that `git worktree add` made, or to the local tag.
Simplification: this is where `HEAD` is; WORKTREE is a directory or does not exist. -/
def bringUp (r : Remote) (a : Args) (w : World) : End × World :=
  if !r.fetches then (.failed, w)
  else match r.version with
    | none =>
      match w.tree with
      | none => (.failed, w)
      | some t =>
        (.done, { w with tree := some { reset (t.head.getD []) t with upstream := r.isTag } })
    | some v =>
      let t := w.tree.getD ⟨some v, v.map (·.1), v, true, some (baseName a.worktree)⟩
      (.done, { w with tree := some (reset v t) })

/-- `git_clone_or_update`, git_clone_or_update.sh 22-153, called with four arguments.
Simplification: making directories and repositories succeeds; nobody else changes the files
meanwhile. -/
def update (r : Remote) (a : Args) (w : World) : End × World :=
  if !r.answers then (.refused 1, w)
  else if !within a.pwd a.gitdir then (.refused 2, w)
  else if !within a.gitdir a.worktree then (.refused 3, w)
  else if w.topUrl = a.remote then (.refused 4, w)
  else if w.oldUrl ≠ [] && !w.top then (.refused 5, w)
  else match switch a w with
    | (.done, w') =>
      match w'.tree.bind (checkTree a.version) with
      | some code => (.refused code, w')
      | none => bringUp r a w'
    | other => other

/-- The working tree of the deployment script, deploy_to_cloudlab.sh 382-388. -/
def deployArgs (pwd repo branch : Str) : Args :=
  let gitdir := pwd ++ "/distbench_repo".toList
  { remote := repo, version := branch, gitdir := gitdir, worktree := gitdir ++ '/' :: branch,
    pwd := pwd }

end Distbench.Checkout
