import Verif.Model.Checkout

/-! Vocabulary for working trees: which files there are, what is safe upstream. -/

namespace Distbench.Spec
open Checkout

/-- Among these files there is one at `p` with content `c`. -/
def HasFile (fs : Files) (p c : Str) : Prop :=
  ∃ before after, fs = before ++ (p, c) :: after ∧ ∀ e ∈ before, e.1 ≠ p

/-- There is no file at `p`. -/
def Absent (fs : Files) (p : Str) : Prop := ∀ e ∈ fs, e.1 ≠ p

/-- The content `c` of `p` can be had from upstream: it is in the version that the tree stands on,
and a remote branch or a tag contains that version. -/
def Published (t : Tree) (p c : Str) : Prop :=
  t.upstream = true ∧ ∃ h, t.head = some h ∧ HasFile h p c

/-- Nothing was changed in the tree since its version was written: the tracked paths are those of
the version, with their contents. -/
def Untouched (t : Tree) : Prop :=
  ∃ h, t.head = some h ∧ (∀ p, p ∈ t.tracked ↔ ∃ c, HasFile h p c) ∧
    ∀ p c, p ∈ t.tracked → (HasFile t.files p c ↔ HasFile h p c)

/-- The directories are as the function wants them, the remote is not the one of the repository
around, and GITDIR is the top of a repository with this remote. -/
def InPlace (a : Args) (w : World) : Prop :=
  (∃ x, a.gitdir = a.pwd ++ '/' :: x) ∧ (∃ x, a.worktree = a.gitdir ++ '/' :: x) ∧
    w.topUrl ≠ a.remote ∧ w.oldUrl = a.remote ∧ (a.remote = [] ∨ w.top = true)

/-- The remote can be reached and has the version. -/
def Offers (r : Remote) (v : Files) : Prop :=
  r.answers = true ∧ r.fetches = true ∧ r.version = some v

/-- The machine after calls with the same arguments. -/
def afterCalls (a : Args) : World → List Remote → World
  | w, [] => w
  | w, r :: rest => afterCalls a (update r a w).2 rest

end Distbench.Spec
