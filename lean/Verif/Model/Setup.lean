import Verif.Model.Basic

/-! setup_mercury.sh: the installation of libfabric and Mercury, as steps between which it can be
interrupted, and the check in deploy_to_cloudlab.sh whether it has to be run. -/

namespace Distbench.Setup

/-- The libraries, setup_mercury.sh 45, 79. -/
inductive Lib where
  | fabric
  | mercury
  deriving DecidableEq, Repr

/-- What there is of an installation in its directory: nothing, a part of the files, or all of them; then
with the version of libfabric that they were built with (`[]` for libfabric itself).
Code: setup_mercury.sh 54, 74, 95, 119. -/
inductive Dir where
  | absent
  | partly
  | whole (builtWith : Str)
  deriving DecidableEq, Repr

/-- The directory `external_repos/opt`: for each library the version that the link without a version
points to, and the directories of the versions.  Code: setup_mercury.sh 76, 121, 141-144. -/
structure Disk where
  link : Lib → Option Str
  dir : Lib → Str → Dir

/-- What the script does to this directory; it can be interrupted, or fail, between any two of these.
Removing and installing take many operations, and are started and finished.
Code: setup_mercury.sh 54, 74, 76, 95, 119, 121. -/
inductive Step where
  | removing (lib : Lib) (version : Str)
  | removed (lib : Lib) (version : Str)
  | unlink (lib : Lib)
  | installing (lib : Lib) (version : Str)
  | installed (lib : Lib) (version builtWith : Str)
  | relink (lib : Lib) (version : Str)
  deriving DecidableEq, Repr

/-- The directory of a version changes, setup_mercury.sh 54, 74, 95, 119. -/
def Disk.setDir (d : Disk) (lib : Lib) (version : Str) (x : Dir) : Disk :=
  { d with dir := fun l v => if l = lib ∧ v = version then x else d.dir l v }

/-- The link of a library changes, setup_mercury.sh 54, 76, 95, 121. -/
def Disk.setLink (d : Disk) (lib : Lib) (x : Option Str) : Disk :=
  { d with link := fun l => if l = lib then x else d.link l }

/-- A step, setup_mercury.sh 54, 74, 76, 95, 119, 121. -/
def apply (d : Disk) : Step → Disk
  | .removing lib v => if d.dir lib v = .absent then d else d.setDir lib v .partly
  | .removed lib v => d.setDir lib v .absent
  | .unlink lib => d.setLink lib none
  | .installing lib v => d.setDir lib v .partly
  | .installed lib v b => d.setDir lib v (.whole b)
  | .relink lib v => d.setLink lib (some v)

/-- `install_libfabric` and `install_mercury`, setup_mercury.sh 45-77, 79-122: `rm -rf` takes its arguments in
order, the directory and then the link.  Simplification: sources and builds are not part of the state. -/
def installSteps (lib : Lib) (version builtWith : Str) : List Step :=
  [.removing lib version, .removed lib version, .unlink lib, .installing lib version,
    .installed lib version builtWith, .relink lib version]

/-- `main`, setup_mercury.sh 146-147, for these versions of libfabric and Mercury. -/
def setup (fabric mercury : Str) : List Step :=
  installSteps .fabric fabric [] ++ installSteps .mercury mercury fabric

/-- Some steps of the script, one after the other, setup_mercury.sh 146-147. -/
def runSteps (d : Disk) (steps : List Step) : Disk := steps.foldl apply d

/-- Nothing is installed, setup_mercury.sh 141. -/
def fresh : Disk := ⟨fun _ => none, fun _ _ => .absent⟩

/-- Calls of the script, each with its versions and the number of steps after which it ended, as
setup_mercury.sh 146-147 under `set -e`. -/
def history (calls : List (Str × Str × Nat)) : Disk :=
  calls.foldl (fun d c => runSteps d ((setup c.1 c.2.1).take c.2.2)) fresh

/-- The script has to be run: what the links are named after is compared with the versions; without a link
there is an empty text.  Code: deploy_to_cloudlab.sh 435-438. -/
def needed (fabric mercury : Str) (d : Disk) : Bool :=
  (d.link .fabric).getD [] ≠ fabric || (d.link .mercury).getD [] ≠ mercury

end Distbench.Setup
