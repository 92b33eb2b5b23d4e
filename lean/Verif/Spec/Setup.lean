import Verif.Model.Setup

/-! Vocabulary for setup_mercury.sh: when the libraries can be used. -/

namespace Distbench.Spec
open Setup

/-- The link of the library leads to this version, all of which is there. -/
def LinkedWhole (d : Disk) (lib : Lib) (version builtWith : Str) : Prop :=
  d.link lib = some version ∧ d.dir lib version = .whole builtWith

/-- Both libraries are there in these versions, and Mercury was built with this libfabric. -/
def LibrariesReady (d : Disk) (fabric mercury : Str) : Prop :=
  LinkedWhole d .fabric fabric [] ∧ LinkedWhole d .mercury mercury fabric

/-- A call of the script that did not end while it removed an earlier installation: it has twelve steps, of
which the first three remove that of libfabric, and the seventh to the ninth that of Mercury. -/
def NotInRemoval (call : Str × Str × Nat) : Prop :=
  call.2.2 ≠ 1 ∧ call.2.2 ≠ 2 ∧ call.2.2 ≠ 7 ∧ call.2.2 ≠ 8

end Distbench.Spec
