import Verif.Spec.Services
import Verif.Model.Options

/-! Vocabulary for options that are added by name. -/

namespace Distbench.Spec
open Services Options

/-- The settings of one side hold no text named `n`. -/
def NoText (settings : List NamedSetting) (n : Str) : Prop :=
  ∀ e ∈ settings, ∀ v, ¬ StringEntry n v e

/-- The settings of one side hold no number named `n`. -/
def NoNumber (settings : List NamedSetting) (n : Str) : Prop :=
  ∀ e ∈ settings, ∀ v, ¬ IntEntry n v e

/-- `c` is the first call of the list with the property `P`. -/
def FirstCall (P : Call → Prop) (c : Call) (l : List Call) : Prop :=
  ∃ before after, l = before ++ c :: after ∧ P c ∧ ∀ c' ∈ before, ¬ P c'

/-- A call that sets a text of the server named `n`. -/
def SetsServerText (n : Str) (c : Call) : Prop := ∃ v, c = .serverText n v

/-- A call that sets a number of the server named `n`. -/
def SetsServerNumber (n : Str) (c : Call) : Prop := ∃ v, c = .serverInt n v

/-- A call that sets a text of the client named `n`. -/
def SetsClientText (n : Str) (c : Call) : Prop := ∃ v, c = .clientText n v

end Distbench.Spec
