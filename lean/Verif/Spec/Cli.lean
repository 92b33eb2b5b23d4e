import Verif.Model.Cli

/-! Specification of the command line. -/

namespace Distbench.Spec
open Placement

/-- The argument is `nodeN` for a number `N` that an `int` can hold, in plain decimal. -/
def NamesNode (argument : Str) (n : Nat) : Prop :=
  argument = ("node" ++ toString n).toList ∧ n < 2 ^ 31

/-- The argument is `name=value`; the name ends at the first `=`. -/
def GivesAttribute (argument : Str) (a : Attribute) : Prop :=
  argument = a.name ++ '=' :: a.value ∧ '=' ∉ a.name

/-- The arguments are `name=value` and give these attributes, in this order. -/
def GiveAttributes : List Str → List Attribute → Prop
  | [], [] => True
  | x :: xs, a :: as => GivesAttribute x a ∧ GiveAttributes xs as
  | _, _ => False

/-- The argument begins with the four letters of "node". -/
def LooksLikeNode (argument : Str) : Prop := ∃ rest, argument = "node".toList ++ rest

end Distbench.Spec
