import Verif.Model.Workloads
import Verif.Spec.Builder

/-! Specification of the scripts in workloads/: the options that their usage lists, and how they may be
given. -/

namespace Distbench.Spec
open Workloads

/-- A default that the environment may change. -/
def fromEnvironment (env : Str → Option Str) (name default_ : String) : Str :=
  match env name.toList with
  | some (c :: cs) => c :: cs
  | _ => default_.toList

/-- The options with an argument that the usage of a script lists, with their defaults. -/
def workloadOptions (env : Str → Option Str) : Script → List (Char × Str)
  | .clique => [('s', "localhost:10000".toList), ('n', "10".toList), ('p', "grpc".toList), ('o', []),
      ('t', fromEnvironment env "TIME_SECONDS" "30"), ('m', "sync_burst".toList)]
  | .multiLevel => [('s', "localhost:10000".toList), ('r', "1".toList), ('l', "3".toList), ('p', "grpc".toList),
      ('o', []), ('t', fromEnvironment env "TIME_SECONDS" "30"), ('q', fromEnvironment env "QPS" "5000")]
  | .clientServer => [('s', "localhost:10000".toList), ('c', "1".toList), ('i', "1".toList), ('p', "grpc".toList),
      ('o', []), ('t', fromEnvironment env "TIME_SECONDS" "30")]
  | .tripartite => [('s', "localhost:10000".toList), ('c', "1".toList), ('i', "1".toList), ('l', "1".toList),
      ('p', "grpc".toList)]
  | .stochastic => [('s', "localhost:10000".toList), ('c', "1".toList), ('i', "5".toList), ('p', "grpc".toList)]

/-- A letter is an option with an argument. -/
def HasArgument (s : Script) (c : Char) : Prop := c ∈ (workloadOptions (fun _ => none) s).map (·.1)

/-- The arguments give the options `os`, and then there is `rest`: an option and its argument are one word or
two, and `v` can stand before another option. -/
inductive GivesOptions (s : Script) : List (Char × Str) → List Str → List Str → Prop
  | done {rest} : GivesOptions s [] rest rest
  | two {c v os arguments rest} : HasArgument s c → GivesOptions s os arguments rest →
      GivesOptions s ((c, v) :: os) (['-', c] :: v :: arguments) rest
  | one {c v os arguments rest} : HasArgument s c → v ≠ [] → GivesOptions s os arguments rest →
      GivesOptions s ((c, v) :: os) (('-' :: c :: v) :: arguments) rest
  | verbose {os arguments rest} : GivesOptions s os arguments rest →
      GivesOptions s (('v', []) :: os) (['-', 'v'] :: arguments) rest
  | verboseAnd {c w os arguments rest} : c ≠ '-' → GivesOptions s os (('-' :: c :: w) :: arguments) rest →
      GivesOptions s (('v', []) :: os) (('-' :: 'v' :: c :: w) :: arguments) rest

/-- There are no more options: no more words, or one that is no option, or the one that ends the options. -/
def NoMoreOptions (rest : List Str) : Prop :=
  ∀ word more, rest = word :: more → word.head? ≠ some '-' ∨ word = ['-'] ∨ word = ['-', '-']

/-- The next word is used wrongly, or asks for the usage: an option that the script does not have (this includes
`-h`), or one whose argument is missing. -/
inductive WrongUse (s : Script) : List Str → Prop
  | unknown {c w more} : ¬ HasArgument s c → c ≠ 'v' → (c = '-' → w ≠ []) → WrongUse s (('-' :: c :: w) :: more)
  | unknownDash {w more} : WrongUse s (('-' :: 'v' :: '-' :: w) :: more)
  | missing {c} : HasArgument s c → WrongUse s [['-', c]]

/-- What was asked for with an option: the value that was given last, or else the default. -/
def askedFor (env : Str → Option Str) (s : Script) (os : List (Char × Str)) (c : Char) : Str :=
  match (os.filter fun o => o.1 = c).getLast? with
  | some o => o.2
  | none => ((workloadOptions env s).lookup c).getD []

/-- A text that can stand between double quotes. -/
def Quotable (t : Str) : Prop := '"' ∉ t ∧ '\\' ∉ t ∧ '\n' ∉ t

/-- A text that is one word for the shell. -/
def OneWord (t : Str) : Prop := ' ' ∉ t ∧ '\t' ∉ t ∧ '\n' ∉ t ∧ '*' ∉ t ∧ '?' ∉ t ∧ '[' ∉ t

/-- A number in decimal. -/
def decimal (n : Nat) : Str := (toString n).toList

/-- The test is run as asked: at the sequencer, with the driver, and with the results in the file. -/
structure RunAsAsked (env : Str → Option Str) (s : Script) (os : List (Char × Str)) (call : Call) : Prop where
  sequencer : call.sequencer = askedFor env s os 's'
  protocol : call.protocol = askedFor env s os 'p'
  outfile : HasArgument s 'o' → call.outfile = some (askedFor env s os 'o')

/-- The words that go into the command line and into the text of the test are plain. -/
structure PlainWords (env : Str → Option Str) (s : Script) (os : List (Char × Str)) : Prop where
  sequencer : OneWord (askedFor env s os 's')
  protocol : Quotable (askedFor env s os 'p')

end Distbench.Spec
