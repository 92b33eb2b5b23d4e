import Verif.Model.Commands
import Verif.Spec.Payload
import Verif.Spec.Sequencer

/-! Specification of what the commands of `distbench` do with files. -/

namespace Distbench.Spec
open Sequencer

/-- The bytes of an ASCII text. -/
def bytesOf (text : String) : List Nat := text.toList.map Char.toNat

/-- A part of the text format: a file of comments, each ending with its line, and of `n` empty
tests. -/
inductive SaysTests : List Nat → Nat → Prop
  | done : SaysTests [] 0
  | comment {line rest n} : (∀ b ∈ line, b ≠ 10) → SaysTests rest n →
      SaysTests (bytesOf "#" ++ line ++ bytesOf "\n" ++ rest) n
  | test {rest n} : SaysTests rest n → SaysTests (bytesOf "tests{}" ++ rest) (n + 1)

/-- A file that begins with the letter t, or is ASCII, begins with # and has no $ in it. -/
def StartsLikeText (bytes : List Nat) : Prop :=
  (∃ rest, bytes = bytesOf "t" ++ rest) ∨
  ∃ rest, bytes = bytesOf "#" ++ rest ∧ ∀ b ∈ rest, b < 128 ∧ b ≠ '$'.toNat

/-- A number in the wire format of at most 5 bytes. -/
def WireNumber (bytes : List Nat) (n : Nat) : Prop :=
  IsVarint bytes ∧ varintValue bytes = n ∧ bytes.length ≤ 5

/-- The binary form of a test sequence with tests and settings in the given binary forms: field 1
for each test, field 2 for settings, in any order. -/
inductive BinaryForm : List (List Nat) → List (List Nat) → List Nat → Prop
  | done : BinaryForm [] [] []
  | test {size contents tests settings bytes} : WireNumber size contents.length →
      contents.length ≤ 2000000000 → BinaryForm tests settings bytes →
      BinaryForm (contents :: tests) settings (10 :: (size ++ contents ++ bytes))
  | setting {size contents tests settings bytes} : WireNumber size contents.length →
      contents.length ≤ 2000000000 → BinaryForm tests settings bytes →
      BinaryForm tests (contents :: settings) (18 :: (size ++ contents ++ bytes))

/-- Every answer without an error is one that the test sequencer gave to a call with the tests that
were sent, in some history of calls.  `call` says how the tests of a sequence turn out. -/
def FromSequencer (call : List (Map Str) → Call) (answer : List (Map Str) → Int → Except Str (List TestResult)) :
    Prop :=
  ∀ sent deadline results, answer sent deadline = .ok results →
    (call sent).tests = sent.length ∧
    ∃ (prog : List Call) (s : Calls) (i : Nat) (c : CallState) (e : Ended), CallRun prog s ∧ s.calls[i]? = some c ∧ prog[i]? = some (call sent) ∧
      c.place = .returned e ∧ e.error = none ∧ e.results = results

/-- The tests that are sent are those of the file, except for their timeouts. -/
def SameButTimeouts (tests sent : List (Map Str)) : Prop :=
  sent.length = tests.length ∧
  ∀ (i : Nat) test sentTest, tests[i]? = some test → sent[i]? = some sentTest →
    ∀ name, name ≠ "test_timeout".toList → sentTest.find name = test.find name

/-- A file contains some text. -/
def Contains (file text : List Nat) : Prop := ∃ before after, file = before ++ text ++ after

end Distbench.Spec
