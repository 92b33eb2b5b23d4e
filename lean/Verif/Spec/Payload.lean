/-
Independent specification of varints (base-128, least significant group first, continuation bit
in the high bit), as in the protobuf wire-format documentation.
-/
namespace Distbench.Spec

/-- The bytes of `bs` are one complete varint: continuation bit on all bytes but the last. -/
def IsVarint : List Nat → Prop
  | [] => False
  | [b] => b < 128
  | b :: bs => 128 ≤ b ∧ IsVarint bs

/-- The number denoted by the 7-bit groups of `bs`. -/
def varintValue : List Nat → Nat
  | [] => 0
  | b :: bs => b % 128 + 128 * varintValue bs

/-- The bytes at positions `a ≤ i < b` of a buffer. -/
def slice (mem : List Nat) (a b : Nat) : List Nat := (mem.drop a).take (b - a)

end Distbench.Spec
