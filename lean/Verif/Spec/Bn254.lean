import Mathlib.Order.Bounds.Basic
import Mathlib.Algebra.Order.Ring.Nat
/-!
# Specification: sizes of evaluation domains over the BN254 scalar field
-/

namespace Zkenc.Spec

/-- The multiplicative group has a subgroup of this order with the roots the library knows: `2^a · 3^b`,
`a ≤ 28`, `b ≤ 2`. -/
def SmoothSize (N : Nat) : Prop := ∃ a b, a ≤ 28 ∧ b ≤ 2 ∧ N = 2 ^ a * 3 ^ b

/-- The size of the domain for `n` points: the least power of two that is at least `n` while that is at most 2^28,
and beyond that the least smooth size that is at least `n`. -/
def IsDomainSize (n N : Nat) : Prop :=
  (n ≤ 2 ^ 28 ∧ IsLeast {N | (∃ a, N = 2 ^ a) ∧ n ≤ N} N) ∨
  (2 ^ 28 < n ∧ IsLeast {N | SmoothSize N ∧ n ≤ N} N)

end Zkenc.Spec
