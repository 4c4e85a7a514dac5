import Mathlib.Analysis.Real.Sqrt
import Mathlib.Algebra.Order.Round

/-!
# Floating point numbers

What is assumed of the floating point arithmetic of Python (IEEE 754 double precision): the result
of an operation is a double that no other double is nearer to than to the exact result. How ties are
broken is not assumed. Exponents are not limited: overflow (above 2^1023) is not modelled.
-/

namespace SpiNN.Spec

/-- a number with a significand of 53 bits (2^53 itself is 2^52 times two) -/
def IsDouble (y : ℝ) : Prop := ∃ k e : ℤ, |k| ≤ 2 ^ 53 ∧ y = k * (2 : ℝ) ^ e

/-- `y` is a nearest double to the number `x` -/
def Nearest (x y : ℝ) : Prop := IsDouble y ∧ ∀ z, IsDouble z → |x - y| ≤ |x - z|

/-- `fl` rounds to nearest -/
def Rounding (fl : ℝ → ℝ) : Prop := ∀ x, Nearest x (fl x)

end SpiNN.Spec
