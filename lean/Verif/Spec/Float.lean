import Mathlib.Data.Rat.Floor
import Mathlib.Algebra.Order.Field.Power
/-!
# Specification: binary floating-point formats and rounding to nearest

Independent of the model. A sign-less bit pattern of an IEEE-754 binary format is a natural number `k`: the exponent field
followed by the stored significand bits. `val` is the number it denotes; the pattern of infinity stands for the number that
would come next if the exponent range went on, which is how IEEE-754 defines rounding at the upper end.
`Nearest x k` says that `k` is what round-to-nearest-ties-to-even makes of the number `x ≥ 0`.
-/
namespace Utki.Spec

/-- A binary interchange format: number of stored significand bits, exponent bias, exponent field of infinity. -/
structure BinFmt where
  p : Nat
  bias : Nat
  top : Nat
  deriving DecidableEq, Repr

/-- IEEE-754 binary64, the C++ type `double`. -/
def binary64 : BinFmt := ⟨52, 1023, 2047⟩

/-- IEEE-754 binary32, the C++ type `float`. -/
def binary32 : BinFmt := ⟨23, 127, 255⟩

namespace BinFmt

/-- The sign-less bit pattern of infinity. -/
def inf (f : BinFmt) : Nat := f.top * 2 ^ f.p

/-- The number denoted by a sign-less bit pattern: subnormal if the exponent field is 0, otherwise with the hidden bit. -/
def val (f : BinFmt) (k : Nat) : ℚ :=
  if k / 2 ^ f.p = 0 then (k : ℚ) * 2 ^ (1 - f.bias - f.p : ℤ)
  else (2 ^ f.p + (k % 2 ^ f.p : ℕ) : ℚ) * 2 ^ ((k / 2 ^ f.p : ℕ) - f.bias - f.p : ℤ)

/-- `k` is the pattern nearest to `x`; of two equally near ones it is the one with even significand. -/
def Nearest (f : BinFmt) (x : ℚ) (k : Nat) : Prop :=
  k ≤ f.inf ∧ ∀ k' ≤ f.inf, k' ≠ k →
    |x - f.val k| < |x - f.val k'| ∨ (|x - f.val k| = |x - f.val k'| ∧ k % 2 = 0)

end BinFmt
end Utki.Spec
