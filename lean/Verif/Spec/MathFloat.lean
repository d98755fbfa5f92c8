import Verif.Model.MathFloat
import Mathlib.Analysis.Real.Pi.Bounds
/-!
# Specification: real numbers and floating-point numbers

What it means that a floating-point computation approximates a real number.
-/
namespace Utki.Spec
open MathF

/-- The 80-bit format of the x87, the `long double` of most x86 systems. The bit in front of the binary point, which that format stores, is left out. -/
def extended80 : BinFmt := ⟨63, 16383, 32767⟩

/-- IEEE-754 binary128, the `long double` of other systems. -/
def binary128 : BinFmt := ⟨112, 16383, 32767⟩

/-- The types `double` and `float`. Where `long double` is the same as `double` it is also covered by this. -/
def IsDoubleOrFloat (f : BinFmt) : Prop := f = binary64 ∨ f = binary32

/-- A `long double` with more precision than `double`. -/
def IsLongDouble (f : BinFmt) : Prop := f = extended80 ∨ f = binary128

/-- The floating-point types. -/
def IsFloatType (f : BinFmt) : Prop := IsDoubleOrFloat f ∨ IsLongDouble f

/-- The arithmetic rounds to nearest, ties to even: the default rounding mode. -/
def RoundsToNearest (R : Rounding) : Prop := ∀ f, IsFloatType f → ∀ x : ℚ, 0 ≤ x → f.Nearest x (R f x)

/-- Neither infinite nor not-a-number. -/
def BinFmt.Finite (f : BinFmt) (a : FloatNum) : Prop := a.mag < f.inf

/-- The infinity with the sign of `x`. -/
def BinFmt.IsInfLike (f : BinFmt) (x r : FloatNum) : Prop := r = ⟨x.neg, f.inf⟩

/-- Not-a-number. -/
def BinFmt.IsNaN (f : BinFmt) (a : FloatNum) : Prop := f.inf < a.mag

/-- The real number a finite floating-point number denotes. -/
noncomputable def BinFmt.real (f : BinFmt) (a : FloatNum) : ℝ := if a.neg then -(f.val a.mag : ℝ) else (f.val a.mag : ℝ)

/-- The relative error of one rounding: `2^-53` for double, `2^-24` for float, `2^-64` and `2^-113` for long double. -/
noncomputable def BinFmt.u (f : BinFmt) : ℝ := 2 ^ (-(f.p + 1 : ℤ))

/-- The smallest positive number: `2^-1074` for double, `2^-149` for float. -/
noncomputable def BinFmt.tiny (f : BinFmt) : ℝ := 2 ^ (1 - f.bias - f.p : ℤ)

/-- The first power of two that is too large: `2^1024` for double, `2^128` for float. -/
noncomputable def BinFmt.limit (f : BinFmt) : ℝ := 2 ^ (f.top - f.bias : ℤ)

/-- `a` is the number of the type that is nearest to `x`, and the only one. -/
def BinFmt.IsNearestReal (f : BinFmt) (x : ℝ) (a : FloatNum) : Prop :=
  f.Finite a ∧ ∀ b, f.Finite b → b ≠ a → |x - f.real a| < |x - f.real b|

end Utki.Spec
