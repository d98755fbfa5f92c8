import Mathlib.Algebra.Order.Field.Power
import Mathlib.Data.Rat.Floor
import Verif.Spec.FloatEnv
/-!
# Specification: decimal numbers with a given number of significant digits

Independent of the model.
-/
namespace Utki.Spec

/-- `x` is what one gets by writing the number `v ≥ 0` with `n` significant digits. The last digit counts units of `10 ^ e`, where `v` has `n`
digits down to this unit; `x` is a multiple of the unit, and at most half a unit away from `v`. -/
def WrittenWith (n : Nat) (v x : ℚ) : Prop :=
  (v = 0 ∧ x = 0) ∨ ∃ (m : ℕ) (e : ℤ), 10 ^ n * 10 ^ e ≤ 10 * v ∧ v < 10 ^ n * 10 ^ e ∧ x = m * 10 ^ e ∧ |v - x| ≤ 10 ^ e / 2

/-- `x` has at most `n` significant digits. -/
def HasDigits (n : Nat) (x : ℚ) : Prop := ∃ (m : ℕ) (e : ℤ), m < 10 ^ n ∧ x = m * 10 ^ e

/-- The number that a pattern with sign bit stands for. -/
def BinFmt.signedVal (f : BinFmt) (b : Nat) : ℚ :=
  if b < (f.top + 1) * 2 ^ f.p then f.val b else - f.val (b - (f.top + 1) * 2 ^ f.p)

/-- The number that a literal denotes. -/
def DecLit.realVal (d : DecLit) : ℚ := if d.neg then - d.absVal else d.absVal

end Utki.Spec
