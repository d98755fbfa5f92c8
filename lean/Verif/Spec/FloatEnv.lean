import Verif.Spec.Float
import Verif.Spec.Decimal
import Verif.Model.FloatFrom
/-!
# Specification: IEEE-754 arithmetic in the current rounding mode

What the code may assume about the floating-point unit it runs on. `Rounded f mode x k` says that the sign-less pattern `k` is what the
rounding mode makes of the number `x ≥ 0`.
-/
namespace Utki.Spec

/-- The rounding modes of `<cfenv>`. -/
inductive RoundMode where
  | nearest | upward | downward | towardZero
  deriving DecidableEq, Repr

/-- The pattern a rounding mode gives for a number that is not negative. -/
def BinFmt.Rounded (f : BinFmt) : RoundMode → ℚ → Nat → Prop
  | .nearest, x, k => f.Nearest x k
  | .upward, x, k => k ≤ f.inf ∧ (x ≤ f.val k ∨ k = f.inf) ∧ ∀ k' < k, f.val k' < x
  | .downward, x, k => k < f.inf ∧ f.val k ≤ x ∧ ∀ k' < f.inf, f.val k' ≤ x → k' ≤ k
  | .towardZero, x, k => k < f.inf ∧ f.val k ≤ x ∧ ∀ k' < f.inf, f.val k' ≤ x → k' ≤ k

/-- The pattern of a number with a sign. The sign bit is the one above the exponent field. -/
def BinFmt.signed (f : BinFmt) (neg : Bool) (k : Nat) : Nat := if neg then (f.top + 1) * 2 ^ f.p + k else k

open FastFloat in
/-- What an operation whose exact result is `x ≥ 0` gives, as a pattern of the type. Normally the exact result is rounded. Where
intermediate results have excess precision the rounding can happen twice; all that is assumed then is that a result that needs no rounding
is not changed. -/
def BinFmt.Computed [Platform] (f : BinFmt) (mode : RoundMode) (x : ℚ) (k : Nat) : Prop :=
  if Platform.excess then ∀ k' < f.inf, f.val k' = x → k = k' else f.Rounded mode x k

open FastFloat in
/-- The format in which sums of numbers of type `float` are compared. -/
def sumFmt [Platform] : BinFmt := if Platform.eval_double then binary64 else binary32

open FastFloat in
/-- The floating-point unit follows IEEE-754 in the given rounding mode. The only exception is the one the code itself names: where the
compiler is clang or the target has 32 bits and the mode is not round-to-nearest, nothing is assumed about the conversion of the integer 0. -/
structure Ieee [Platform] (f : BinFmt) (mode : RoundMode) (u : Fpu) : Prop where
  conv : ∀ n : Nat, n ≠ 0 ∨ (Platform.clang = false ∧ Platform.bits32 = false) ∨ mode = .nearest → f.Computed mode n (u.ofU64 n)
  mul : ∀ x y, x < f.inf → y < f.inf → f.Computed mode (f.val x * f.val y) (u.mul x y)
  div : ∀ x y, x < f.inf → y < f.inf → y ≠ 0 → f.Computed mode (f.val x / f.val y) (u.div x y)
  add32 : Platform.excess = false → ∀ x y, x < binary32.inf → y < binary32.inf →
    sumFmt.Rounded mode (binary32.val x + binary32.val y) (u.add32 x y)
  sub32 : Platform.excess = false → ∀ x y, x < binary32.inf → y < x →
    sumFmt.Rounded mode (binary32.val x - binary32.val y) (u.sub32 x y)

/-- The grammar that belongs to a value of `utki::chars_format`. `hex` stands for what the code does with it: hexadecimal numbers are not
recognised, the text is read as a decimal number without exponent. -/
def grammar : CharsFormat → NumFormat
  | .scientific => .scientific
  | .fixed => .fixed
  | .hex => .fixed
  | .general => .general

end Utki.Spec
