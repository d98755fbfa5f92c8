import Verif.Spec.Float
import Verif.Model.Misc
/-!
# Floating-point mathematics

Model of /repo/src/utki/math.hpp for the floating-point types, and of the angle conversions for integer types.

A floating-point number is its sign and the bits without the sign. The arithmetic is the one IEEE-754 prescribes; the rounding of exact results
is a parameter. Simplification: intermediate results have the type of the operands (`FLT_EVAL_METHOD` is 0), and the compiler rounds literals
like the machine rounds results. `long double` is the
80-bit format of the x87, binary128, or the same as `double`.
-/
namespace Utki
namespace MathF

open Spec

/-- A floating-point number: its sign bit and the other bits. -/
structure FloatNum where
  neg : Bool
  mag : Nat
deriving DecidableEq, Repr

/-- The rounding of results that are not negative. -/
abbrev Rounding := BinFmt → ℚ → Nat

variable (R : Rounding) (f : BinFmt)

/-- The bits, without sign, of a not-a-number. -/
def nanMag : Nat := f.inf + 1

/-- `a * b` as IEEE-754 defines it. -/
def fmul (a b : FloatNum) : FloatNum :=
  ⟨a.neg != b.neg,
    if f.inf < a.mag ∨ f.inf < b.mag then nanMag f
    else if a.mag = f.inf ∨ b.mag = f.inf then
      if a.mag = 0 ∨ b.mag = 0 then nanMag f else f.inf
    else R f (f.val a.mag * f.val b.mag)⟩

/-- `a / b` as IEEE-754 defines it. -/
def fdiv (a b : FloatNum) : FloatNum :=
  ⟨a.neg != b.neg,
    if f.inf < a.mag ∨ f.inf < b.mag then nanMag f
    else if a.mag = f.inf then
      if b.mag = f.inf then nanMag f else f.inf
    else if b.mag = f.inf then 0
    else if b.mag = 0 then
      if a.mag = 0 then nanMag f else f.inf
    else R f (f.val a.mag / f.val b.mag)⟩

/-- The conversion of an `int` to the type. -/
def ofInt (n : Int) : FloatNum := ⟨n < 0, R f n.natAbs⟩

/-- The conversion of a `double` to the type. -/
def ofDouble (a : FloatNum) : FloatNum :=
  ⟨a.neg, if binary64.inf < a.mag then nanMag f else if a.mag = binary64.inf then f.inf else R f (binary64.val a.mag)⟩

/-- `a < 0`: false for both zeros and for not-a-number. -/
def fltZero (a : FloatNum) : Bool := a.neg && a.mag != 0 && !(decide (f.inf < a.mag))

/-- `sign`, math.hpp 50-54. -/
def fsign (n : FloatNum) : FloatNum := if fltZero f n then ofInt R f (-1) else ofInt R f 1

/-- `pi`, math.hpp 59. The literal is a `double`. -/
def fpi : FloatNum := ⟨false, R binary64 (314159265358979323846264338327950288 / 10 ^ 35)⟩

/-- `two_pi`, math.hpp 64. -/
def two_pi : FloatNum := fmul R binary64 (ofInt R binary64 2) (fpi R)

/-- `pi_degrees`, math.hpp 69, an `int`. -/
def pi_degrees : Int := 180

/-- `deg_to_rad`, math.hpp 76-80. -/
def deg_to_rad (deg : FloatNum) : FloatNum := fdiv R f (fmul R f (ofDouble R f (fpi R)) deg) (ofInt R f pi_degrees)

/-- `rad_to_deg`, math.hpp 87-91. The `int` is converted to the type of `rad` before the multiplication. -/
def rad_to_deg (rad : FloatNum) : FloatNum := fdiv R f (fmul R f (ofInt R f pi_degrees) rad) (ofDouble R f (fpi R))

/-- `log_2`, math.hpp 96. -/
def log_2 : FloatNum := ⟨false, R binary64 (693147180559945309417232121458 / 10 ^ 30)⟩

/-- `pow2`, math.hpp 103-107. -/
def fpow2 (x : FloatNum) : FloatNum := fmul R f x x
/-- `pow3`, math.hpp 112-116. -/
def fpow3 (x : FloatNum) : FloatNum := fmul R f (fpow2 R f x) x
/-- `pow4`, math.hpp 121-125. -/
def fpow4 (x : FloatNum) : FloatNum := fpow2 R f (fpow2 R f x)
/-- `pow5`, math.hpp 130-134. -/
def fpow5 (x : FloatNum) : FloatNum := fmul R f (fpow4 R f x) x
/-- `pow6`, math.hpp 139-143. -/
def fpow6 (x : FloatNum) : FloatNum := fpow2 R f (fpow3 R f x)

open Misc

/-- The exact result `z` of an operation on operands of type `t`: of the promoted type, where signed overflow is undefined. -/
def arith (t : IntType) (z : Int) : Res Int :=
  if t.promote.signed then if t.promote.Mem z then .ok z else .ub .overflow else .ok (t.promote.conv z)

/-- `deg_to_rad` with an integer type. `number_type(pi)` discards the fraction. math.hpp 76-80. -/
def deg_to_rad_int (t : IntType) (deg : Int) : Res Int := do
  let m ← arith t (t.conv 3 * deg)
  let q ← arith t (m.tdiv (t.conv pi_degrees))
  .ok (t.conv q)

/-- `rad_to_deg` with an integer type. math.hpp 87-91. -/
def rad_to_deg_int (t : IntType) (rad : Int) : Res Int := do
  let m ← arith t (pi_degrees * rad)
  let q ← arith t (m.tdiv (t.conv 3))
  .ok (t.conv q)

end MathF
end Utki
