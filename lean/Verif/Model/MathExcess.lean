import Verif.Model.MathFloat
/-!
# Floating-point mathematics with excess precision

Model of the functions of /repo/src/utki/math.hpp where `FLT_EVAL_METHOD` is 1 or 2: the operands of every operation are converted to a wider format `g`
in which the operation is done; casts and the return of a function convert to the type of the function, with the format `f`, again. (Some compilers
omit these conversions in certain modes, against the standard; these modes are not modelled.)
-/
namespace Utki
namespace MathF
open Spec

variable (R : Rounding) (f g : BinFmt)

/-- The conversion of a number of the format `a` to the format `b`. -/
def fconv (a b : BinFmt) (x : FloatNum) : FloatNum :=
  ⟨x.neg, if a.inf < x.mag then nanMag b else if x.mag = a.inf then b.inf else R b (a.val x.mag)⟩

/-- A `return` statement of a function with a result of format `f`. -/
def ret (x : FloatNum) : FloatNum := fconv R g f x

/-- An operand of format `f`. -/
def opd (x : FloatNum) : FloatNum := fconv R f g x

/-- `deg_to_rad`, math.hpp 76-80. The casts of the constants are done in the format `f`. -/
def deg_to_rad_x (deg : FloatNum) : FloatNum :=
  ret R f g (fdiv R g (fmul R g (opd R f g (ofDouble R f (fpi R))) (opd R f g deg)) (opd R f g (ofInt R f pi_degrees)))

/-- `rad_to_deg`, math.hpp 87-91. `pi_degrees` is converted to the type of `rad`. -/
def rad_to_deg_x (rad : FloatNum) : FloatNum :=
  ret R f g (fdiv R g (fmul R g (opd R f g (ofInt R f pi_degrees)) (opd R f g rad)) (opd R f g (ofDouble R f (fpi R))))

/-- `x * y`, returned from a function. -/
def mul_x (x y : FloatNum) : FloatNum := ret R f g (fmul R g (opd R f g x) (opd R f g y))

/-- `pow2`, math.hpp 103-107. -/
def fpow2_x (x : FloatNum) : FloatNum := mul_x R f g x x
/-- `pow3`, math.hpp 112-116. -/
def fpow3_x (x : FloatNum) : FloatNum := mul_x R f g (fpow2_x R f g x) x
/-- `pow4`, math.hpp 121-125. -/
def fpow4_x (x : FloatNum) : FloatNum := fpow2_x R f g (fpow2_x R f g x)
/-- `pow5`, math.hpp 130-134. -/
def fpow5_x (x : FloatNum) : FloatNum := mul_x R f g (fpow4_x R f g x) x
/-- `pow6`, math.hpp 139-143. -/
def fpow6_x (x : FloatNum) : FloatNum := fpow2_x R f g (fpow3_x R f g x)

end MathF
end Utki
