import Verif.Spec.MathFloat
/-! # Evaluation in a wider format -/
namespace Utki.Spec

/-- Numbers of type `f` are computed with in the format `g`: `float` in that of `double` (`FLT_EVAL_METHOD` 1), `float` and `double` in the 80-bit format of
the x87 (`FLT_EVAL_METHOD` 2). -/
def EvaluatedIn (f g : BinFmt) : Prop :=
  f = binary32 ∧ g = binary64 ∨ f = binary32 ∧ g = extended80 ∨ f = binary64 ∧ g = extended80

end Utki.Spec
