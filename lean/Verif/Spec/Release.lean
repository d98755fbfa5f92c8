import Verif.Core
/-!
# Debug and release builds

Assertions are there to stop a program: a release build is expected to do the same as a debug build in which no assertion fails.
-/
namespace Utki.Spec

variable {α σ : Type}

/-- Neither stopped by an assertion nor undefined. -/
def Fine (r : Res α) : Prop := r ≠ .abort ∧ ∀ u, r ≠ .ub u

/-- If the debug build comes to its end, the release build gives the same. -/
def SameResult (debug release : Res α) : Prop := Fine debug → release = debug

/-- The same for a member function: result and the state of the object are the same. -/
def SameBehaviour (debug release : Meth σ α) : Prop := ∀ s, Fine (debug s).1 → release s = debug s

end Utki.Spec
