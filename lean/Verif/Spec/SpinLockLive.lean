import Verif.Model.SpinLock
/-!
# Infinite executions of a spin lock

`e n` is what happens at time `n`, whatever thread does it.
-/
namespace Utki.Spec
open SpinLock

/-- An execution that never ends: states and events. -/
structure Execution (s : Nat → State) (e : Nat → Event) : Prop where
  start : s 0 = init
  step : ∀ n, Step (s n) (e n) (s (n + 1))

/-- Before time `n` thread `t` has called `lock()` and the call has not returned. -/
def Waiting (e : Nat → Event) (t n : Nat) : Prop := ∃ k < n, e k = .call t ∧ ∀ m, k < m → m < n → e m ≠ .locked t

/-- The scheduler is fair: a thread that stays in `lock()` gets to try again and again. -/
def Fair (e : Nat → Event) : Prop := ∀ t n, (∀ m ≥ n, Waiting e t m) → ∃ m ≥ n, e m = .locked t ∨ e m = .failed t

/-- Whoever gets the lock releases it some time. -/
def Releases (e : Nat → Event) : Prop := ∀ t n, e n = .locked t → ∃ m > n, e m = .unlocked t

end Utki.Spec
