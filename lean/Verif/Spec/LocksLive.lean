import Verif.Model.SpinLocks
/-!
# Executions that go on for ever, with several locks

`e n` is what happens at time `n`, whatever thread does it; `none`: something that has nothing to do with the locks and the memory that
they protect.
-/
namespace Utki.Spec.Locks
open SpinLocks

/-- An execution that goes on for ever: states and events. -/
structure Endless (guard : Nat → Nat) (may : List Nat → Nat → Prop) (s : Nat → State) (e : Nat → Option Event) : Prop where
  start : s 0 = init
  step : ∀ n x, e n = some x → Step guard may (s n) x (s (n + 1))
  idle : ∀ n, e n = none → s (n + 1) = s n

/-- Before time `n` thread `t` has called `lock()` of lock `k`, and the call has not returned. -/
def InLock (e : Nat → Option Event) (t k n : Nat) : Prop :=
  ∃ i < n, e i = some (.call t k) ∧ ∀ m, i < m → m < n → e m ≠ some (.locked t k)

/-- The scheduler is fair: a thread that stays in `lock()` gets to try again and again. -/
def FairScheduler (e : Nat → Option Event) : Prop :=
  ∀ t k n, (∀ m ≥ n, InLock e t k m) → ∃ m ≥ n, e m = some (.locked t k) ∨ e m = some (.failed t k)

/-- Whoever gets a lock releases it some time, unless it stays in `lock()` of some lock for ever. -/
def ReleasesUnlessStuck (e : Nat → Option Event) : Prop :=
  ∀ t k n, e n = some (.locked t k) → (∃ m > n, e m = some (.unlocked t k)) ∨ (∃ j m, ∀ i ≥ m, InLock e t j i)

end Utki.Spec.Locks
