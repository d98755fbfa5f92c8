import Verif.Core
/-!
# Specification: happens-before and data races of an interleaving

`es` is what the threads of a program do, in the order in which it happens. `thread` gives the thread of an event, `sync x y` says that `y` synchronises with
an earlier `x` (the unlock of a mutex and its next lock, the start of a thread, its end and `join`, …), `conflict x y` that both access the same object
that is not atomic and at least one of them writes it.
-/
namespace Utki.Spec
variable {ε : Type}

/-- `i` happens before `j`. -/
inductive OrderedBefore (thread : ε → Nat) (sync : ε → ε → Prop) (es : List ε) : Nat → Nat → Prop where
  /-- in the same thread, earlier -/
  | program {i j : Nat} {x y : ε} (hij : i < j) (hi : es[i]? = some x) (hj : es[j]? = some y) (h : thread x = thread y) :
      OrderedBefore thread sync es i j
  | sync {i j : Nat} {x y : ε} (hij : i < j) (hi : es[i]? = some x) (hj : es[j]? = some y) (h : sync x y) : OrderedBefore thread sync es i j
  | trans {i j k : Nat} (h1 : OrderedBefore thread sync es i j) (h2 : OrderedBefore thread sync es j k) : OrderedBefore thread sync es i k

/-- No data race: of two conflicting accesses of different threads one happens before the other. (In C++ a data race is undefined behaviour.) -/
def RaceFree (thread : ε → Nat) (sync conflict : ε → ε → Prop) (es : List ε) : Prop :=
  ∀ (i j : Nat) (x y : ε), i < j → es[i]? = some x → es[j]? = some y → thread x ≠ thread y → conflict x y → OrderedBefore thread sync es i j

end Utki.Spec
