import Verif.Model.ScopeExit
/-!
# Which sequences of events are right for programs with `scope_exit` objects

Stated on the events only.
-/
namespace Utki
namespace Spec
open ScopeExit (Ev)

/-- The results (non-empty function or not) of the calls of `release()` on the object `i`. -/
def relsOf (i : Nat) : List Ev → List Bool
  | [] => []
  | .released j b :: l => if j = i then b :: relsOf i l else relsOf i l
  | _ :: l => relsOf i l

/-- Only the first `release()` of an object returns its function; `armed`: there was one. -/
def FirstGets (armed : Bool) (rs : List Bool) : Prop := rs = [] ∨ ∃ n, rs = armed :: List.replicate n false

/-- `Scoped live lo hi l`: the events `l` of a piece of program run while the objects `live` exist, in which the objects
`lo, …, hi - 1` were constructed in this order.

* Scopes are properly nested: what happens in the scope of an object is between its `enter` and its `leave`.
* Directly after the end of the scope of an object the function given to it runs, if it is not empty and `release()` was not called;
  otherwise it does not run.
* `release()` is called only on live objects. -/
inductive Scoped : List Nat → Nat → Nat → List Ev → Prop where
  | nil (live : List Nat) (lo : Nat) : Scoped live lo lo []
  | work {live : List Nat} {lo hi : Nat} {l : List Ev} (t : Nat) : Scoped live lo hi l → Scoped live lo hi (.work t :: l)
  | release {live : List Nat} {lo hi i : Nat} {l : List Ev} (b : Bool) : i ∈ live → Scoped live lo hi l →
      Scoped live lo hi (.released i b :: l)
  /-- the program calls what `release()` has returned -/
  | call {live : List Nat} {lo hi i : Nat} {l : List Ev} : i ∈ live → Scoped live lo hi l →
      Scoped live lo hi (.released i true :: .called i :: l)
  | runs {live : List Nat} {lo m m' hi : Nat} {a b c : List Ev} : Scoped (lo :: live) (lo + 1) m a → relsOf lo a = [] →
      Scoped live m m' b → Scoped live m' hi c → Scoped live lo hi (.enter lo true :: a ++ .leave lo :: .ran lo :: b ++ c)
  | silent {live : List Nat} {lo m hi : Nat} {armed : Bool} {a c : List Ev} : Scoped (lo :: live) (lo + 1) m a →
      (armed = false ∨ relsOf lo a ≠ []) → FirstGets armed (relsOf lo a) → Scoped live m hi c →
      Scoped live lo hi (.enter lo armed :: a ++ .leave lo :: c)

end Spec
end Utki
