import Verif.Core
/-!
# Calling a function for each element

What is expected of an operation that calls a function with effects for the elements of a collection.
-/
namespace Utki.Spec

variable {α β κ σ : Type}

/-- Call `f` for each element once, from the first to the last, and collect what it returns; stop at the first call that does not
return. -/
def visit (f : α → Meth σ β) : List α → Meth σ (List β)
  | [] => pure []
  | a :: as => do
    let b ← f a
    let bs ← visit f as
    return b :: bs

/-- Each element with its position, counted from `i`. -/
def numbered (i : Nat) : List α → List (α × Nat)
  | [] => []
  | a :: as => (a, i) :: numbered (i + 1) as

/-- The elements for which the answer was yes. -/
def kept : List α → List Bool → List α
  | a :: as, b :: bs => if b then a :: kept as bs else kept as bs
  | _, _ => []

open Classical in
/-- The elements for which the key `k` was returned. -/
noncomputable def withKey (k : κ) : List α → List κ → List α
  | a :: as, k' :: ks => if k' = k then a :: withKey k as ks else withKey k as ks
  | _, _ => []

/-- The function that answers as `f` does and notes, in its state, the arguments of its calls. -/
def recording (f : α → Meth σ β) : α → Meth (List α × σ) β := fun a (l, s) =>
  let (r, s') := f a s
  (r, (l ++ [a], s'))

end Utki.Spec
