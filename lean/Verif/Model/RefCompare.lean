import Verif.Model.SharedRef
import Verif.Model.UniqueRef
/-!
# Comparison of references

Model of the comparison operators of `shared_ref`, /repo/src/utki/shared_ref.hpp 174-223, and `unique_ref`, /repo/src/utki/unique_ref.hpp 127-177, and
of the `std::set` for which their comments say they are. The operators of the two classes are the same text, so they are modelled once, over the
member `get()` of the class (`SharedRef.get`, `UniqueRef.get`). Objects are numbered as in these models; `less` and `equal` are the operators of the
objects, applied to their present values, and may throw.
-/
namespace Utki
namespace RefCompare

variable {σ : Type}

/-- The body of a function declared `noexcept`: an exception that would leave it ends the program. -/
def noexc {α : Type} (m : Meth σ α) : Meth σ α := fun s =>
  match m s with
  | (.throw _, s') => (.terminate, s')
  | r => r

/-- The conversion operator, shared_ref.hpp 177-180, unique_ref.hpp 131-134. -/
def toObject (get : Nat → Meth σ Nat) (w : Nat) : Meth σ Nat := noexc (get w)

/-- `operator<` of a reference and an object, shared_ref.hpp 189-192, unique_ref.hpp 143-146. -/
def ltObject (get : Nat → Meth σ Nat) (less : Nat → Nat → Res Bool) (w o : Nat) : Meth σ Bool := noexc (do
  let l ← get w
  Meth.lift (less l o))

/-- `r1 < r2` of two references: there is only the operator of a reference and an object, so the right one is converted. -/
def lt (get : Nat → Meth σ Nat) (less : Nat → Nat → Res Bool) (v w : Nat) : Meth σ Bool := do
  let o ← toObject get w
  ltObject get less v o

/-- `operator==` of a reference and an object, shared_ref.hpp 203-206, unique_ref.hpp 157-160. -/
def eqObject (get : Nat → Meth σ Nat) (equal : Nat → Nat → Res Bool) (w o : Nat) : Meth σ Bool := noexc (do
  let l ← get w
  Meth.lift (equal l o))

/-- `operator==` of two references, shared_ref.hpp 217-223, unique_ref.hpp 171-177. -/
def eq (get : Nat → Meth σ Nat) (equal : Nat → Nat → Res Bool) (v w : Nat) : Meth σ Bool := noexc (do
  let l ← get v
  let r ← get w
  Meth.lift (equal l r))

/-- `set.insert(k)` of a `std::set` of references with the default comparator, that is the operator `<` above. A set is represented by its elements in
order. Simplified: the place is searched from the first element on, not down the tree; the references are the variables in the set, so no
copying is shown. -/
def insert (cmp : Nat → Nat → Meth σ Bool) (k : Nat) : List Nat → Meth σ (List Nat)
  | [] => pure [k]
  | x :: l => do
    if ← cmp x k then
      let l' ← insert cmp k l
      pure (x :: l')
    else if ← cmp k x then pure (k :: x :: l)
    else pure (x :: l)

/-- Insertion of several references, one after the other. -/
def insertAll (cmp : Nat → Nat → Meth σ Bool) : List Nat → List Nat → Meth σ (List Nat)
  | [], l => pure l
  | k :: ks, l => do
    let l' ← insert cmp k l
    insertAll cmp ks l'

/-- `set.contains(k)`, searching as `insert` does. -/
def contains (cmp : Nat → Nat → Meth σ Bool) (k : Nat) : List Nat → Meth σ Bool
  | [] => pure false
  | x :: l => do
    if ← cmp x k then contains cmp k l
    else if ← cmp k x then pure false
    else pure true

end RefCompare
end Utki
