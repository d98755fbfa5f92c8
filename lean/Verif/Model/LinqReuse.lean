import Verif.Model.Linq
/-!
# An aggregator of `linq` that is kept and used more than once

linq.hpp 45-89, 216-232. `auto l = utki::linq(v);` and `auto l = utki::linq(std::move(v));`, then any sequence of chains started from `l`, between
which the program may change the variable `v` or `v` may go out of scope. What one chain does is in `Model/Linq.lean`; an aggregator that an
operation returned is one that owns its collection. Simplified: the program changes the variable between the calls only, not in the functions it
passes; copies of the aggregator are not modelled.
-/
namespace Utki
namespace Linq

variable {α : Type}

/-- The variable the aggregator was made from, and the aggregator. -/
structure Agg (α : Type) where
  /-- made from an lvalue: the member `collection` is a const reference to the variable, linq.hpp 57-62 -/
  konst : Bool
  /-- the contents of the variable; `none` when it is gone -/
  var : Option (List α)
  /-- the member `collection`, if it is not a reference -/
  own : List α

/-- `linq(v)` and `linq(std::move(v))`, linq.hpp 216-232, with the constructor, 76-78: a reference is bound, or the collection is moved from the
variable, which leaves a vector empty. -/
def make (konst : Bool) (v : List α) : Agg α := if konst then ⟨true, some v, []⟩ else ⟨false, some [], v⟩

/-- What happens to them. -/
inductive Step (α : Type) : Type 1 where
  /-- `l.where(...)...get()` -/
  | use {γ : Type} (ch : Chain α γ)
  /-- the program changes the variable -/
  | write (g : List α → List α)
  /-- the variable goes out of scope -/
  | leave

/-- The results of the chains. -/
abbrev Results := List ((γ : Type) × List γ)

/-- A chain started from the aggregator, linq.hpp 86-213: the operations read `this->collection`. `none`: the reference dangles. -/
def Agg.use (moved : (α : Type) → α → α) (a : Agg α) {γ : Type} (ch : Chain α γ) : Option (List γ × Agg α) :=
  if a.konst then a.var.bind fun c => let o := run moved ch true c; some (o.ret, { a with var := some o.src })
  else let o := run moved ch false a.own; some (o.ret, { a with own := o.src })

/-- All steps in turn; `none` is undefined behaviour. -/
def steps (moved : (α : Type) → α → α) : List (Step α) → Agg α → Option (Results × Agg α)
  | [], a => some ([], a)
  | .use (γ := γ) ch :: ss, a => (a.use moved ch).bind fun p => (steps moved ss p.2).map fun q => (⟨γ, p.1⟩ :: q.1, q.2)
  | .write g :: ss, a => a.var.bind fun c => steps moved ss { a with var := some (g c) }
  | .leave :: ss, a => steps moved ss { a with var := none }

end Linq
end Utki
