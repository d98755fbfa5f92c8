import Verif.Model.SpanMem
/-!
# Specification: elements shared by spans
-/
namespace Utki.Spec
open SpanMem
variable {α : Type}

/-- The span lies inside its object. A `ptrdiff_t` holds the size of the object. -/
def RefValid (m : Objects α) (r : Ref) : Prop := ∃ l, m[r.obj]? = some l ∧ r.off + r.size ≤ l.length ∧ l.length < 2 ^ 63

/-- The number of the element, in a span of `size` elements, that the expression denotes; none if there is no such element. -/
def element (size : Nat) : Access → Option Nat
  | .index i => if i < size then some i else none
  | .at i => if i < size then some i else none
  | .front => if 0 < size then some 0 else none
  | .back => if 0 < size then some (size - 1) else none
  | .iter k => if k < size then some k else none
  | .riter k => if k < size then some (size - 1 - k) else none

/-- The place of element `i` of the span: which object, and where in it. -/
def placeOf (r : Ref) (i : Nat) : Nat × Nat := (r.obj, r.off + i)

/-- The two spans have no element in common. -/
def Disjoint (r t : Ref) : Prop := ∀ i < r.size, ∀ j < t.size, placeOf r i ≠ placeOf t j

/-- The value last written to a place. -/
def lastWritten (ws : List (Ref × Access × α)) (p : Nat × Nat) : Option α :=
  (ws.reverse.find? fun w => match element w.1.size w.2.1 with | some i => placeOf w.1 i == p | none => false).map (·.2.2)

end Utki.Spec
