import Verif.Spec.Tree
import Verif.Core
/-! # Specification of comparisons as sequences of questions -/
namespace Utki.Spec
variable {σ α β : Type}

/-- The questions are asked in order, up to the first one that is answered with `stop`; the result is its number. An exception ends this. -/
def askUntil (stop : Bool) (q : α → β → Meth σ Bool) : List (α × β) → Meth σ (Option Nat)
  | [] => pure none
  | (a, b) :: l => do
    if (← q a b) = stop then pure (some 0)
    else do
      let k ← askUntil stop q l
      pure (k.map (· + 1))

/-- The nodes of two trees that have the same path, in pre-order: their values, and whether they have as many children. -/
def together (t u : Tree α) : List ((α × α) × Bool) :=
  (nodes [t]).filterMap fun n =>
    match subtree [t] n.1, subtree [u] n.1 with
    | some a, some b => some ((a.value, b.value), decide (a.children.length = b.children.length))
    | _, _ => none

/-- The pairs of values up to the first pair of nodes, inclusive, that differ in the number of children. -/
def upToDifference (l : List ((α × α) × Bool)) : List (α × α) := (l.takeWhile (·.2) ++ (l.dropWhile (·.2)).take 1).map (·.1)

/-- For every index in both lists: the elements, and the elements swapped. -/
def bothWays : List α → List α → List (α × α)
  | a :: l, b :: r => (a, b) :: (b, a) :: bothWays l r
  | _, _ => []

end Utki.Spec
