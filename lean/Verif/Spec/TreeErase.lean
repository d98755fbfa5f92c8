import Verif.Model.Tree
/-! # Specification: a forest without some nodes -/
namespace Utki.Spec
variable {α : Type}

mutual
/-- A tree without the nodes that satisfy `pred`, and without the nodes below them: nothing if its root is such a node. -/
def pruneTree (pred : α → Bool) : Tree α → List (Tree α)
  | .node v cs => if pred v then [] else [.node v (pruneList pred cs)]
/-- A list of trees without the nodes that satisfy `pred`, and without the nodes below them. -/
def pruneList (pred : α → Bool) : List (Tree α) → List (Tree α)
  | [] => []
  | t :: ts => pruneTree pred t ++ pruneList pred ts
end

end Utki.Spec
