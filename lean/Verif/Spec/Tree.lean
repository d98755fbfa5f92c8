import Verif.Model.Tree
/-! # Specification of tree traversal -/
namespace Utki.Spec
variable {α : Type}

mutual
/-- The nodes of a tree at path `p` in pre-order, each with its path. -/
def nodesTree (p : Path) : Tree α → List (Path × α)
  | .node v cs => (p, v) :: nodesList p 0 cs
/-- The nodes of the trees of a list whose owner has path `p`; the first tree of the list is child number `i`. -/
def nodesList (p : Path) (i : Nat) : List (Tree α) → List (Path × α)
  | [] => []
  | t :: ts => nodesTree (p ++ [i]) t ++ nodesList p (i + 1) ts
end

/-- All nodes of a forest in pre-order, with their paths. -/
def nodes (f : List (Tree α)) : List (Path × α) := nodesList [] 0 f

/-- The positions of a forest in traversal order: the paths of the nodes, and the end position. -/
def positions (f : List (Tree α)) : List Path := (nodes f).map (·.1) ++ [[f.length]]

mutual
/-- Pre-order with depths: a tree whose root has depth `d`. -/
def outlineTree (d : Nat) : Tree α → List (Nat × α)
  | .node v cs => (d, v) :: outlineList (d + 1) cs
/-- Pre-order with depths: a list of trees whose roots have depth `d`. -/
def outlineList (d : Nat) : List (Tree α) → List (Nat × α)
  | [] => []
  | t :: ts => outlineTree d t ++ outlineList d ts
end

/-- The outline of a forest: value and depth of each node in pre-order. It determines the forest. -/
def outline (f : List (Tree α)) : List (Nat × α) := outlineList 1 f

/-- The tree at a path. -/
def subtree : List (Tree α) → Path → Option (Tree α)
  | _, [] => none
  | f, [i] => f[i]?
  | f, i :: j :: p =>
    match f[i]? with
    | some t => subtree t.children (j :: p)
    | none => none

mutual
/-- Structural equality of trees with respect to an equality of values. -/
inductive SameTree (E : α → α → Prop) : Tree α → Tree α → Prop where
  | node (v w : α) (cs ds : List (Tree α)) : E v w → SameList E cs ds → SameTree E (.node v cs) (.node w ds)
/-- Structural equality of lists of trees. -/
inductive SameList (E : α → α → Prop) : List (Tree α) → List (Tree α) → Prop where
  | nil : SameList E [] []
  | cons (c d : Tree α) (cs ds : List (Tree α)) : SameTree E c d → SameList E cs ds → SameList E (c :: cs) (d :: ds)
end

end Utki.Spec
