import Verif.Model.TreeInit
/-!
# What nested braces mean

A list in braces with elements stands for a node without a value of its own that has these children, a value for a leaf, `{}` for a leaf with the default value.
-/
namespace Utki.Spec
open Utki.TreeInit
variable {α : Type}

/-- What a user writes: values, existing trees and containers of trees, and lists in braces of such. -/
inductive Shape (α : Type) where
  | value (v : α)
  | tree (t : Node α)
  | container (c : List (Node α))
  | list (es : List (Shape α))

mutual
/-- How it is written in C++. -/
def Shape.init : Shape α → Init α
  | .value v => .val v
  | .tree t => .tree t
  | .container c => .cont c
  | .list es => .braces (Shape.inits es)
def Shape.inits : List (Shape α) → List (Init α)
  | [] => []
  | e :: es => e.init :: Shape.inits es
end

mutual
/-- The tree it stands for; `own` is the value of nodes made by lists of children, `dflt` that of the default constructor. -/
def Shape.meaning (own : Option α) (dflt : α) : Shape α → Node α
  | .value v => .node (some v) []
  | .tree t => t
  | .container c => .node own c
  | .list [] => .node (some dflt) []
  | .list (e :: es) => .node own (e.meaning own dflt :: Shape.meanings own dflt es)
def Shape.meanings (own : Option α) (dflt : α) : List (Shape α) → List (Node α)
  | [] => []
  | e :: es => e.meaning own dflt :: Shape.meanings own dflt es
end

/-- A list of just one tree. -/
def Shape.single : List (Shape α) → Bool
  | [.tree _] => true
  | _ => false

mutual
/-- All given trees are fully initialized and no list consists of just one tree. -/
def Shape.Plain : Shape α → Prop
  | .value _ => True
  | .tree t => initialized t = true
  | .container c => initializedList c = true
  | .list es => Shape.single es = false ∧ Shape.AllPlain es
def Shape.AllPlain : List (Shape α) → Prop
  | [] => True
  | e :: es => e.Plain ∧ Shape.AllPlain es
end

/-- A value, a tree, or `{}`: what needs no node without a value of its own. -/
def Shape.Flat : Shape α → Prop
  | .value _ => True
  | .tree _ => True
  | .container _ => False
  | .list es => es = []

/-- A list of just one container. -/
def Shape.singleContainer : List (Shape α) → Bool
  | [.container _] => true
  | _ => false

mutual
/-- A tree with all its values. -/
def filled : Tree α → Node α
  | .node v cs => .node (some v) (filledList cs)
def filledList : List (Tree α) → List (Node α)
  | [] => []
  | t :: ts => filled t :: filledList ts
end

/-- A leaf. -/
def leafOf (v : α) : Node α := .node (some v) []

end Utki.Spec
