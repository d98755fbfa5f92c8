import Verif.Model.Tree
/-! # Specification: which iterators a change of a tree touches -/
namespace Utki.Spec

/-- The path leads through the list of the node with path `q`, at or after its element `i`, or (`all`) at any of its elements. -/
def Touched (q : Path) (i : Nat) (all : Bool) (p : Path) : Prop := ∃ k r, p = q ++ k :: r ∧ (all = true ∨ i ≤ k)

end Utki.Spec
