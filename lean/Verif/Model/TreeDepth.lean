import Verif.Model.TreeAssign
/-!
# How deep calls are nested when trees are copied, destroyed and compared, /repo/src/utki/tree.hpp

The copy constructor, the destructor and the comparison of `tree` call those of the vector of children, which call those of `tree` for each child. Here the number of nested calls the stack has room
for is an argument; when it is used up the outcome is `diverge`. Copy constructor and destructor are `TreeAssign.copyNode` and `TreeAssign.destroyNode`, whose `fuel` is just this number; the
comparison is defined here. The calls of the vector between two calls of `tree` are counted with the latter, since there is a fixed number of them.
-/
namespace Utki.TreeDepth
variable {α : Type}

/-- `std::equal` on two vectors of equal size, given how two trees are compared. -/
def equalList (f : Tree α → Tree α → Res Bool) : List (Tree α) → List (Tree α) → Res Bool
  | c :: cs, d :: ds => do
    if ← f c d then equalList f cs ds else pure false
  | _, _ => pure true

/-- `tree::operator==(const tree&)`, tree.hpp 142-145, with room for a number of nested calls. -/
def compare (eq : α → α → Bool) : Nat → Tree α → Tree α → Res Bool
  | 0, _, _ => .diverge
  | stack + 1, .node v cs, .node w ds =>
    if eq v w then
      if cs.length = ds.length then equalList (compare eq stack) cs ds else pure false
    else pure false

end Utki.TreeDepth
