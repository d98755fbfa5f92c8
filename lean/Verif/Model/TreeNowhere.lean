import Verif.Model.Tree
import Verif.Model.TreeMemory
/-!
# Iterators of traversals that point nowhere, /repo/src/utki/tree.hpp 245
-/
namespace Utki
namespace Trav

/-- `iterator_internal() = default`, tree.hpp 245: both vectors are empty. -/
def nowhere : Iter := ⟨[], []⟩

end Trav
end Utki
