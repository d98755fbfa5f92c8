import Verif.Model.SignalAlloc
import Verif.Spec.TreeAlloc
/-! # Specification of the memory that signals own and ask for -/
namespace Utki.Spec
open TreeAlloc SignalAlloc
variable {γ : Type}

/-- The blocks that a signal owns. -/
def blocksSlots (l : List (Slot γ)) : List Nat := l.flatMap (fun s => s.node :: s.fn.mem)

/-- The callbacks of a signal, in order. -/
def callbacksOf (l : List (Slot γ)) : List γ := l.map (·.fn.val)

/-- How often memory must be requested for a copy: for each callback once and as often as its own copy does. -/
def requestsSlots (l : List (Slot γ)) : Nat := (l.map (fun s => s.fn.mem.length + 1)).sum

/-- How often memory must be requested to assign to a signal with `n` callbacks: no more nodes are needed for the first `n`. -/
def requestsAssign (n : Nat) (l : List (Slot γ)) : Nat := ((l.take n).map (fun s => s.fn.mem.length)).sum + requestsSlots (l.drop n)

end Utki.Spec
