import Verif.Spec.TreeAlloc
import Verif.Model.TreeIterAlloc
/-! # Specification of operations that either succeed or throw `std::bad_alloc` -/
namespace Utki.Spec
open TreeAlloc

/-- The blocks that an iterator owns. -/
def blocksIt (i : BIt) : List Nat := i.lists.blk.toList ++ i.iters.blk.toList

/-- How an operation may end that would end with `plain` if there were memory without limit. Either a request for memory fails, `std::bad_alloc` is thrown and the blocks in use are the others, as before;
or it ends with `plain`, a result owns its blocks and nothing else is in use but the others, an exception leaves no blocks but the others. -/
def SameOrBadAlloc {β γ : Type} (op : Meth Mem β) (plain : Res γ) (view : β → γ) (own : β → List Nat) (s : Mem) (others : List Nat) : Prop :=
  (∃ s', op s = (.throw .bad_alloc, s') ∧ false ∈ s.plan ∧ InUse s' others) ∨
  (∃ s', match plain with
    | .ok c => ∃ b, op s = (.ok b, s') ∧ view b = c ∧ InUse s' (own b ++ others)
    | .throw e => op s = (.throw e, s') ∧ InUse s' others
    | .ub u => op s = (.ub u, s')
    | .abort => op s = (.abort, s')
    | .terminate => op s = (.terminate, s')
    | .diverge => op s = (.diverge, s'))

end Utki.Spec
