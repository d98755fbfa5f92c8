import Verif.Spec.TreeAlloc
import Verif.Model.MakeString
/-! # Specification of `make_string` with lists of arguments and memory -/
namespace Utki.Spec
open TreeAlloc MakeString

/-- Which lists of arguments are started when a call begins or ends, and that no memory is in use but `blocks`. -/
structure Tidy (w : W) (args cur : VaList) (blocks : List Nat) : Prop where
  args : w.args = args
  cur : w.cur = cur
  mem : InUse w.mem blocks

/-- How a call may end that would end with `plain` if there were memory without limit: with `args`/`cur` as the states of the lists of arguments after a return or an exception. Either a request for memory
fails and `std::bad_alloc` is thrown; or it ends like `plain`. The string returned owns its memory and an exception leaves no memory in use. -/
def EndsLike (out : Res (List Byte × StrMem) × W) (plain : Res (List Byte)) (mayFail : Prop) (onReturn onThrow : VaList) (others : List Nat) : Prop :=
  (out.1 = .throw .bad_alloc ∧ mayFail ∧ Tidy out.2 onThrow .ended others) ∨
  match plain with
  | .ok t => ∃ r, out.1 = .ok (t, r) ∧ Tidy out.2 onReturn .ended (r.blk.toList ++ others)
  | .throw e => out.1 = .throw e ∧ Tidy out.2 onThrow .ended others
  | .ub u => out.1 = .ub u
  | .abort => out.1 = .abort
  | .terminate => out.1 = .terminate
  | .diverge => out.1 = .diverge

end Utki.Spec
