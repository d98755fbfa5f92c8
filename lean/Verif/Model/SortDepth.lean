import Verif.Model.Sort
/-!
# How deep the calls of `quick_sort` are nested, /repo/src/utki/sort.hpp

`quick_sort` once more, now giving the number of its calls that are active at the same time: the depth of the stack, which is limited, and which compilers limit
for evaluation at compile time, the purpose of `utki::sort` (usually to 512). The calls of `partition`, of the comparator etc. inside of the deepest call
are not counted.
-/
namespace Utki.QSort
variable {α σ : Type} [MovedFrom α]

/-- `sort_internal::quick_sort`, sort.hpp 97-113, returning the number of calls nested. -/
def quick_sort_depth (cmp : α → α → Meth σ Bool) : Nat → Nat → Nat → SM α σ Nat
  | 0, _, _ => Meth.lift .diverge
  | fuel + 1, first, last =>
    let n : Int := (last : Int) - (first : Int)
    if n ≤ 1 then return 1
    else do
      let pivot ← load (first + (n / 2).toNat)
      let middle1 ← partition (fun elem => cmp elem pivot) (fuel + 1) first last
      let middle2 ← partition (fun elem => negated (cmp pivot elem)) (fuel + 1) middle1 last
      let d1 ← quick_sort_depth cmp fuel first middle1
      let d2 ← quick_sort_depth cmp fuel middle2 last
      return 1 + max d1 d2

end Utki.QSort
