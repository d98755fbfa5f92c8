import Verif.Model.Tree
/-!
# The work done by `++` and `--` of traversal iterators, /repo/src/utki/tree.hpp

The same functions as in `Model/Tree.lean`, which also return how much work they did: one unit for the call and one for each time the body of a loop goes
up or down a level. A unit is a bounded number of operations of `std::vector` and of its iterators. That the iterator is the same is part of C97.
-/
namespace Utki.Trav
variable {α : Type}

/-- The loop in `operator++`, tree.hpp 287-295: also the number of levels it goes up. -/
def climbLoopC (f : List (Tree α)) : Nat → Iter → Nat → Res (Iter × Nat)
  | 0, _, _ => .diverge
  | fuel + 1, it, work => do
    if it.iter_stack.length = 1 then return (it, work)
    else
      let top ← back it.iter_stack
      let lst ← back it.list_stack
      let e ← endOf f lst
      let b ← iterEq top e
      if b then
        let ls ← pop it.list_stack
        let is ← pop it.iter_stack
        let up ← back is
        let up ← advance f up 1
        let is ← setBack is up
        climbLoopC f fuel ⟨ls, is⟩ (work + 1)
      else return (it, work)

/-- `iterator_internal::operator++`, tree.hpp 268-298. -/
def incrC (dbg : Bool) (f : List (Tree α)) (it : Iter) : Res (Iter × Nat) := do
  ASSERT dbg (!it.iter_stack.isEmpty)
  ASSERT dbg (it.iter_stack.length == it.list_stack.length)
  let iter ← back it.iter_stack
  if dbg then
    let lst ← back it.list_stack
    let e ← endOf f lst
    let b ← iterEq iter e
    ASSERT dbg (!b)
  let t ← deref f iter
  if !t.children.isEmpty then
    let child := iter.list ++ [iter.idx]
    return (⟨it.list_stack ++ [child], it.iter_stack ++ [beginOf child]⟩, 1)
  else
    let iter ← advance f iter 1
    let is ← setBack it.iter_stack iter
    ASSERT dbg (decide (1 ≤ is.length))
    climbLoopC f (is.length + 1) ⟨it.list_stack, is⟩ 1

/-- The loop in `operator--`, tree.hpp 317-328: also the number of levels it goes down. -/
def descendLoopC (dbg : Bool) (f : List (Tree α)) : Nat → Iter → Nat → Res (Iter × Nat)
  | 0, _, _ => .diverge
  | fuel + 1, it, work => do
    let iter ← back it.iter_stack
    if dbg then
      let lst ← back it.list_stack
      let b ← iterEq iter (beginOf lst)
      ASSERT dbg (!b)
    let iter ← retreat iter
    let is ← setBack it.iter_stack iter
    let t ← deref f iter
    if !t.children.isEmpty then
      let child := iter.list ++ [iter.idx]
      let e ← endOf f child
      descendLoopC dbg f fuel ⟨it.list_stack ++ [child], is ++ [e]⟩ (work + 1)
    else return (⟨it.list_stack, is⟩, work)

/-- `iterator_internal::operator--`, tree.hpp 306-331. -/
def decrC (dbg : Bool) (f : List (Tree α)) (it : Iter) : Res (Iter × Nat) := do
  ASSERT dbg (!it.iter_stack.isEmpty)
  ASSERT dbg (!it.list_stack.isEmpty)
  let iter ← back it.iter_stack
  let lst ← back it.list_stack
  let b ← iterEq iter (beginOf lst)
  if b then
    let is ← pop it.iter_stack
    let ls ← pop it.list_stack
    return (⟨ls, is⟩, 1)
  else descendLoopC dbg f (Tree.heightList f + 1) it 1

end Utki.Trav
