import Verif.Model.Tree
/-!
# Moving a traversal iterator when memory runs out, /repo/src/utki/tree.hpp

`operator++` and `operator--` of the traversal iterators once more, now with `std::vector::push_back` that may throw `std::bad_alloc` and then changes
nothing. The iterator is changed in place, so what an exception leaves behind is visible. Simplified: which calls of `push_back` need memory depends on the
capacities of the two vectors; here any of them may fail.
-/
namespace Utki.Trav
variable {α : Type}

/-- The iterator, and which of the following calls of `push_back` succeed (all of them after the end of the list). -/
structure MSt where
  it : Iter
  plan : List Bool
deriving DecidableEq, Repr

/-- Memory for one more element. -/
def needMemory : Meth MSt Unit := fun s =>
  match s.plan with
  | [] => (.ok (), s)
  | true :: p => (.ok (), { s with plan := p })
  | false :: p => (.throw .bad_alloc, { s with plan := p })

/-- `this->iter_stack.back() = …` and the like: the iterator is changed without asking for memory. -/
def setIt (it : Iter) : Meth MSt Unit := fun s => (.ok (), { s with it := it })

/-- `this->list_stack.push_back(p)`, tree.hpp 279, 323. -/
def pushList (p : Path) : Meth MSt Unit := do
  needMemory
  let s ← Meth.get
  setIt { s.it with list_stack := s.it.list_stack ++ [p] }

/-- `this->iter_stack.push_back(i)`, tree.hpp 280, 324. -/
def pushIter (i : LIter) : Meth MSt Unit := do
  needMemory
  let s ← Meth.get
  setIt { s.it with iter_stack := s.it.iter_stack ++ [i] }

/-- The check in debug builds that `++` is not applied at the end of a list, tree.hpp 274-277. -/
def notEnd (dbg : Bool) (f : List (Tree α)) (it : Iter) (iter : LIter) : Res Unit :=
  if dbg then do
    let lst ← back it.list_stack
    let e ← endOf f lst
    let b ← iterEq iter e
    ASSERT dbg (!b)
  else .ok ()

/-- The part of `operator++` after the children, tree.hpp 283-295; it asks for no memory. -/
def incrLeaf (dbg : Bool) (f : List (Tree α)) (it : Iter) (iter : LIter) : Res Iter := do
  let iter ← advance f iter 1
  let is ← setBack it.iter_stack iter
  ASSERT dbg (decide (1 ≤ is.length))
  climbLoop f (is.length + 1) ⟨it.list_stack, is⟩

/-- `iterator_internal::operator++`, tree.hpp 268-298. -/
def incrM (dbg : Bool) (f : List (Tree α)) : Meth MSt Unit := do
  let s ← Meth.get
  Meth.lift (ASSERT dbg (!s.it.iter_stack.isEmpty))
  Meth.lift (ASSERT dbg (s.it.iter_stack.length == s.it.list_stack.length))
  let iter ← Meth.lift (back s.it.iter_stack)
  Meth.lift (notEnd dbg f s.it iter)
  let t ← Meth.lift (deref f iter)
  if t.children.isEmpty then do
    let it ← Meth.lift (incrLeaf dbg f s.it iter)
    setIt it
  else do
    pushList (iter.list ++ [iter.idx])
    pushIter (beginOf (iter.list ++ [iter.idx]))

/-- The check in debug builds that `--` does not leave its list, tree.hpp 319. -/
def notBegin (dbg : Bool) (it : Iter) (iter : LIter) : Res Unit :=
  if dbg then do
    let lst ← back it.list_stack
    let b ← iterEq iter (beginOf lst)
    ASSERT dbg (!b)
  else .ok ()

/-- The loop in `operator--`, tree.hpp 317-328. -/
def descendLoopM (dbg : Bool) (f : List (Tree α)) : Nat → Meth MSt Unit
  | 0 => Meth.lift .diverge
  | fuel + 1 => do
    let s ← Meth.get
    let iter ← Meth.lift (back s.it.iter_stack)
    Meth.lift (notBegin dbg s.it iter)
    let iter ← Meth.lift (retreat iter)
    let is ← Meth.lift (setBack s.it.iter_stack iter)
    setIt ⟨s.it.list_stack, is⟩
    let t ← Meth.lift (deref f iter)
    if t.children.isEmpty then pure ()
    else do
      let e ← Meth.lift (endOf f (iter.list ++ [iter.idx]))
      pushList (iter.list ++ [iter.idx])
      pushIter e
      descendLoopM dbg f fuel

/-- The part of `operator--` at the beginning of a list, tree.hpp 312-314; it asks for no memory. -/
def decrUp (it : Iter) : Res Iter := do
  let is ← pop it.iter_stack
  let ls ← pop it.list_stack
  return ⟨ls, is⟩

/-- `iterator_internal::operator--`, tree.hpp 306-331. -/
def decrM (dbg : Bool) (f : List (Tree α)) : Meth MSt Unit := do
  let s ← Meth.get
  Meth.lift (ASSERT dbg (!s.it.iter_stack.isEmpty))
  Meth.lift (ASSERT dbg (!s.it.list_stack.isEmpty))
  let iter ← Meth.lift (back s.it.iter_stack)
  let lst ← Meth.lift (back s.it.list_stack)
  let b ← Meth.lift (iterEq iter (beginOf lst))
  if b then do
    let it ← Meth.lift (decrUp s.it)
    setIt it
  else descendLoopM dbg f (Tree.heightList f + 1)

end Utki.Trav
