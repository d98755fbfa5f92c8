import Verif.Model.TreeAlloc
/-!
# Making iterators and reading indices when memory runs out, /repo/src/utki/tree.hpp

The vectors of an iterator and of an index with their buffers, in the memory of `Model/TreeAlloc`. Simplified: the container is `std::vector`; where a vector grows its new capacity is any that is large
enough; the elements of these vectors are pointers and numbers, so moving them asks for no memory.
-/
namespace Utki.TreeAlloc
open Trav
variable {α : Type}

/-- The buffer, capacity and size of a vector of pointers, iterators or numbers. -/
structure Buf where
  blk : Option Nat
  cap : Nat
  len : Nat
deriving DecidableEq, Repr

/-- A vector without elements. -/
def emptyBuf : Buf := ⟨none, 0, 0⟩

/-- `~vector`. -/
def destroyBuf (v : Buf) : Meth Mem Unit := freeAll v.blk.toList

/-- `v.push_back(x)`: if the capacity does not suffice, a new buffer is requested first and the old one given back at the end. -/
def pushBuf (grow : Nat → Nat) (v : Buf) : Meth Mem Buf :=
  if v.len < v.cap then pure { v with len := v.len + 1 }
  else do
    let b ← alloc
    freeAll v.blk.toList
    pure ⟨some b, max (grow v.len) (v.len + 1), v.len + 1⟩

/-- A traversal iterator with the buffers of its two vectors, tree.hpp 218-233. -/
structure BIt where
  it : Iter
  lists : Buf
  iters : Buf
deriving DecidableEq, Repr

/-- `~iterator_internal`: the members are destroyed in the reverse order. -/
def destroyBIt (i : BIt) : Meth Mem Unit := do
  destroyBuf i.iters
  destroyBuf i.lists

/-- `iterator_internal(roots, i)`, tree.hpp 238-242: when an exception leaves the constructor its members are destroyed. -/
def newIt (grow : Nat → Nat) (i : LIter) : Meth Mem BIt := do
  let ls ← onFail (pushBuf grow emptyBuf) (destroyBIt ⟨⟨[], []⟩, emptyBuf, emptyBuf⟩)
  let is ← onFail (pushBuf grow emptyBuf) (destroyBIt ⟨⟨[[]], []⟩, ls, emptyBuf⟩)
  return ⟨⟨[[]], [i]⟩, ls, is⟩

/-- `begin()` and `cbegin()`, tree.hpp 736-748. -/
def beginM (grow : Nat → Nat) : Meth Mem BIt := newIt grow (beginOf [])

/-- `end()` and `cend()`, tree.hpp 754-766. -/
def endM (grow : Nat → Nat) (f : List (Tree α)) : Meth Mem BIt := newIt grow ⟨[], f.length⟩

/-- The loop of `make_iterator_internal`, tree.hpp 542-550; `list` and `iter` are the loop variables. When an exception leaves the function `ret` is destroyed. -/
def makeLoopM (grow : Nat → Nat) (f : List (Tree α)) : List Nat → Path → LIter → BIt → Meth Mem BIt
  | [], _, _, ret => pure ret
  | i :: rest, list, iter, ret => do
    let lb ← onFail (pushBuf grow ret.lists) (destroyBIt ret)
    let ls := ret.it.list_stack ++ [list]
    let l ← Meth.lift (getList f list)
    if i ≥ l.length then onFail (Meth.throw .out_of_range) (destroyBIt ⟨⟨ls, ret.it.iter_stack⟩, lb, ret.iters⟩)
    else do
      let n ← Meth.lift (advance f iter i)
      let ib ← onFail (pushBuf grow ret.iters) (destroyBIt ⟨⟨ls, ret.it.iter_stack⟩, lb, ret.iters⟩)
      let is := ret.it.iter_stack ++ [n]
      let list := n.list ++ [n.idx]
      makeLoopM grow f rest list (beginOf list) ⟨⟨ls, is⟩, lb, ib⟩

/-- `make_iterator(utki::span)`, tree.hpp 534-580, and with a vector, which is passed on as a span. -/
def makeM (grow : Nat → Nat) (f : List (Tree α)) (idx : List Nat) : Meth Mem BIt := makeLoopM grow f idx [] (beginOf []) ⟨⟨[], []⟩, emptyBuf, emptyBuf⟩

/-- A function that is given `std::vector<size_t>(index)` for an `std::initializer_list`, tree.hpp 582-586: a temporary that is destroyed at the end. -/
def withIndex {β : Type} (idx : List Nat) (call : Meth Mem β) : Meth Mem β := do
  let b ← copyBuf idx
  let r ← onFail call (freeAll b)
  freeAll b
  return r

/-- `operator[](utki::span)`, tree.hpp 673-690: the iterator is a temporary. -/
def atM (dbg : Bool) (grow : Nat → Nat) (f : List (Tree α)) (idx : List Nat) : Meth Mem (Tree α) := do
  if dbg then do
    let v ← Meth.lift (is_valid f idx)
    Meth.lift (ASSERT dbg v)
  let i ← makeM grow f idx
  let t ← Meth.lift (star f i.it)
  destroyBIt i
  return t

/-- The loop of `index()`, tree.hpp 449-451. When an exception leaves the function the vector is destroyed. -/
def indexLoopM (grow : Nat → Nat) : List Path → List LIter → Buf → Meth Mem (List Nat × Buf)
  | _, [], v => pure ([], v)
  | [], _ :: _, _ => Meth.lift (.ub .oob_read)
  | l :: ls, i :: is, v =>
    if l = i.list then do
      let v' ← onFail (pushBuf grow v) (destroyBuf v)
      let r ← indexLoopM grow ls is v'
      return (i.idx :: r.1, r.2)
    else Meth.lift (.ub .bad_iterator)

/-- `iterator_internal::index`, tree.hpp 445-453. -/
def indexM (dbg : Bool) (grow : Nat → Nat) (it : Iter) : Meth Mem (List Nat × Buf) := do
  Meth.lift (ASSERT dbg (it.iter_stack.length == it.list_stack.length))
  indexLoopM grow it.list_stack it.iter_stack emptyBuf

end Utki.TreeAlloc
