import Verif.Model.Tree
/-!
# Copying and changing trees when memory runs out, /repo/src/utki/tree.hpp

Trees with the memory they own: every node has the buffer of its vector of children and the memory of its value. The memory that is in use is a list of numbers of
blocks; a request for memory takes the next number or throws `std::bad_alloc`, and giving back a block that is not in use is undefined.
Simplified: a value owns any number of blocks, copying it asks for as many one after another and gives them back if one of the requests fails; moving a value or
an iterator takes the blocks along and asks for no memory, as it is for the types of the standard library. The container is `std::vector`. Within one failed copy the parts
that were made are destroyed in the reverse order. Where a vector grows its new capacity is any that is large enough.
-/
namespace Utki.TreeAlloc
open Trav
variable {α : Type}

/-- The memory: which of the following requests succeed (all of them after the end of the list), the blocks in use, and the number of the next block. -/
structure Mem where
  plan : List Bool
  live : List Nat
  next : Nat
deriving DecidableEq, Repr

/-- `operator new`. -/
def alloc : Meth Mem Nat := fun s =>
  match s.plan with
  | false :: p => (.throw .bad_alloc, { s with plan := p })
  | p => (.ok s.next, ⟨p.tail, s.next :: s.live, s.next + 1⟩)

/-- `operator delete`. -/
def free (b : Nat) : Meth Mem Unit := fun s =>
  if b ∈ s.live then (.ok (), { s with live := s.live.erase b }) else (.ub .use_after_free, s)

/-- Several blocks are given back. -/
def freeAll : List Nat → Meth Mem Unit
  | [] => pure ()
  | b :: bs => do
    free b
    freeAll bs

/-- Destructors that run when an exception passes. -/
def onFail {σ β : Type} (m : Meth σ β) (cleanup : Meth σ Unit) : Meth σ β := fun s =>
  match m s with
  | (.throw e, s') =>
    match cleanup s' with
    | (.ok _, s'') => (.throw e, s'')
    | (.throw _, s'') => (.terminate, s'')
    | (.ub u, s'') => (.ub u, s'')
    | (.abort, s'') => (.abort, s'')
    | (.terminate, s'') => (.terminate, s'')
    | (.diverge, s'') => (.diverge, s'')
  | r => r

/-- What a node has besides its children: `tree::value`, the memory it owns, the buffer of the vector `tree::children`, and its capacity, tree.hpp 63-71. -/
structure Cell (α : Type) where
  val : α
  mem : List Nat
  buf : Option Nat
  cap : Nat
deriving DecidableEq, Repr

/-- `utki::tree`, tree.hpp 51-146, with the memory it owns. -/
abbrev MTree (α : Type) := Tree (Cell α)

/-- A vector of trees. -/
structure Vec (α : Type) where
  buf : Option Nat
  cap : Nat
  elems : List (MTree α)

/-- `t.children`. -/
def vecOf (t : MTree α) : Vec α := ⟨t.value.buf, t.value.cap, t.children⟩

/-- The node with another vector of children. -/
def withVec (t : MTree α) (v : Vec α) : MTree α := .node { t.value with buf := v.buf, cap := v.cap } v.elems

/-- The copy of a value asks for as much memory as it owns. -/
def copyValue : List Nat → Meth Mem (List Nat)
  | [] => pure []
  | _ :: bs => do
    let b ← alloc
    let r ← onFail (copyValue bs) (free b)
    return b :: r

mutual
/-- `~tree`, tree.hpp 79: first the children, then the value. -/
def destroyTree : MTree α → Meth Mem Unit
  | .node c cs => do
    destroyList cs
    freeAll c.buf.toList
    freeAll c.mem
/-- The elements of a vector are destroyed. -/
def destroyList : List (MTree α) → Meth Mem Unit
  | [] => pure ()
  | t :: ts => do
    destroyTree t
    destroyList ts
end

mutual
/-- `tree(const tree&)`, tree.hpp 73: the value and then the vector are copied; a vector without elements asks for no memory. -/
def copyTree : MTree α → Meth Mem (MTree α)
  | .node c cs => do
    let m ← copyValue c.mem
    onFail
      (if cs.isEmpty then return .node ⟨c.val, m, none, 0⟩ []
       else do
        let b ← alloc
        let es ← onFail (copyList cs) (free b)
        return .node ⟨c.val, m, some b, cs.length⟩ es)
      (freeAll m)
/-- The elements of a vector are copied one after another. -/
def copyList : List (MTree α) → Meth Mem (List (MTree α))
  | [] => pure []
  | t :: ts => do
    let u ← copyTree t
    let us ← onFail (copyList ts) (destroyTree u)
    return u :: us
end

/-- The vector owned by the node with the given path; the roots for the empty path. -/
def Vec.at : Vec α → Path → Option (Vec α)
  | v, [] => some v
  | v, i :: p =>
    match v.elems[i]? with
    | some t => (vecOf t).at p
    | none => none

/-- Change the vector owned by the node with the given path. -/
def Vec.modify (g : Vec α → Vec α) : Vec α → Path → Vec α
  | v, [] => g v
  | v, i :: p =>
    match v.elems[i]? with
    | some t => { v with elems := v.elems.set i (withVec t ((vecOf t).modify g p)) }
    | none => v

/-- A traversal iterator and the buffers of its two vectors, tree.hpp 218-233. -/
structure It where
  it : Iter
  mem : List Nat
deriving DecidableEq, Repr

/-- What the operations work on: the memory, the vector of roots, and the tree that is passed by `value_type&&`. -/
structure St (α : Type) where
  mem : Mem
  roots : Vec α
  arg : MTree α

/-- An operation on the memory only. -/
def inMem {β : Type} (m : Meth Mem β) : Meth (St α) β := fun s =>
  let r := m s.mem
  (r.1, { s with mem := r.2 })

/-- The buffer of the copy of a vector. -/
def copyBuf {β : Type} (v : List β) : Meth Mem (List Nat) :=
  if v.isEmpty then pure [] else do
    let b ← alloc
    return [b]

/-- The copy of an iterator. -/
def copyIt (i : It) : Meth Mem It := do
  let a ← copyBuf i.it.list_stack
  let b ← onFail (copyBuf i.it.iter_stack) (freeAll a)
  return ⟨i.it, a ++ b⟩

/-- A tree after its contents have been moved away. Simplified: the value that is left is the old one, without its memory. -/
def movedFrom (t : MTree α) : MTree α := .node ⟨t.value.val, [], none, 0⟩ []

/-- `list->insert(pos, std::move(t))`, tree.hpp 814, 842: if the capacity does not suffice, a new buffer is requested first and the old one given back at the end.
The elements are moved, which does not throw. -/
def vecInsert (grow : Nat → Nat) (lst : Path) (pos : LIter) : Meth (St α) LIter := do
  let s ← Meth.get
  match s.roots.at lst with
  | none => Meth.lift (.ub .use_after_free)
  | some v =>
    if pos.list = lst ∧ pos.idx ≤ v.elems.length then
      if v.elems.length < v.cap then do
        let s ← Meth.get
        Meth.set { s with roots := s.roots.modify (fun v => { v with elems := v.elems.insertIdx pos.idx s.arg }) lst, arg := movedFrom s.arg }
        return pos
      else do
        let b ← inMem alloc
        let s ← Meth.get
        Meth.set { s with
          roots := s.roots.modify (fun v => ⟨some b, max (grow v.elems.length) (v.elems.length + 1), v.elems.insertIdx pos.idx s.arg⟩) lst
          arg := movedFrom s.arg }
        inMem (freeAll v.buf.toList)
        return pos
    else Meth.lift (.ub .bad_iterator)

/-- `insert(iterator, value_type&&)`, tree.hpp 812-816, and `insert_after(iterator, value_type&&)`, tree.hpp 840-844. The parameter `i` is an object of the function; it is moved to
the result, and destroyed if an exception passes. -/
def insertMove (after : Bool) (grow : Nat → Nat) (i : It) : Meth (St α) It :=
  onFail
    (do
      let iter ← Meth.lift (back i.it.iter_stack)
      let lst ← Meth.lift (back i.it.list_stack)
      let s ← Meth.get
      let pos ← Meth.lift (if after then advance s.roots.elems iter 1 else .ok iter)
      let n ← vecInsert grow lst pos
      let is ← Meth.lift (setBack i.it.iter_stack n)
      return ⟨⟨i.it.list_stack, is⟩, i.mem⟩)
    (inMem (freeAll i.mem))

/-- A call with an object `i` that lives on (`keep`), so that the parameter is a copy of it, or with one that is moved to the parameter. -/
def withIt {β : Type} (keep : Bool) (i : It) (call : It → Meth (St α) β) : Meth (St α) β :=
  if keep then do
    let j ← inMem (copyIt i)
    call j
  else call i

/-- A temporary tree is passed by `value_type&&` and destroyed at the end. -/
def withTemp {β : Type} (t : MTree α) (m : Meth (St α) β) : Meth (St α) β := fun s =>
  let r := m { s with arg := t }
  match destroyTree r.2.arg r.2.mem with
  | (.ok _, mem) => (r.1, { r.2 with arg := s.arg, mem := mem })
  | (.ub u, mem) => (.ub u, { r.2 with arg := s.arg, mem := mem })
  | (_, mem) => (.terminate, { r.2 with arg := s.arg, mem := mem })

/-- `insert(iterator, const value_type&)`, tree.hpp 826-829, and `insert_after(iterator, const value_type&)`, tree.hpp 855-858: the iterator and the tree are copied, in an order
that is not specified (`itFirst`), the tree is passed on as a temporary, and the parameter `i` is destroyed at the end. -/
def insertCopy (after itFirst : Bool) (grow : Nat → Nat) (i : It) (t : MTree α) : Meth (St α) It := do
  let r ← onFail
    (if itFirst then do
      let j ← inMem (copyIt i)
      let u ← onFail (inMem (copyTree t)) (inMem (freeAll j.mem))
      withTemp u (insertMove after grow j)
    else do
      let u ← inMem (copyTree t)
      let j ← onFail (inMem (copyIt i)) (inMem (destroyTree u))
      withTemp u (insertMove after grow j))
    (inMem (freeAll i.mem))
  inMem (freeAll i.mem)
  return r

/-- `list->erase(pos)`, tree.hpp 868: the subtree is destroyed, the elements behind it are moved, the buffer stays. -/
def vecErase (lst : Path) (pos : LIter) : Meth (St α) LIter := do
  let s ← Meth.get
  match s.roots.at lst with
  | none => Meth.lift (.ub .use_after_free)
  | some v =>
    match v.elems[pos.idx]? with
    | some t =>
      if pos.list = lst then do
        Meth.set { s with roots := s.roots.modify (fun v => { v with elems := v.elems.eraseIdx pos.idx }) lst }
        inMem (destroyTree t)
        return pos
      else Meth.lift (.ub .bad_iterator)
    | none => Meth.lift (.ub .bad_iterator)

/-- `erase(iterator)`, tree.hpp 866-876. -/
def eraseM (dbg : Bool) (i : It) : Meth (St α) It :=
  onFail
    (do
      let iter ← Meth.lift (back i.it.iter_stack)
      let lst ← Meth.lift (back i.it.list_stack)
      let n ← vecErase lst iter
      let is ← Meth.lift (setBack i.it.iter_stack n)
      let s ← Meth.get
      let r ← Meth.lift (eraseLoop dbg s.roots.elems (is.length + 1) ⟨i.it.list_stack, is⟩)
      return ⟨r, i.mem⟩)
    (inMem (freeAll i.mem))

end Utki.TreeAlloc
