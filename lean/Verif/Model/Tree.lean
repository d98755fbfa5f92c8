import Verif.Core
/-!
# `utki::tree` and `utki::traversal`, /repo/src/utki/tree.hpp

A forest is a list of trees. A pointer to a children list is represented by the path of its owner (the empty path for the
root list), an iterator into such a list by that path and an index. Operations check every pointer and iterator against the
forest: a pointer to a list that does not exist, dereferencing or advancing an iterator outside of its list, and comparing
iterators of different lists are undefined behaviour. The container is `std::vector`; allocation does not fail.
The constant and non-constant iterator classes are the same template and are not distinguished.
-/
namespace Utki

/-- `utki::tree`, tree.hpp 51-146. -/
inductive Tree (α : Type) where
  | node (value : α) (children : List (Tree α))

namespace Tree
variable {α : Type}

/-- `tree::value`. -/
def value : Tree α → α
  | node v _ => v

/-- `tree::children`. -/
def children : Tree α → List (Tree α)
  | node _ cs => cs

mutual
/-- `tree::operator==(tree)`, tree.hpp 142-145: compare the values, then the children. -/
def eqTree (eq : α → α → Bool) : Tree α → Tree α → Bool
  | node v cs, node w ds => eq v w && (cs.length == ds.length && eqChildren eq cs ds)
/-- `operator==` of vectors of trees, elementwise (the sizes are equal). -/
def eqChildren (eq : α → α → Bool) : List (Tree α) → List (Tree α) → Bool
  | c :: cs, d :: ds => eqTree eq c d && eqChildren eq cs ds
  | _, _ => true
end

/-- `tree::operator==(value)`, tree.hpp 136-140. -/
def eqValue (eq : α → α → Bool) (t : Tree α) (v : α) : Bool := eq t.value v

mutual
/-- Number of nodes on the longest path downwards (bounds the loops over a tree). -/
def height : Tree α → Nat
  | node _ cs => heightList cs + 1
/-- Number of nodes on the longest path downwards from a list of trees. -/
def heightList : List (Tree α) → Nat
  | [] => 0
  | t :: ts => max (height t) (heightList ts)
end

end Tree

/-- Index path. -/
abbrev Path := List Nat

namespace Trav
variable {α : Type}

/-- The children list owned by the node with the given path; the root list for the empty path. -/
def listAt : List (Tree α) → Path → Option (List (Tree α))
  | f, [] => some f
  | f, i :: p =>
    match f[i]? with
    | some t => listAt t.children p
    | none => none

/-- `*list` for a pointer to a list. -/
def getList (f : List (Tree α)) (p : Path) : Res (List (Tree α)) :=
  match listAt f p with
  | some l => .ok l
  | none => .ub .use_after_free

/-- An iterator of a children list. -/
structure LIter where
  list : Path
  idx : Nat
deriving DecidableEq, Repr

/-- `*it`. -/
def deref (f : List (Tree α)) (it : LIter) : Res (Tree α) := do
  let l ← getList f it.list
  rd l it.idx

/-- `std::next(it, n)`. -/
def advance (f : List (Tree α)) (it : LIter) (n : Nat) : Res LIter := do
  let l ← getList f it.list
  if it.idx + n ≤ l.length then .ok { it with idx := it.idx + n } else .ub .bad_iterator

/-- `--it`. -/
def retreat (it : LIter) : Res LIter :=
  if it.idx = 0 then .ub .bad_iterator else .ok { it with idx := it.idx - 1 }

/-- `a == b`. -/
def iterEq (a b : LIter) : Res Bool :=
  if a.list = b.list then .ok (a.idx == b.idx) else .ub .bad_iterator

/-- `a < b`. -/
def iterLt (a b : LIter) : Res Bool :=
  if a.list = b.list then .ok (decide (a.idx < b.idx)) else .ub .bad_iterator

/-- `list->begin()`. -/
def beginOf (p : Path) : LIter := ⟨p, 0⟩

/-- `list->end()`. -/
def endOf (f : List (Tree α)) (p : Path) : Res LIter := do
  let l ← getList f p
  return ⟨p, l.length⟩

/-- `v.back()`. -/
def back {β : Type} (v : List β) : Res β :=
  match v.getLast? with
  | some x => .ok x
  | none => .ub .oob_read

/-- `v.pop_back()`. -/
def pop {β : Type} (v : List β) : Res (List β) :=
  if v.isEmpty then .ub .oob_write else .ok v.dropLast

/-- `v.back() = x`. -/
def setBack {β : Type} (v : List β) (x : β) : Res (List β) :=
  if v.isEmpty then .ub .oob_write else .ok (v.dropLast ++ [x])

/-- `traversal::iterator_internal`, tree.hpp 218-233. The last element of a list is the top of the stack. -/
structure Iter where
  list_stack : List Path
  iter_stack : List LIter
deriving DecidableEq, Repr

/-- The loop in `operator++`, tree.hpp 287-295. -/
def climbLoop (f : List (Tree α)) : Nat → Iter → Res Iter
  | 0, _ => .diverge
  | fuel + 1, it => do
    if it.iter_stack.length = 1 then return it
    else
      let top ← back it.iter_stack
      let lst ← back it.list_stack
      let e ← endOf f lst
      let b ← iterEq top e
      if b then
        let ls ← pop it.list_stack
        let is ← pop it.iter_stack
        let up ← back is
        let up ← advance f up 1
        let is ← setBack is up
        climbLoop f fuel ⟨ls, is⟩
      else return it

/-- `iterator_internal::operator++`, tree.hpp 268-298. -/
def incr (dbg : Bool) (f : List (Tree α)) (it : Iter) : Res Iter := do
  ASSERT dbg (!it.iter_stack.isEmpty)
  ASSERT dbg (it.iter_stack.length == it.list_stack.length)
  let iter ← back it.iter_stack
  if dbg then
    let lst ← back it.list_stack
    let e ← endOf f lst
    let b ← iterEq iter e
    ASSERT dbg (!b)
  let t ← deref f iter
  if !t.children.isEmpty then
    let child := iter.list ++ [iter.idx]
    return ⟨it.list_stack ++ [child], it.iter_stack ++ [beginOf child]⟩
  else
    let iter ← advance f iter 1
    let is ← setBack it.iter_stack iter
    ASSERT dbg (decide (1 ≤ is.length))
    climbLoop f (is.length + 1) ⟨it.list_stack, is⟩

/-- The loop in `operator--`, tree.hpp 317-328. -/
def descendLoop (dbg : Bool) (f : List (Tree α)) : Nat → Iter → Res Iter
  | 0, _ => .diverge
  | fuel + 1, it => do
    let iter ← back it.iter_stack
    if dbg then
      let lst ← back it.list_stack
      let b ← iterEq iter (beginOf lst)
      ASSERT dbg (!b)
    let iter ← retreat iter
    let is ← setBack it.iter_stack iter
    let t ← deref f iter
    if !t.children.isEmpty then
      let child := iter.list ++ [iter.idx]
      let e ← endOf f child
      descendLoop dbg f fuel ⟨it.list_stack ++ [child], is ++ [e]⟩
    else return ⟨it.list_stack, is⟩

/-- `iterator_internal::operator--`, tree.hpp 306-331. -/
def decr (dbg : Bool) (f : List (Tree α)) (it : Iter) : Res Iter := do
  ASSERT dbg (!it.iter_stack.isEmpty)
  ASSERT dbg (!it.list_stack.isEmpty)
  let iter ← back it.iter_stack
  let lst ← back it.list_stack
  let b ← iterEq iter (beginOf lst)
  if b then
    let is ← pop it.iter_stack
    let ls ← pop it.list_stack
    return ⟨ls, is⟩
  else descendLoop dbg f (Tree.heightList f + 1) it

/-- `operator==` of vectors of iterators. -/
def vecEq : List LIter → List LIter → Res Bool
  | [], [] => .ok true
  | a :: as, b :: bs => do
    let e ← iterEq a b
    if e then vecEq as bs else return false
  | _, _ => .ok false

/-- `operator<` of vectors of iterators: `std::lexicographical_compare`. -/
def vecLt : List LIter → List LIter → Res Bool
  | _, [] => .ok false
  | [], _ :: _ => .ok true
  | a :: as, b :: bs => do
    let l ← iterLt a b
    if l then return true
    else
      let g ← iterLt b a
      if g then return false else vecLt as bs

/-- `iterator_internal::operator==`, tree.hpp 338-341: vectors of different sizes are not equal. -/
def eq (a b : Iter) : Res Bool :=
  if a.iter_stack.length = b.iter_stack.length then vecEq a.iter_stack b.iter_stack else .ok false
/-- `iterator_internal::operator!=`, tree.hpp 348-351. -/
def ne (a b : Iter) : Res Bool := do return !(← eq a b)
/-- `iterator_internal::operator<`, tree.hpp 359-362. -/
def lt (a b : Iter) : Res Bool := vecLt a.iter_stack b.iter_stack
/-- `iterator_internal::operator>`, tree.hpp 370-373; of vectors: `b < a`. -/
def gt (a b : Iter) : Res Bool := vecLt b.iter_stack a.iter_stack
/-- `iterator_internal::operator<=`, tree.hpp 381-384; of vectors: `!(b < a)`. -/
def le (a b : Iter) : Res Bool := do return !(← vecLt b.iter_stack a.iter_stack)
/-- `iterator_internal::operator>=`, tree.hpp 392-395; of vectors: `!(a < b)`. -/
def ge (a b : Iter) : Res Bool := do return !(← vecLt a.iter_stack b.iter_stack)

/-- `iterator_internal::operator*` and `operator->`, tree.hpp 401-437. -/
def star (f : List (Tree α)) (it : Iter) : Res (Tree α) := do
  let iter ← back it.iter_stack
  deref f iter

/-- The loop of `index()`, tree.hpp 449-451: `std::distance(list_stack[i]->begin(), iter_stack[i])` for each level. -/
def indexLoop : List Path → List LIter → Res (List Nat)
  | _, [] => .ok []
  | [], _ :: _ => .ub .oob_read
  | l :: ls, i :: is =>
    if l = i.list then do
      let rest ← indexLoop ls is
      return i.idx :: rest
    else .ub .bad_iterator

/-- `iterator_internal::index`, tree.hpp 445-453. -/
def index (dbg : Bool) (it : Iter) : Res (List Nat) := do
  ASSERT dbg (it.iter_stack.length == it.list_stack.length)
  indexLoop it.list_stack it.iter_stack

/-- `iterator_internal::depth`, tree.hpp 462-465. -/
def depth (it : Iter) : Nat := it.iter_stack.length

/-- `iterator_internal::at_level`, tree.hpp 473-491: `noexcept`, so the exception of `vector::at` terminates. -/
def at_level (f : List (Tree α)) (it : Iter) (d : Nat) : Res (Tree α) :=
  match it.iter_stack[d]? with
  | some iter => deref f iter
  | none => .terminate

/-- `iterator_internal::is_last_child`, tree.hpp 498-505. -/
def is_last_child (f : List (Tree α)) (it : Iter) : Res Bool := do
  let iter ← back it.iter_stack
  let lst ← back it.list_stack
  let e ← endOf f lst
  let b ← iterEq iter e
  if b then return false
  else
    let n ← advance f iter 1
    iterEq n e

/-- The loop of `make_iterator_internal`, tree.hpp 542-550; `list` and `iter` are the loop variables. -/
def makeLoop (f : List (Tree α)) : List Nat → Path → LIter → Iter → Res Iter
  | [], _, _, ret => .ok ret
  | i :: rest, list, iter, ret => do
    let ls := ret.list_stack ++ [list]
    let l ← getList f list
    if i ≥ l.length then .throw .out_of_range
    else
      let n ← advance f iter i
      let is := ret.iter_stack ++ [n]
      let list := n.list ++ [n.idx]
      makeLoop f rest list (beginOf list) ⟨ls, is⟩

/-- `make_iterator` and `make_const_iterator`, tree.hpp 534-614. -/
def make_iterator (f : List (Tree α)) (idx : List Nat) : Res Iter := makeLoop f idx [] (beginOf []) ⟨[], []⟩

/-- The loop of `is_valid`, tree.hpp 630-636. -/
def validLoop (f : List (Tree α)) : List Nat → Path → Res Bool
  | [], _ => .ok true
  | i :: rest, li => do
    let l ← getList f li
    if i ≥ l.length then return false else validLoop f rest (li ++ [i])

/-- `is_valid`, tree.hpp 624-666. -/
def is_valid (f : List (Tree α)) (idx : List Nat) : Res Bool :=
  if idx.isEmpty then .ok false else validLoop f idx []

/-- `operator[]`, tree.hpp 673-730. -/
def at_index (dbg : Bool) (f : List (Tree α)) (idx : List Nat) : Res (Tree α) := do
  if dbg then
    let v ← is_valid f idx
    ASSERT dbg v
  let it ← make_iterator f idx
  star f it

/-- `begin()` and `cbegin()`, tree.hpp 736-748. -/
def begin_ : Iter := ⟨[[]], [beginOf []]⟩
/-- `end()` and `cend()`, tree.hpp 754-766. -/
def end_ (f : List (Tree α)) : Iter := ⟨[[]], [⟨[], f.length⟩]⟩

/-- Replace the list owned by the node with the given path. -/
def modify (g : List (Tree α) → List (Tree α)) : List (Tree α) → Path → List (Tree α)
  | f, [] => g f
  | f, i :: p =>
    match f[i]? with
    | some t => f.set i (.node t.value (modify g t.children p))
    | none => f

/-- `list->insert(it, t)`: the iterator must belong to the list. -/
def listInsert (f : List (Tree α)) (lst : Path) (it : LIter) (t : Tree α) : Res (List (Tree α) × LIter) := do
  let l ← getList f lst
  if it.list = lst ∧ it.idx ≤ l.length then .ok (modify (fun l => l.insertIdx it.idx t) f lst, it) else .ub .bad_iterator

/-- `list->erase(it)`: the iterator must belong to the list and be dereferenceable. -/
def listErase (f : List (Tree α)) (lst : Path) (it : LIter) : Res (List (Tree α) × LIter) := do
  let l ← getList f lst
  if it.list = lst ∧ it.idx < l.length then .ok (modify (fun l => l.eraseIdx it.idx) f lst, it) else .ub .bad_iterator

/-- `insert`, tree.hpp 812-829. -/
def insert (f : List (Tree α)) (it : Iter) (t : Tree α) : Res (List (Tree α) × Iter) := do
  let iter ← back it.iter_stack
  let lst ← back it.list_stack
  let (f', n) ← listInsert f lst iter t
  let is ← setBack it.iter_stack n
  return (f', ⟨it.list_stack, is⟩)

/-- `insert_after`, tree.hpp 840-858. -/
def insert_after (f : List (Tree α)) (it : Iter) (t : Tree α) : Res (List (Tree α) × Iter) := do
  let iter ← back it.iter_stack
  let lst ← back it.list_stack
  let pos ← advance f iter 1
  let (f', n) ← listInsert f lst pos t
  let is ← setBack it.iter_stack n
  return (f', ⟨it.list_stack, is⟩)

/-- The loop of `erase`, tree.hpp 869-874. -/
def eraseLoop (dbg : Bool) (f : List (Tree α)) : Nat → Iter → Res Iter
  | 0, _ => .diverge
  | fuel + 1, it => do
    if it.iter_stack.length > 1 then
      let top ← back it.iter_stack
      let lst ← back it.list_stack
      let e ← endOf f lst
      let b ← iterEq top e
      if b then
        let ls ← pop it.list_stack
        let is ← pop it.iter_stack
        ASSERT dbg (is.length == ls.length)
        let up ← back is
        let up ← advance f up 1
        let is ← setBack is up
        eraseLoop dbg f fuel ⟨ls, is⟩
      else return it
    else return it

/-- `erase`, tree.hpp 866-876. -/
def erase (dbg : Bool) (f : List (Tree α)) (it : Iter) : Res (List (Tree α) × Iter) := do
  let iter ← back it.iter_stack
  let lst ← back it.list_stack
  let (f', n) ← listErase f lst iter
  let is ← setBack it.iter_stack n
  let r ← eraseLoop dbg f' (is.length + 1) ⟨it.list_stack, is⟩
  return (f', r)

end Trav
end Utki
