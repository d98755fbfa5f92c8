import Verif.Model.Tree
/-!
# Which iterators survive changes of a tree, /repo/src/utki/tree.hpp

In `Model/Tree.lean` a pointer to a list of nodes is the path of its owner, so that pointers and iterators never dangle as long as there is some list with
that path. Here pointers and iterators are identities of places in vectors, and follow the rules of `std::vector`: inserting into a vector invalidates the
iterators, pointers and references at and after the place of insertion, and all of them if the elements are moved to a new buffer; erasing
invalidates those at and after the erased element. The vectors in elements that are moved to another place keep their own buffers, so that iterators into
those vectors stay valid, but not pointers to the vectors. Simplified: an end iterator of such a vector stays valid too (the standard leaves that open).
Using an invalid iterator or pointer in any way is undefined.
-/
namespace Utki.TreeAddr
open Trav (LIter)
variable {α : Type}

/-- The identity of a place in a vector (before an element or at the end): when it came to be, and where. No two places ever have the same. -/
structure Tok where
  era : Nat
  place : LIter
deriving DecidableEq, Repr

/-- The forest in memory: the identities of the places of all lists, and the number of changes so far. -/
structure Mem (α : Type) where
  forest : List (Tree α)
  tok : LIter → Tok
  era : Nat

/-- A forest at first. -/
def fresh (f : List (Tree α)) : Mem α := ⟨f, fun x => ⟨0, x⟩, 1⟩

/-- A `list_type*`, tree.hpp 226: the address of the list of roots or of the member `children` of the node at a place. -/
inductive LPtr where
  | roots
  | childrenOf (node : Tok)
deriving DecidableEq, Repr

/-- `traversal::iterator_internal`, tree.hpp 218-233. -/
structure AIter where
  list_stack : List LPtr
  iter_stack : List Tok
deriving DecidableEq, Repr

mutual
/-- The places in the lists below a node with path `p`. -/
def placesTree (p : Path) : Tree α → List LIter
  | .node _ cs => placesList p 0 cs
/-- The places in a list whose owner has path `p`, from number `i` on, and in the lists below. -/
def placesList (p : Path) (i : Nat) : List (Tree α) → List LIter
  | [] => [⟨p, i⟩]
  | t :: ts => ⟨p, i⟩ :: (placesTree (p ++ [i]) t ++ placesList p (i + 1) ts)
end

/-- All places in all lists of a forest. -/
def places (f : List (Tree α)) : List LIter := placesList [] 0 f

/-- Where an iterator points to; it has to be valid. -/
def locate (m : Mem α) (t : Tok) : Res LIter :=
  match (places m.forest).find? (fun x => m.tok x == t) with
  | some x => .ok x
  | none => .ub .bad_iterator

/-- The list a pointer points to: the node it belongs to has to be where it was. -/
def listOf (m : Mem α) : LPtr → Res Path
  | .roots => .ok []
  | .childrenOf t => do
    let x ← locate m t
    let _ ← Trav.deref m.forest x
    return x.list ++ [x.idx]

/-- `*it`. -/
def deref (m : Mem α) (t : Tok) : Res (Tree α) := do
  let x ← locate m t
  Trav.deref m.forest x

/-- `std::next(it, n)`. -/
def advance (m : Mem α) (t : Tok) (n : Nat) : Res Tok := do
  let x ← locate m t
  let y ← Trav.advance m.forest x n
  return m.tok y

/-- `--it`. -/
def retreat (m : Mem α) (t : Tok) : Res Tok := do
  let x ← locate m t
  let y ← Trav.retreat x
  return m.tok y

/-- `a == b`. -/
def iterEq (m : Mem α) (a b : Tok) : Res Bool := do
  let x ← locate m a
  let y ← locate m b
  Trav.iterEq x y

/-- `a < b`. -/
def iterLt (m : Mem α) (a b : Tok) : Res Bool := do
  let x ← locate m a
  let y ← locate m b
  Trav.iterLt x y

/-- `list->begin()`. -/
def beginOf (m : Mem α) (lst : LPtr) : Res Tok := do
  let p ← listOf m lst
  return m.tok (Trav.beginOf p)

/-- `list->end()`. -/
def endOf (m : Mem α) (lst : LPtr) : Res Tok := do
  let p ← listOf m lst
  let e ← Trav.endOf m.forest p
  return m.tok e

open Trav (back pop setBack)

/-- The loop in `operator++`, tree.hpp 287-295. -/
def climbLoop (m : Mem α) : Nat → AIter → Res AIter
  | 0, _ => .diverge
  | fuel + 1, it => do
    if it.iter_stack.length = 1 then return it
    else
      let top ← back it.iter_stack
      let lst ← back it.list_stack
      let e ← endOf m lst
      let b ← iterEq m top e
      if b then
        let ls ← pop it.list_stack
        let is ← pop it.iter_stack
        let up ← back is
        let up ← advance m up 1
        let is ← setBack is up
        climbLoop m fuel ⟨ls, is⟩
      else return it

/-- The check in debug builds that `++` is not applied at the end of a list, tree.hpp 274-277. -/
def notEnd (dbg : Bool) (m : Mem α) (it : AIter) (iter : Tok) : Res Unit :=
  if dbg then do
    let lst ← back it.list_stack
    let e ← endOf m lst
    let b ← iterEq m iter e
    ASSERT dbg (!b)
  else .ok ()

/-- `iterator_internal::operator++`, tree.hpp 268-298. -/
def incr (dbg : Bool) (m : Mem α) (it : AIter) : Res AIter := do
  ASSERT dbg (!it.iter_stack.isEmpty)
  ASSERT dbg (it.iter_stack.length == it.list_stack.length)
  let iter ← back it.iter_stack
  notEnd dbg m it iter
  let t ← deref m iter
  if !t.children.isEmpty then
    let b ← beginOf m (.childrenOf iter)
    return ⟨it.list_stack ++ [.childrenOf iter], it.iter_stack ++ [b]⟩
  else
    let iter ← advance m iter 1
    let is ← setBack it.iter_stack iter
    ASSERT dbg (decide (1 ≤ is.length))
    climbLoop m (is.length + 1) ⟨it.list_stack, is⟩

/-- The check in debug builds that `--` does not leave its list, tree.hpp 319. -/
def notBegin (dbg : Bool) (m : Mem α) (it : AIter) (iter : Tok) : Res Unit :=
  if dbg then do
    let lst ← back it.list_stack
    let e ← beginOf m lst
    let b ← iterEq m iter e
    ASSERT dbg (!b)
  else .ok ()

/-- The loop in `operator--`, tree.hpp 317-328. -/
def descendLoop (dbg : Bool) (m : Mem α) : Nat → AIter → Res AIter
  | 0, _ => .diverge
  | fuel + 1, it => do
    let iter ← back it.iter_stack
    notBegin dbg m it iter
    let iter ← retreat m iter
    let is ← setBack it.iter_stack iter
    let t ← deref m iter
    if !t.children.isEmpty then
      let e ← endOf m (.childrenOf iter)
      descendLoop dbg m fuel ⟨it.list_stack ++ [.childrenOf iter], is ++ [e]⟩
    else return ⟨it.list_stack, is⟩

/-- `iterator_internal::operator--`, tree.hpp 306-331. -/
def decr (dbg : Bool) (m : Mem α) (it : AIter) : Res AIter := do
  ASSERT dbg (!it.iter_stack.isEmpty)
  ASSERT dbg (!it.list_stack.isEmpty)
  let iter ← back it.iter_stack
  let lst ← back it.list_stack
  let e ← beginOf m lst
  let b ← iterEq m iter e
  if b then
    let is ← pop it.iter_stack
    let ls ← pop it.list_stack
    return ⟨ls, is⟩
  else descendLoop dbg m (Tree.heightList m.forest + 1) it

/-- `iterator_internal::operator*` and `operator->`, tree.hpp 401-437. -/
def star (m : Mem α) (it : AIter) : Res (Tree α) := do
  let iter ← back it.iter_stack
  deref m iter

/-- `iterator_internal::at_level`, tree.hpp 473-491: `noexcept`, so the exception of `vector::at` terminates. -/
def at_level (m : Mem α) (it : AIter) (d : Nat) : Res (Tree α) :=
  match it.iter_stack[d]? with
  | some iter => deref m iter
  | none => .terminate

/-- `operator==` of vectors of iterators of the same size. -/
def vecEq (m : Mem α) : List Tok → List Tok → Res Bool
  | [], [] => .ok true
  | a :: as, b :: bs => do
    let e ← iterEq m a b
    if e then vecEq m as bs else return false
  | _, _ => .ok false

/-- `iterator_internal::operator==`, tree.hpp 338-341: vectors of different sizes are not equal. -/
def eq (m : Mem α) (a b : AIter) : Res Bool :=
  if a.iter_stack.length = b.iter_stack.length then vecEq m a.iter_stack b.iter_stack else .ok false

/-- `operator<` of vectors of iterators: `std::lexicographical_compare`. -/
def vecLt (m : Mem α) : List Tok → List Tok → Res Bool
  | _, [] => .ok false
  | [], _ :: _ => .ok true
  | a :: as, b :: bs => do
    let l ← iterLt m a b
    if l then return true
    else
      let g ← iterLt m b a
      if g then return false else vecLt m as bs

/-- `iterator_internal::operator<`, tree.hpp 359-362. -/
def lt (m : Mem α) (a b : AIter) : Res Bool := vecLt m a.iter_stack b.iter_stack

/-- The loop of `index()`, tree.hpp 449-451: `std::distance(list_stack[i]->begin(), iter_stack[i])` for each level. -/
def indexLoop (m : Mem α) : List LPtr → List Tok → Res (List Nat)
  | _, [] => .ok []
  | [], _ :: _ => .ub .oob_read
  | l :: ls, i :: is => do
    let p ← listOf m l
    let x ← locate m i
    if p = x.list then
      let rest ← indexLoop m ls is
      return x.idx :: rest
    else .ub .bad_iterator

/-- `iterator_internal::index`, tree.hpp 445-453. -/
def index (dbg : Bool) (m : Mem α) (it : AIter) : Res (List Nat) := do
  ASSERT dbg (it.iter_stack.length == it.list_stack.length)
  indexLoop m it.list_stack it.iter_stack

/-- `begin()` and `cbegin()`, tree.hpp 736-748. -/
def begin_ (m : Mem α) : AIter := ⟨[.roots], [m.tok ⟨[], 0⟩]⟩
/-- `end()` and `cend()`, tree.hpp 754-766. -/
def end_ (m : Mem α) : AIter := ⟨[.roots], [m.tok ⟨[], m.forest.length⟩]⟩

/-! ## Changes -/

/-- The rest of a path below a list, if it leads through the list. -/
def strip : Path → Path → Option Path
  | [], p => some p
  | _ :: _, [] => none
  | a :: q, b :: p => if a = b then strip q p else none

/-- Which place of the forest before an insertion at `i` in the list `q` a place of the forest afterwards was, if its identity is the same. `moved`: the
elements were moved to a new buffer; `copied`: they were copied to it (if moving them may throw exceptions). -/
def originInsert (q : Path) (i : Nat) (moved copied : Bool) (x : LIter) : Option LIter :=
  match strip q x.list with
  | none => some x
  | some [] => if moved || copied || decide (i ≤ x.idx) then none else some x
  | some (j :: r) => if j = i || copied then none else if j < i then some x else some ⟨q ++ (j - 1) :: r, x.idx⟩

/-- The same for erasing the element `i` of the list `q`. -/
def originErase (q : Path) (i : Nat) (x : LIter) : Option LIter :=
  match strip q x.list with
  | none => some x
  | some [] => if i ≤ x.idx then none else some x
  | some (j :: r) => if j < i then some x else some ⟨q ++ (j + 1) :: r, x.idx⟩

/-- The memory after a change: places without origin get new identities. -/
def after (m : Mem α) (f' : List (Tree α)) (origin : LIter → Option LIter) : Mem α :=
  ⟨f', fun x => match origin x with | some y => m.tok y | none => ⟨m.era, x⟩, m.era + 1⟩

/-- `list->insert(it, t)`. -/
def listInsert (moved copied : Bool) (m : Mem α) (lst : LPtr) (it : Tok) (t : Tree α) : Res (Mem α × Tok) := do
  let q ← listOf m lst
  let x ← locate m it
  let (f', y) ← Trav.listInsert m.forest q x t
  let m' := after m f' (originInsert q x.idx moved copied)
  return (m', m'.tok y)

/-- `list->erase(it)`. -/
def listErase (m : Mem α) (lst : LPtr) (it : Tok) : Res (Mem α × Tok) := do
  let q ← listOf m lst
  let x ← locate m it
  let (f', y) ← Trav.listErase m.forest q x
  let m' := after m f' (originErase q x.idx)
  return (m', m'.tok y)

/-- `insert`, tree.hpp 812-829. -/
def insert (moved copied : Bool) (m : Mem α) (it : AIter) (t : Tree α) : Res (Mem α × AIter) := do
  let iter ← back it.iter_stack
  let lst ← back it.list_stack
  let (m', n) ← listInsert moved copied m lst iter t
  let is ← setBack it.iter_stack n
  return (m', ⟨it.list_stack, is⟩)

/-- `insert_after`, tree.hpp 840-858. -/
def insert_after (moved copied : Bool) (m : Mem α) (it : AIter) (t : Tree α) : Res (Mem α × AIter) := do
  let iter ← back it.iter_stack
  let lst ← back it.list_stack
  let pos ← advance m iter 1
  let (m', n) ← listInsert moved copied m lst pos t
  let is ← setBack it.iter_stack n
  return (m', ⟨it.list_stack, is⟩)

/-- The loop of `erase`, tree.hpp 869-874. -/
def eraseLoop (dbg : Bool) (m : Mem α) : Nat → AIter → Res AIter
  | 0, _ => .diverge
  | fuel + 1, it => do
    if it.iter_stack.length > 1 then
      let top ← back it.iter_stack
      let lst ← back it.list_stack
      let e ← endOf m lst
      let b ← iterEq m top e
      if b then
        let ls ← pop it.list_stack
        let is ← pop it.iter_stack
        ASSERT dbg (is.length == ls.length)
        let up ← back is
        let up ← advance m up 1
        let is ← setBack is up
        eraseLoop dbg m fuel ⟨ls, is⟩
      else return it
    else return it

/-- `erase`, tree.hpp 866-876. -/
def erase (dbg : Bool) (m : Mem α) (it : AIter) : Res (Mem α × AIter) := do
  let iter ← back it.iter_stack
  let lst ← back it.list_stack
  let (m', n) ← listErase m lst iter
  let is ← setBack it.iter_stack n
  let r ← eraseLoop dbg m' (is.length + 1) ⟨it.list_stack, is⟩
  return (m', r)

end Utki.TreeAddr
