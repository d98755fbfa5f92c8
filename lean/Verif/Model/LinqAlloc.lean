import Verif.Model.TreeAlloc
/-!
# `linq` when memory runs out, /repo/src/utki/linq.hpp

The operations on vectors, with the memory that vectors, maps and elements own. The memory is that of `Model/TreeAlloc.lean`: requests may fail at any point, and giving
back a block that is not in use is undefined. Simplified: an element owns any number of blocks, copying it asks for as many one after another and gives them back if one of the
requests fails; moving one takes its blocks along and asks for no memory. The functions given to `where`, `group_by` and `order_by` are pure, request no memory, and take constant
references; keys own no memory. Where a vector grows its new capacity is any that is large enough (`grow`).
-/
namespace Utki.LinqAlloc
open TreeAlloc
variable {α β κ : Type}

/-- An element: its value and the blocks it owns. -/
structure Obj (α : Type) where
  val : α
  mem : List Nat
deriving DecidableEq, Repr

/-- `std::vector`: the block of its buffer, its capacity and its elements. -/
structure Buf (α : Type) where
  block : Option Nat
  cap : Nat
  elems : List (Obj α)
deriving DecidableEq, Repr

/-- A vector without elements and without memory. -/
def Buf.none : Buf α := ⟨.none, 0, []⟩

/-- The memory, the collection of the aggregator, linq.hpp 62-67, and the local variable `ret` of the operation. -/
structure LSt (α ρ : Type) where
  mem : Mem
  src : Buf α
  ret : ρ

/-- An operation on the memory only. -/
def inMemL {ρ : Type} (m : Meth Mem β) : Meth (LSt α ρ) β := fun s =>
  let r := m s.mem
  (r.1, { s with mem := r.2 })

/-- A copy of an element. -/
def copyObj (o : Obj α) : Meth Mem (Obj α) := do
  let m ← copyValue o.mem
  return ⟨o.val, m⟩

/-- The new element made from `*it` of a move iterator or from `std::move(v)`: elements of a constant collection (an lvalue given to `linq`) are copied, others are moved. -/
def takeObj (konst : Bool) (o : Obj α) : Meth Mem (Obj α) := if konst then copyObj o else pure o

/-- What is left of the element from which it was made. -/
def leftObj (konst : Bool) (moved : α → α) (o : Obj α) : Obj α := if konst then o else ⟨moved o.val, []⟩

/-- The elements are destroyed. -/
def destroyObjs : List (Obj α) → Meth Mem Unit
  | [] => pure ()
  | o :: os => do
    freeAll o.mem
    destroyObjs os

/-- The vector is destroyed. -/
def destroyBuf (v : Buf α) : Meth Mem Unit := do
  destroyObjs v.elems
  freeAll v.block.toList

/-- `push_back`, or `insert` at the end, of an element made by `make`; a vector without room gets a new buffer, to which the elements are moved. -/
def pushBack (grow : Nat → Nat) (v : Buf α) (make : Meth Mem (Obj α)) : Meth Mem (Buf α) :=
  if v.elems.length < v.cap then do
    let o ← make
    return { v with elems := v.elems ++ [o] }
  else do
    let b ← alloc
    let o ← onFail make (free b)
    freeAll v.block.toList
    return ⟨some b, max (grow v.elems.length) (v.elems.length + 1), v.elems ++ [o]⟩

/-- Loop of `std::copy_if` in `where`, linq.hpp 172-177; `i` is the index of the first of the elements to come. -/
def whereLoop (konst : Bool) (moved : α → α) (grow : Nat → Nat) (f : α → Bool) : List (Obj α) → Nat → Meth (LSt α (Buf α)) Unit
  | [], _ => pure ()
  | e :: es, i =>
    if f e.val then do
      let s ← Meth.get
      let v ← inMemL (pushBack grow s.ret (takeObj konst e))
      let s ← Meth.get
      Meth.set { s with ret := v, src := { s.src with elems := s.src.elems.set i (leftObj konst moved e) } }
      whereLoop konst moved grow f es (i + 1)
    else whereLoop konst moved grow f es (i + 1)

/-- `ret` is destroyed, as by an exception that passes. -/
def dropRet : Meth (LSt α (Buf β)) Unit := do
  let s ← Meth.get
  inMemL (destroyBuf s.ret)
  let s ← Meth.get
  Meth.set { s with ret := Buf.none }

/-- `where`, linq.hpp 155-180; the result is left in `ret`. -/
def where_ (konst : Bool) (moved : α → α) (grow : Nat → Nat) (f : α → Bool) : Meth (LSt α (Buf α)) Unit := do
  let s ← Meth.get
  Meth.set { s with ret := Buf.none }
  onFail (whereLoop konst moved grow f s.src.elems 0) dropRet

/-- `ret.reserve(n)` for a new vector, linq.hpp 110. -/
def reserve (n : Nat) : Meth Mem (Buf β) :=
  if n = 0 then pure Buf.none
  else do
    let b ← alloc
    return ⟨some b, n, []⟩

/-- Loop of `select`, linq.hpp 113-115: the object returned by the function is moved to the vector. -/
def selectLoop (grow : Nat → Nat) (f : α → Meth Mem (Obj β)) : List (Obj α) → Meth (LSt α (Buf β)) Unit
  | [] => pure ()
  | e :: es => do
    let r ← inMemL (f e.val)
    let s ← Meth.get
    let v ← onFail (inMemL (pushBack grow s.ret (pure r))) (inMemL (freeAll r.mem))
    let s ← Meth.get
    Meth.set { s with ret := v }
    selectLoop grow f es

/-- `select`, linq.hpp 91-125, with a function of one argument, a constant reference. -/
def select (grow : Nat → Nat) (f : α → Meth Mem (Obj β)) : Meth (LSt α (Buf β)) Unit := do
  let s ← Meth.get
  Meth.set { s with ret := Buf.none }
  let v ← inMemL (reserve s.src.elems.length)
  let s ← Meth.get
  Meth.set { s with ret := v }
  onFail (selectLoop grow f s.src.elems) dropRet

/-- `order_by`, linq.hpp 182-213. An lvalue: the elements are copied to a new vector, which is sorted; an rvalue: the collection itself is sorted and moved to the result.
`std::sort` moves elements and asks for no memory. -/
def orderBy (konst : Bool) (grow : Nat → Nat) (sort : List (Obj α) → List (Obj α)) : Meth (LSt α (Buf α)) Unit := do
  let s ← Meth.get
  if konst then do
    Meth.set { s with ret := Buf.none }
    onFail (whereLoop true id grow (fun _ => true) s.src.elems 0) dropRet
    let s ← Meth.get
    Meth.set { s with ret := { s.ret with elems := sort s.ret.elems } }
  else
    Meth.set { s with ret := { s.src with elems := sort s.src.elems }, src := Buf.none }

/-- An element of the map that `group_by` makes: the block of its node and the vector in it. -/
structure Entry (α : Type) where
  node : Nat
  vec : Buf α
deriving DecidableEq, Repr

/-- A new element of the map, with the vector of one element. If the element cannot be added, the new element of the map goes together with the whole map; here it goes at once. -/
def newEntry (grow : Nat → Nat) (make : Meth Mem (Obj α)) : Meth Mem (Entry α) := do
  let b ← alloc
  let v ← onFail (pushBack grow Buf.none make) (free b)
  return ⟨b, v⟩

/-- `ret[k].push_back(...)`, linq.hpp 149. -/
def put (lt : κ → κ → Bool) (grow : Nat → Nat) (k : κ) (make : Meth Mem (Obj α)) : List (κ × Entry α) → Meth Mem (List (κ × Entry α))
  | [] => do
    let e ← newEntry grow make
    return [(k, e)]
  | (k', e') :: m =>
    if lt k' k then do
      let m' ← put lt grow k make m
      return (k', e') :: m'
    else if lt k k' then do
      let e ← newEntry grow make
      return (k, e) :: (k', e') :: m
    else do
      let v ← pushBack grow e'.vec make
      return (k', { e' with vec := v }) :: m

/-- Loop of `group_by`, linq.hpp 148-150. -/
def groupLoop (konst : Bool) (moved : α → α) (lt : κ → κ → Bool) (grow : Nat → Nat) (f : α → κ) :
    List (Obj α) → Nat → Meth (LSt α (List (κ × Entry α))) Unit
  | [], _ => pure ()
  | e :: es, i => do
    let s ← Meth.get
    let m ← inMemL (put lt grow (f e.val) (takeObj konst e) s.ret)
    let s ← Meth.get
    Meth.set { s with ret := m, src := { s.src with elems := s.src.elems.set i (leftObj konst moved e) } }
    groupLoop konst moved lt grow f es (i + 1)

/-- The map is destroyed. -/
def destroyMap : List (κ × Entry α) → Meth Mem Unit
  | [] => pure ()
  | (_, e) :: m => do
    destroyBuf e.vec
    free e.node
    destroyMap m

/-- `group_by`, linq.hpp 127-153; the result is left in `ret`. -/
def groupBy (konst : Bool) (moved : α → α) (lt : κ → κ → Bool) (grow : Nat → Nat) (f : α → κ) : Meth (LSt α (List (κ × Entry α))) Unit := do
  let s ← Meth.get
  Meth.set { s with ret := [] }
  onFail (groupLoop konst moved lt grow f s.src.elems 0) (do
    let s ← Meth.get
    inMemL (destroyMap s.ret)
    let s ← Meth.get
    Meth.set { s with ret := [] })

end Utki.LinqAlloc
