import Verif.Model.Tree
/-!
# Assigning trees, /repo/src/utki/tree.hpp

The assignment operators of `tree` are defaulted, tree.hpp 74, 77: the value is assigned and then the vector of children, whose elements are trees again. Here nodes have addresses, so that the
tree that is assigned from may be a part of the one that is assigned to. The heap is a set of buffers of nodes; a variable is the only element of a buffer of its own. Reading or writing an
element of a buffer that has been given back, or one that has been destroyed, is undefined. Requests for memory succeed and values do not throw.
The vector is that of the standard libraries, which differ in one point (`early`): libstdc++ makes the new elements before it destroys the old ones when a vector has to grow, and takes over the
buffer of a vector that is moved from before it destroys the old elements; libc++ (and, when growing, the library of Microsoft) destroys the old elements first.
`fuel` bounds the depth of calls; running out of it is `diverge`.
-/
namespace Utki.TreeAssign
variable {α : Type}

/-- A `tree` object: the value, and the buffer and the capacity of the vector of children, tree.hpp 63-71. -/
structure Node (α : Type) where
  val : α
  buf : Option Nat
  cap : Nat
deriving DecidableEq, Repr

/-- The buffers in use, each with its live elements, and the number of the next buffer. -/
structure Heap (α : Type) where
  bufs : Nat → Option (List (Node α))
  next : Nat

/-- The address of an object: buffer and index. -/
abbrev Loc := Nat × Nat

/-- The heap with another content of one buffer. -/
def Heap.put (h : Heap α) (b : Nat) (v : Option (List (Node α))) : Heap α := ⟨fun c => if c = b then v else h.bufs c, h.next⟩

/-- The live elements of a buffer. -/
def elemsOf (b : Nat) : Meth (Heap α) (List (Node α)) := fun h =>
  match h.bufs b with
  | some es => (.ok es, h)
  | none => (.ub .use_after_free, h)

/-- The elements of a buffer change. -/
def setElems (b : Nat) (es : List (Node α)) : Meth (Heap α) Unit := fun h => (.ok (), h.put b (some es))

/-- An object is read. -/
def load (l : Loc) : Meth (Heap α) (Node α) := fun h =>
  match h.bufs l.1 with
  | some es =>
    match es[l.2]? with
    | some n => (.ok n, h)
    | none => (.ub .use_after_free, h)
  | none => (.ub .use_after_free, h)

/-- An object is written. -/
def store (l : Loc) (n : Node α) : Meth (Heap α) Unit := fun h =>
  match h.bufs l.1 with
  | some es => if l.2 < es.length then (.ok (), h.put l.1 (some (es.set l.2 n))) else (.ub .use_after_free, h)
  | none => (.ub .use_after_free, h)

/-- A new buffer. -/
def newBuf (es : List (Node α)) : Meth (Heap α) Nat := fun h => (.ok h.next, ⟨fun c => if c = h.next then some es else h.bufs c, h.next + 1⟩)

/-- A buffer is given back. -/
def dropBuf (b : Nat) : Meth (Heap α) Unit := fun h =>
  match h.bufs b with
  | some _ => (.ok (), h.put b none)
  | none => (.ub .use_after_free, h)

/-- `for(; n != 0; --n, ++k) f(k)`. -/
def each {σ : Type} (f : Nat → Meth σ Unit) : Nat → Nat → Meth σ Unit
  | _, 0 => pure ()
  | k, n + 1 => do
    f k
    each f (k + 1) n

/-- The same with results. -/
def collect {σ β : Type} (f : Nat → Meth σ β) : Nat → Nat → Meth σ (List β)
  | _, 0 => pure []
  | k, n + 1 => do
    let x ← f k
    let xs ← collect f (k + 1) n
    return x :: xs

/-- `children.size()`. -/
def sizeOf (n : Node α) : Meth (Heap α) Nat :=
  match n.buf with
  | none => pure 0
  | some b => do
    let es ← elemsOf b
    return es.length

/-- The copy of `n` elements of a buffer from the `k`-th on, given how one is copied. -/
def copyElems (copy : Node α → Meth (Heap α) (Node α)) (b k n : Nat) : Meth (Heap α) (List (Node α)) :=
  collect (fun k => do
    let m ← load (b, k)
    copy m) k n

/-- `tree(const tree&)`, tree.hpp 73. -/
def copyNode : Nat → Node α → Meth (Heap α) (Node α)
  | 0, _ => Meth.lift .diverge
  | fuel + 1, n =>
    match n.buf with
    | none => pure ⟨n.val, none, 0⟩
    | some b => do
      let es ← elemsOf b
      if es.length = 0 then pure ⟨n.val, none, 0⟩
      else do
        let ns ← copyElems (copyNode fuel) b 0 es.length
        let b' ← newBuf ns
        return ⟨n.val, some b', es.length⟩

/-- `~tree`, tree.hpp 79. -/
def destroyNode : Nat → Node α → Meth (Heap α) Unit
  | 0, _ => Meth.lift .diverge
  | fuel + 1, n =>
    match n.buf with
    | none => pure ()
    | some b => do
      let es ← elemsOf b
      each (fun k => do
        let m ← load (b, k)
        destroyNode fuel m) 0 es.length
      dropBuf b

/-- The elements of a vector from the `k`-th on are destroyed. -/
def destroyFrom (fuel : Nat) (b k : Nat) : Meth (Heap α) Unit := do
  let es ← elemsOf b
  each (fun k => do
    let m ← load (b, k)
    destroyNode fuel m) k (es.length - k)
  let es ← elemsOf b
  setElems b (es.take k)

/-- `operator=(const vector&)` for vectors of trees, given how a tree is assigned; the vectors are those of the objects `dst` and `src`. -/
def assignVec (early : Bool) (fuel : Nat) (assign : Loc → Loc → Meth (Heap α) Unit) (dst src : Loc) : Meth (Heap α) Unit :=
  if dst = src then pure ()
  else do
    let s ← load src
    let n ← sizeOf s
    let d ← load dst
    let m ← sizeOf d
    if d.cap < n then
      if early then do
        destroyNode fuel d
        store dst { d with buf := none, cap := 0 }
        let ns ← copyElems (copyNode fuel) (s.buf.getD 0) 0 n
        let b ← newBuf ns
        let d ← load dst
        store dst { d with buf := some b, cap := n }
      else do
        let ns ← copyElems (copyNode fuel) (s.buf.getD 0) 0 n
        let b ← newBuf ns
        destroyNode fuel d
        store dst { d with buf := some b, cap := n }
    else
      match d.buf with
      | none => pure ()
      | some db => do
        each (fun k => assign (db, k) (s.buf.getD 0, k)) 0 (min n m)
        if n ≤ m then destroyFrom fuel db n
        else do
          let ns ← copyElems (copyNode fuel) (s.buf.getD 0) m (n - m)
          let es ← elemsOf db
          setElems db (es ++ ns)

/-- `operator=(const tree&)`, tree.hpp 74. -/
def assignNode (early : Bool) : Nat → Loc → Loc → Meth (Heap α) Unit
  | 0, _, _ => Meth.lift .diverge
  | fuel + 1, dst, src => do
    let s ← load src
    let d ← load dst
    store dst { d with val := s.val }
    assignVec early fuel (assignNode early fuel) dst src

/-- `operator=(tree&&)`, tree.hpp 77; `moved` is what is left of a value. -/
def moveNode (early : Bool) (moved : α → α) (fuel : Nat) (dst src : Loc) : Meth (Heap α) Unit := do
  let s ← load src
  let d ← load dst
  store dst { d with val := s.val }
  let s' ← load src
  store src { s' with val := moved s'.val }
  if early then do
    let d ← load dst
    destroyNode fuel d
    store dst { d with buf := none, cap := 0 }
    let s ← load src
    let d ← load dst
    store dst { d with buf := s.buf, cap := s.cap }
    let s' ← load src
    store src { s' with buf := none, cap := 0 }
  else do
    let d ← load dst
    let s ← load src
    store dst { d with buf := s.buf, cap := s.cap }
    let s' ← load src
    store src { s' with buf := none, cap := 0 }
    destroyNode fuel d

/-- What a user writes to be independent of where the source is: `tree tmp(src); dst = std::move(tmp);`, tree.hpp 73, 77, 79. The variable `tmp` is an object in a buffer of its own. -/
def assignViaCopy (early : Bool) (moved : α → α) (fuel : Nat) (dst src : Loc) : Meth (Heap α) Unit := do
  let s ← load src
  let t ← copyNode fuel s
  let b ← newBuf [t]
  moveNode early moved fuel dst (b, 0)
  let t ← load (b, 0)
  destroyNode fuel t
  dropBuf b

end Utki.TreeAssign
