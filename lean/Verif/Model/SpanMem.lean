import Verif.Model.Span
/-!
# Model of writing through `utki::span`

/repo/src/utki/span.hpp:64-651. A span does not own its elements: several spans may point into one container. Here the containers are
objects of a memory, and a span is a pointer into one of them and a size. What it reads is what the span of Model/Span.lean reads in the present
contents of the object.
-/
namespace Utki.SpanMem
variable {α : Type}

/-- The containers, `std::vector`, `std::array`, plain arrays and others, that spans point into. -/
abbrev Objects (α : Type) := List (List α)

/-- `buf` and `buf_size`, span.hpp:87-88: `buf` points to the element `off` of the object `obj`. Copying a span copies these, span.hpp:91-95. -/
structure Ref where
  obj : Nat
  off : Nat
  size : Nat
  deriving DecidableEq, Repr

/-- What the span sees at present. -/
def view (m : Objects α) (r : Ref) : Span α := ⟨(m[r.obj]?).getD [], r.off, r.size⟩

/-- The ways to an element: `s[i]`, `s.at(i)`, `s.front()`, `s.back()`, `*(s.begin() + k)`, `*(s.rbegin() + k)`. -/
inductive Access where
  | index (i : Nat)
  | at (i : Nat)
  | front
  | back
  | iter (k : Nat)
  | riter (k : Nat)
  deriving DecidableEq, Repr

/-- `operator[]` as a reference: the place of the element in the object, span.hpp:333-354. -/
def indexPlace (dbg : Bool) (r : Ref) (i : Nat) : Res Nat := do
  ASSERT dbg (i < r.size)
  return r.off + i

/-- The place of the element in the object. The element itself is only touched by `read` and `write`; a reference to an element outside the object is
undefined there. -/
def place (dbg : Bool) (m : Objects α) (r : Ref) : Access → Res Nat
  /- span.hpp:333-354 -/
  | .index i => indexPlace dbg r i
  /- span.hpp:356-372 -/
  | .at i => if i ≥ r.size then .throw .out_of_range else .ok (r.off + i)
  /- span.hpp:443-453 -/
  | .front => do
    ASSERT dbg (!(r.size == 0))
    indexPlace dbg r 0
  /- span.hpp:455-465; `size() - 1` is `size_t` arithmetic -/
  | .back => do
    ASSERT dbg (!(r.size == 0))
    indexPlace dbg r ((r.size + sizeMax) % 2 ^ 64)
  /- span.hpp:378-390 -/
  | .iter k => Span.ptrAdd (view m r).mem r.off k
  /- span.hpp:412-430: `*std::reverse_iterator(p)` is `p[-1]` -/
  | .riter k => do
    let e ← (view m r).end_
    if e < k + 1 then .ub .bad_pointer else .ok (e - (k + 1))

/-- `x = s[i]` and so on. -/
def read (dbg : Bool) (m : Objects α) (r : Ref) (a : Access) : Res α := do
  let p ← place dbg m r a
  rd (view m r).mem p

/-- `s[i] = v` and so on. -/
def write (dbg : Bool) (r : Ref) (a : Access) (v : α) : Meth (Objects α) Unit := fun m =>
  match place dbg m r a with
  | .ok p => match wr (view m r).mem p v with
    | .ok l => (.ok (), m.set r.obj l)
    | .throw e => (.throw e, m)
    | .ub u => (.ub u, m)
    | .abort => (.abort, m)
    | .terminate => (.terminate, m)
    | .diverge => (.diverge, m)
  | .throw e => (.throw e, m)
  | .ub u => (.ub u, m)
  | .abort => (.abort, m)
  | .terminate => (.terminate, m)
  | .diverge => (.diverge, m)

/-- `make_span(container)`, span.hpp:549-616: a span of the whole object. -/
def make_span (m : Objects α) (o : Nat) : Ref := ⟨o, 0, ((m[o]?).getD []).length⟩

/-- `subspan(offset, count)`, span.hpp:467-478: the arithmetic is that of Model/Span.lean. -/
def subspan (dbg : Bool) (m : Objects α) (r : Ref) (offset : Nat) (count : Nat := sizeMax) : Res Ref := do
  let s ← (view m r).subspan dbg offset count
  return ⟨r.obj, s.off, s.size⟩

/-- `make_vector(s)`, span.hpp:618-625: the new vector is a new object. -/
def make_vector (m : Objects α) (r : Ref) : Res (Objects α × Ref) := do
  let l ← (view m r).make_vector
  return (m ++ [l], ⟨m.length, 0, l.length⟩)

/-- A number of assignments through spans, in this order. -/
def writes (dbg : Bool) : List (Ref × Access × α) → Meth (Objects α) Unit
  | [] => pure ()
  | (r, a, v) :: ws => do
    write dbg r a v
    writes dbg ws

end Utki.SpanMem
