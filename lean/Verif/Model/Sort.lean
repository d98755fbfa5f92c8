import Verif.Core
/-!
# `utki::sort` (C++17 implementation), /repo/src/utki/sort.hpp

An iterator is an index into a memory block `mem`; the block is larger than the sorted range, so that touching elements
outside of the range is visible. The comparator is an arbitrary function object: it may have side effects on a state `σ`,
may throw, and need not be an order. Moving from an element leaves a moved-from value in its place, whatever that is for its
type (`MovedFrom`). Moves of elements are assumed not to throw. `fuel` bounds the number of loop and
recursion steps; a computation that runs out of it has the outcome `diverge`.
-/
namespace Utki.QSort

/-- What moving from an object of the type leaves behind. -/
class MovedFrom (α : Type) where
  moved : α → α

variable {α σ : Type} [MovedFrom α]

/-- Memory block and state of the comparator. -/
abbrev SM (α σ : Type) := Meth (List α × σ)

/-- `*it` (read). -/
def load (i : Nat) : SM α σ α := do
  let (mem, _) ← Meth.get
  Meth.lift (rd mem i)

/-- `*it = x`. -/
def store (i : Nat) (x : α) : SM α σ Unit := do
  let (mem, s) ← Meth.get
  let mem ← Meth.lift (wr mem i x)
  Meth.set (mem, s)

/-- `std::move(*it)`, used to initialise or assign another object. -/
def take (i : Nat) : SM α σ α := do
  let x ← load i
  store i (MovedFrom.moved x)
  return x

/-- Call of a user function object. -/
def call (f : Meth σ Bool) : SM α σ Bool := fun (mem, s) =>
  let (r, s') := f s
  (r, (mem, s'))

/-- `sort_internal::iter_swap`, sort.hpp 61-67. -/
def iter_swap (a b : Nat) : SM α σ Unit := do
  let temp ← take a
  let x ← take b
  store a x
  store b temp

/-- `sort_internal::find_if_not`, sort.hpp 69-78. -/
def find_if_not (q : α → Meth σ Bool) : Nat → Nat → Nat → SM α σ Nat
  | 0, _, _ => Meth.lift .diverge
  | fuel + 1, first, last =>
    if first = last then return last
    else do
      let x ← load first
      let b ← call (q x)
      if b = false then return first
      else find_if_not q fuel (first + 1) last

/-- The loop of `sort_internal::partition`, sort.hpp 88-93. -/
def partitionLoop (p : α → Meth σ Bool) : Nat → Nat → Nat → Nat → SM α σ Nat
  | 0, _, _, _ => Meth.lift .diverge
  | fuel + 1, i, first, last =>
    if i = last then return first
    else do
      let x ← load i
      let b ← call (p x)
      if b = true then do
        iter_swap i first
        partitionLoop p fuel (i + 1) (first + 1) last
      else partitionLoop p fuel (i + 1) first last

/-- `sort_internal::partition`, sort.hpp 80-95. -/
def partition (p : α → Meth σ Bool) (fuel first last : Nat) : SM α σ Nat := do
  let first ← find_if_not p fuel first last
  if first = last then return first
  else partitionLoop p fuel (first + 1) first last

/-- Negated predicate, the lambda in sort.hpp 108-110. -/
def negated (f : Meth σ Bool) : Meth σ Bool := do
  let b ← f
  return !b

/-- `sort_internal::quick_sort`, sort.hpp 97-113. -/
def quick_sort (cmp : α → α → Meth σ Bool) : Nat → Nat → Nat → SM α σ Unit
  | 0, _, _ => Meth.lift .diverge
  | fuel + 1, first, last =>
    let n : Int := (last : Int) - (first : Int)
    if n ≤ 1 then return ()
    else do
      let pivot ← load (first + (n / 2).toNat)
      let middle1 ← partition (fun elem => cmp elem pivot) (fuel + 1) first last
      let middle2 ← partition (fun elem => negated (cmp pivot elem)) (fuel + 1) middle1 last
      quick_sort cmp fuel first middle1
      quick_sort cmp fuel middle2 last

/-- `utki::sort`, sort.hpp 128-136, without C++20. -/
def sort (cmp : α → α → Meth σ Bool) (fuel first last : Nat) : SM α σ Unit := quick_sort cmp fuel first last

end Utki.QSort
