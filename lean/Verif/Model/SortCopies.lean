import Verif.Core
/-!
# The objects `utki::sort` makes, and exceptions of its elements, /repo/src/utki/sort.hpp

The C++17 implementation once more, now for elements whose copies, moves and comparisons are arbitrary code of the user, which may throw. An element of the memory
block is `some x`, or `none` after it has been moved from (or after an assignment to it, moved from before, has failed). `sort` makes objects of the element type:
the pivot, the copies of the pivot in the function objects given to `partition` and `find_if_not`, and the temporary of `iter_swap`. They are counted while they exist
(`live`), and so are the copies and moves made.

Simplifications: a move that throws leaves its source as it was. Destructors do not throw. The copies of the comparator are made at the places they are made in the
code, and may throw, but are not counted in `live`; all copies of the comparator share one state. The order in which the members of a function object are copied, which is
not fixed by the language, is: the pivot first. To look at an element that has been moved from is made undefined behaviour, so that it is visible.
-/
namespace Utki.QSortX

/-- The user's code: comparison, copy of an element, copy of the comparator, move construction and move assignment of an element (the argument is the value moved). -/
structure Ops (α σ : Type) where
  less : α → α → Meth σ Bool
  copy : α → Meth σ Unit
  copyCmp : Meth σ Unit
  move : α → Meth σ Unit
  assign : α → Meth σ Unit

/-- The memory block, the state of the user's code, the number of objects made by `sort` and not yet destroyed, and the numbers of copies and moves made. -/
structure St (α σ : Type) where
  mem : List (Option α)
  env : σ
  live : Nat
  copies : Nat
  moves : Nat

abbrev M (α σ : Type) := Meth (St α σ)

variable {α σ β : Type}

/-- Call of the user's code. -/
def user (f : Meth σ β) : M α σ β := fun ⟨mem, env, live, copies, moves⟩ =>
  match f env with
  | (r, e) => (r, ⟨mem, e, live, copies, moves⟩)

/-- `*it`, the element as an argument. -/
def look (i : Nat) : M α σ α := fun ⟨mem, env, live, copies, moves⟩ =>
  match mem[i]? with
  | some (some x) => (.ok x, ⟨mem, env, live, copies, moves⟩)
  | some none => (.ub .bad_argument, ⟨mem, env, live, copies, moves⟩)
  | none => (.ub .oob_read, ⟨mem, env, live, copies, moves⟩)

/-- What is in the memory block at the index. -/
def place (i : Nat) (c : Option α) : M α σ Unit := fun ⟨mem, env, live, copies, moves⟩ =>
  if i < mem.length then (.ok (), ⟨mem.set i c, env, live, copies, moves⟩) else (.ub .oob_write, ⟨mem, env, live, copies, moves⟩)

/-- The scope of an object made before: it is destroyed when the scope is left normally or by an exception. -/
def inScope (body : M α σ β) : M α σ β := fun ⟨mem, env, live, copies, moves⟩ =>
  match body ⟨mem, env, live + 1, copies, moves⟩ with
  | (.ok a, ⟨mem, env, live + 1, copies, moves⟩) => (.ok a, ⟨mem, env, live, copies, moves⟩)
  | (.ok _, t) => (.ub .use_after_free, t)
  | (.throw e, ⟨mem, env, live + 1, copies, moves⟩) => (.throw e, ⟨mem, env, live, copies, moves⟩)
  | (.throw _, t) => (.ub .use_after_free, t)
  | r => r

/-- One more copy has been made. -/
def copied : M α σ Unit := fun ⟨mem, env, live, copies, moves⟩ => (.ok (), ⟨mem, env, live, copies + 1, moves⟩)

/-- An object is copied from an element with the value `x`; the copy exists during `body`. -/
def withCopy (ops : Ops α σ) (x : α) (body : M α σ β) : M α σ β := do
  user (ops.copy x)
  copied
  inScope body

/-- One more move has been made. -/
def moved : M α σ Unit := fun ⟨mem, env, live, copies, moves⟩ => (.ok (), ⟨mem, env, live, copies, moves + 1⟩)

/-- `sort_internal::iter_swap`, sort.hpp 61-67. -/
def iter_swap (ops : Ops α σ) (a b : Nat) : M α σ Unit := do
  let x ← look a
  user (ops.move x)
  moved
  place a none
  inScope do
    let y ← look b
    user (ops.assign y)
    moved
    place b none
    place a (some y)
    user (ops.assign x)
    moved
    place b (some x)

/-- `sort_internal::find_if_not`, sort.hpp 69-78. -/
def find_if_not (q : α → Meth σ Bool) : Nat → Nat → Nat → M α σ Nat
  | 0, _, _ => Meth.lift .diverge
  | fuel + 1, first, last =>
    if first = last then return last
    else do
      let x ← look first
      let b ← user (q x)
      if b = false then return first
      else find_if_not q fuel (first + 1) last

/-- The loop of `sort_internal::partition`, sort.hpp 88-93. -/
def partitionLoop (ops : Ops α σ) (p : α → Meth σ Bool) : Nat → Nat → Nat → Nat → M α σ Nat
  | 0, _, _, _ => Meth.lift .diverge
  | fuel + 1, i, first, last =>
    if i = last then return first
    else do
      let x ← look i
      let b ← user (p x)
      if b = true then do
        iter_swap ops i first
        partitionLoop ops p fuel (i + 1) (first + 1) last
      else partitionLoop ops p fuel (i + 1) first last

/-- `sort_internal::partition`, sort.hpp 80-95; the function object contains a copy of the pivot and one of the comparator, and is copied for `find_if_not`. -/
def partition (ops : Ops α σ) (pivot : α) (p : α → Meth σ Bool) (fuel first last : Nat) : M α σ Nat := do
  let first ← withCopy ops pivot do
    user ops.copyCmp
    find_if_not p fuel first last
  if first = last then return first
  else partitionLoop ops p fuel (first + 1) first last

/-- The negated answer, the lambda in sort.hpp 108-110. -/
def negated (f : Meth σ Bool) : Meth σ Bool := do
  let b ← f
  return !b

/-- `sort_internal::quick_sort`, sort.hpp 97-113: the pivot is a copy of an element, and each of the function objects captures a copy of the pivot and of the comparator;
the comparator is copied for each call. -/
def quick_sort (ops : Ops α σ) : Nat → Nat → Nat → M α σ Unit
  | 0, _, _ => Meth.lift .diverge
  | fuel + 1, first, last =>
    let n : Int := (last : Int) - (first : Int)
    if n ≤ 1 then return ()
    else do
      let pivot ← look (first + (n / 2).toNat)
      withCopy ops pivot do
        let middle1 ← withCopy ops pivot do
          user ops.copyCmp
          partition ops pivot (fun elem => ops.less elem pivot) (fuel + 1) first last
        let middle2 ← withCopy ops pivot do
          user ops.copyCmp
          partition ops pivot (fun elem => negated (ops.less pivot elem)) (fuel + 1) middle1 last
        user ops.copyCmp
        quick_sort ops fuel first middle1
        user ops.copyCmp
        quick_sort ops fuel middle2 last

/-- `utki::sort`, sort.hpp 128-136, without C++20. -/
def sort (ops : Ops α σ) (fuel first last : Nat) : M α σ Unit := do
  user ops.copyCmp
  quick_sort ops fuel first last

end Utki.QSortX
