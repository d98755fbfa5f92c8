import Verif.Core
/-!
# `next`, `prev`, and the views

Model of /repo/src/utki/utility.hpp 62-106 and /repo/src/utki/views.hpp. An iterator into a collection is its position, from 0 to
the size; leaving this range and dereferencing the end are undefined behaviour.
-/
namespace Utki
namespace Views

/-- `std::numeric_limits<difference_type>::max()` for a signed type with `w` bits. -/
def diffMax (w : Nat) : Nat := 2 ^ (w - 1) - 1

/-- `size_t(max_advance)`. -/
def sizeT (n : Nat) : Nat := n % 2 ^ 64

/-- `std::next(iter, d)` (and `std::prev(iter, -d)`) in a collection of `len` elements. A `d` that does not fit the difference type is an
error. -/
def advance (w len pos : Nat) (d : Int) : Res Nat :=
  if d < - 2 ^ (w - 1) ∨ 2 ^ (w - 1) ≤ d then .ub .overflow
  else if 0 ≤ (pos : Int) + d ∧ (pos : Int) + d ≤ len then .ok ((pos : Int) + d).toNat
  else .ub .bad_iterator

/-- The loop of `next` (`sign = 1`) and `prev` (`sign = -1`), utility.hpp 75-82, 98-105. Returns the final position and the steps. -/
def stepLoop (w len : Nat) (sign : Int) : Nat → Nat → Nat → Res (Nat × List Int)
  | 0, _, _ => .diverge
  | fuel + 1, pos, numLeft =>
    if sizeT (diffMax w) < numLeft then do
      let numLeft := (numLeft + 2 ^ 64 - sizeT (diffMax w)) % 2 ^ 64
      let pos' ← advance w len pos (sign * diffMax w)
      let r ← stepLoop w len sign fuel pos' numLeft
      pure (r.1, sign * diffMax w :: r.2)
    else do
      let pos' ← advance w len pos (sign * numLeft)
      pure (pos', [sign * numLeft])

/-- `utki::next`, utility.hpp 70-83. -/
def next (w len pos n : Nat) : Res (Nat × List Int) := stepLoop w len 1 (n + 1) pos n

/-- `utki::prev`, utility.hpp 93-106. -/
def prev (w len pos n : Nat) : Res (Nat × List Int) := stepLoop w len (-1) (n + 1) pos n

variable {α : Type}

/-- `for (auto& x : range) x = f(x);` from position `i` to `e`, with `++` of the collection's iterator. Returns the elements visited, in
order, and the collection afterwards. `fuel`: every position is visited at most once, so the size is enough. -/
def forward (f : α → α) : Nat → Nat → Nat → List α → Res (List α × List α)
  | fuel, i, e, c =>
    if i = e then .ok ([], c)
    else match fuel with
      | 0 => .diverge
      | fuel + 1 => do
        let x ← rd c i
        let c ← wr c i (f x)
        let i' ← advance 64 c.length i 1
        let r ← forward f fuel i' e c
        pure (x :: r.1, r.2)

/-- Range `for` over `skip_front<n>(c)`, views.hpp 38-73. -/
def skipFront (dbg : Bool) (n : Nat) (f : α → α) (c : List α) : Res (List α × List α) := do
  ASSERT dbg (decide (n ≤ c.length))
  let b ← next 64 c.length 0 n
  forward f c.length b.1 c.length c

/-- Range `for` with reverse iterators, which are given by their base: `*i` is the element before the base, `++` decreases the base. -/
def backward (f : α → α) : Nat → Nat → Nat → List α → Res (List α × List α)
  | fuel, i, e, c =>
    if i = e then .ok ([], c)
    else match fuel with
      | 0 => .diverge
      | fuel + 1 => do
        let b ← advance 64 c.length i (-1)
        let x ← rd c b
        let c ← wr c b (f x)
        let i' ← advance 64 c.length i (-1)
        let r ← backward f fuel i' e c
        pure (x :: r.1, r.2)

/-- Range `for` over `reverse(c)`, views.hpp 82-115: `rbegin` has the base `end`, `rend` the base `begin`. -/
def reverse (f : α → α) (c : List α) : Res (List α × List α) := backward f c.length c.length 0 c

/-- `std::min({collection.size()...})`, views.hpp 129; not defined without collections. -/
def minSize : List (List α) → Res Nat
  | [] => .ub .bad_argument
  | c :: cs => .ok (cs.foldl (fun m d => min m d.length) c.length)

/-- `zip_view::iterator::operator++`, views.hpp 151-161: `std::next` of every iterator. -/
def zipNext : List (List α) → List Nat → Res (List Nat)
  | c :: cs, i :: is => do
    let i' ← advance 64 c.length i 1
    let is' ← zipNext cs is
    pure (i' :: is')
  | _, _ => .ok []

/-- `zip_view::iterator::operator*`, views.hpp 163-171: a tuple of references; what they refer to. -/
def zipDeref : List (List α) → List Nat → Res (List α)
  | c :: cs, i :: is => do
    let x ← rd c i
    let xs ← zipDeref cs is
    pure (x :: xs)
  | _, _ => .ok []

/-- Assignment through the references of the tuple. -/
def zipAssign : List (List α) → List Nat → List α → Res (List (List α))
  | c :: cs, i :: is, x :: xs => do
    let c' ← wr c i x
    let cs' ← zipAssign cs is xs
    pure (c' :: cs')
  | cs, _, _ => .ok cs

/-- `zip_view::end`, views.hpp 190-198. -/
def zipEnd (n : Nat) : List (List α) → Res (List Nat)
  | [] => .ok []
  | c :: cs => do
    let i ← next 64 c.length 0 n
    let is ← zipEnd n cs
    pure (i.1 :: is)

/-- Range `for` over the zip view; the body assigns `f` of the tuple to the tuple. `!=` compares the first iterators only, views.hpp
146-149. -/
def zipLoop (f : List α → List α) (e : List Nat) : Nat → List Nat → List (List α) → Res (List (List α) × List (List α))
  | fuel, is, cs =>
    if is.head? = e.head? then .ok ([], cs)
    else match fuel with
      | 0 => .diverge
      | fuel + 1 => do
        let xs ← zipDeref cs is
        let cs ← zipAssign cs is (f xs)
        let is' ← zipNext cs is
        let r ← zipLoop f e fuel is' cs
        pure (xs :: r.1, r.2)

/-- Range `for` over `zip(c1, ..., cn)`, views.hpp 121-209. Simplification: all collections have the same element type. -/
def zip (f : List α → List α) (cs : List (List α)) : Res (List (List α) × List (List α)) := do
  let n ← minSize cs
  let e ← zipEnd n cs
  zipLoop f e n (cs.map (fun _ => 0)) cs

end Views
end Utki
