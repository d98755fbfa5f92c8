import Verif.Model.Views
/-!
# `enum_iterable` and `enum_array`

Model of /repo/src/utki/enum_iterable.hpp and /repo/src/utki/enum_array.hpp. An enumeration has `size` = `enum_size` enumerators
with the values `0, ..., size - 1` and an underlying type with `w` bits.
-/
namespace Utki
namespace Enum

/-- `iterator::operator++`, enum_iterable.hpp 77-81: the sum is converted to the underlying type. -/
def incr (w : Nat) (e : Nat) : Nat := (e + 1) % 2 ^ w

/-- Range `for` over `enum_iterable_v<enum_type>`, enum_iterable.hpp 93-101: from 0 to `enum_size`. -/
def iterate (w size : Nat) : Nat → Nat → Res (List Nat)
  | fuel, e =>
    if e = size then .ok []
    else match fuel with
      | 0 => .diverge
      | fuel + 1 => do
        let r ← iterate w size fuel (incr w e)
        pure (e :: r)

variable {α : Type}

/-- Read of `a[e]`, enum_array.hpp 79-89; also for a value that is no enumerator. -/
def get (dbg : Bool) (a : List α) (e : Nat) : Res α := do
  ASSERT dbg (decide (e < a.length))
  rd a e

/-- Write through `a[e]`, enum_array.hpp 79-83. -/
def set (dbg : Bool) (a : List α) (e : Nat) (x : α) : Res (List α) := do
  ASSERT dbg (decide (e < a.length))
  wr a e x

/-- The loop of a range `for` over the zip view of the array and the enumerators; the iterator is a pair of iterators, `!=` compares the
first of them, views.hpp 146-171. The body assigns to the element. -/
def zipLoop (w : Nat) (f : α → Nat → α) (stop : Nat) : Nat → Nat → Nat → List α → Res (List (α × Nat) × List α)
  | fuel, i, e, a =>
    if i = stop then .ok ([], a)
    else match fuel with
      | 0 => .diverge
      | fuel + 1 => do
        let x ← rd a i
        let a ← wr a i (f x e)
        let i' ← Views.advance 64 a.length i 1
        let r ← zipLoop w f stop fuel i' (incr w e) a
        pure ((x, e) :: r.1, r.2)

/-- `for (auto p : a.zip_with_enum())`, enum_array.hpp 61-75 with views.hpp 121-209. `end()` also computes the end iterator of the
enumerators with `utki::next` and the `w` bit difference type, enum_iterable.hpp 62. -/
def zipWithEnum (w : Nat) (f : α → Nat → α) (a : List α) : Res (List (α × Nat) × List α) := do
  let n := min a.length a.length
  let i ← Views.next 64 a.length 0 n
  let _ ← Views.next w a.length 0 n
  zipLoop w f i.1 a.length 0 0 a

end Enum
end Utki
