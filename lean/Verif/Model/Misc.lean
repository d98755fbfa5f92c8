import Verif.Core
/-!
# Small things

Models of /repo/src/utki/version.hpp, /repo/src/utki/math.hpp, /repo/src/utki/time.cpp, /repo/src/utki/variant.hpp 46-64,
/repo/src/utki/utility.hpp 131-140 and /repo/src/utki/type_traits.hpp 63-159.
-/
namespace Utki
namespace Misc

/-- `version_duplet`, version.hpp 40-50. -/
structure Version where
  major : BitVec 16
  minor : BitVec 16
deriving DecidableEq, Repr

/-- `to_uint32_t`, version.hpp 54-57. -/
def Version.toUint32 (v : Version) : BitVec 32 := (v.major.setWidth 32 <<< (2 * 8)) ||| v.minor.setWidth 32

/-- `operator>=`, version.hpp 64-73. -/
def Version.ge (l r : Version) : Bool :=
  if r.major < l.major then true
  else if l.major == r.major && r.minor ≤ l.minor then true
  else false

/-- `operator<`, version.hpp 75-78. -/
def Version.lt (l r : Version) : Bool := !(l.ge r)

/-- An integer type: `w` bits, signed or not. -/
structure IntType where
  w : Nat
  signed : Bool
deriving DecidableEq, Repr

namespace IntType

/-- Smallest value. -/
def lo (t : IntType) : Int := if t.signed then - 2 ^ (t.w - 1) else 0
/-- One more than the largest value. -/
def hi (t : IntType) : Int := if t.signed then 2 ^ (t.w - 1) else 2 ^ t.w
/-- The values of the type. -/
def Mem (t : IntType) (x : Int) : Prop := t.lo ≤ x ∧ x < t.hi
instance (t : IntType) (x : Int) : Decidable (t.Mem x) := inferInstanceAs (Decidable (_ ∧ _))
/-- Conversion to the type: modulo `2 ^ w`. -/
def conv (t : IntType) (x : Int) : Int := (x - t.lo) % 2 ^ t.w + t.lo
/-- `int`. -/
def int : IntType := ⟨32, true⟩
/-- Integral promotion: types narrower than `int` become `int`. -/
def promote (t : IntType) : IntType := if t.w < 32 then int else t
/-- `x * y` of operands of type `t`, converted to `t` by `return`: the product is computed in the promoted type; signed overflow is
undefined, unsigned arithmetic is modulo `2 ^ w`. -/
def mul (t : IntType) (x y : Int) : Res Int :=
  let p := t.promote
  if p.signed then
    if p.Mem (x * y) then .ok (t.conv (x * y)) else .ub .overflow
  else .ok (t.conv (p.conv (x * y)))

end IntType

/-- `sign`, math.hpp 50-54. The result is converted to the type of the argument. -/
def sign (t : IntType) (n : Int) : Int := if n < 0 then t.conv (-1) else t.conv 1

/-- `pow2`, math.hpp 103-107. -/
def pow2 (t : IntType) (x : Int) : Res Int := t.mul x x
/-- `pow3`, math.hpp 112-116. -/
def pow3 (t : IntType) (x : Int) : Res Int := do let y ← pow2 t x; t.mul y x
/-- `pow4`, math.hpp 121-125. -/
def pow4 (t : IntType) (x : Int) : Res Int := do let y ← pow2 t x; pow2 t y
/-- `pow5`, math.hpp 130-134. -/
def pow5 (t : IntType) (x : Int) : Res Int := do let y ← pow4 t x; t.mul y x
/-- `pow6`, math.hpp 139-143. -/
def pow6 (t : IntType) (x : Int) : Res Int := do let y ← pow3 t x; pow2 t y

/-- `get_ticks_ms`, time.cpp 35-43, when the clock shows `ns` nanoseconds since its epoch: `duration_cast` to milliseconds truncates, the
count is converted to `uint32_t`. -/
def ticks (ns : Int) : BitVec 32 := BitVec.ofInt 32 (ns.tdiv 1000000)

/-- `offset_sequence`, utility.hpp 131-140: `indices + offset...`. -/
def offsetSequence (offset : Nat) (indices : List Nat) : List Nat := indices.map (fun i => (i + offset) % 2 ^ 64)

/-- `index_of`, variant.hpp 46-64: `std::variant<tag<T>...>(tag<X>()).index()`. The converting constructor of `std::variant` is
overload resolution among the alternatives: only `tag<X>` itself accepts a `tag<X>`; it does not compile unless exactly one alternative
does. Types are numbers. -/
def indexOf (x : Nat) (ts : List Nat) : Option Nat :=
  match (ts.zipIdx).filter (fun p => p.1 = x) with
  | [p] => some p.2
  | _ => none

/-- `uint_size<n>::type` and `int_size<n>::type`, type_traits.hpp 63-159: the size of the type in bytes. -/
def intSize : Nat → Option Nat
  | 1 => some 1
  | 2 => some 2
  | 3 => some 4
  | 4 => some 4
  | 5 => some 8
  | 6 => some 8
  | 7 => some 8
  | 8 => some 8
  | _ => none

end Misc
end Utki
