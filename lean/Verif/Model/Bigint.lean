import Verif.Model.EiselLemire
/-!
# Model of the big integers of the vendored fast_float

/repo/src_deps/fast_float/fast_float.h: `stackvec`, the arithmetic on it and `bigint`.

A `stackvec` is the list of the limbs in use, least significant first; what lies in the buffer beyond its length is never read. A limb is a
`Nat` below `2 ^ limb_bits`. The functions that return `bool` through `FASTFLOAT_TRY` return the vector they leave behind and that `bool`.
A loop over all limbs from index 0 up is a recursion over the list.
-/
namespace Utki.FastFloat

variable [Platform]

/-- `limb_bits`. fast_float.h 2487, 2491. -/
def limb_bits : Nat := if Platform.limb64 then 64 else 32

/-- `bigint_limbs`: `bigint_bits / limb_bits`. fast_float.h 2500-2501. -/
def bigint_limbs : Nat := 4000 / limb_bits

/-- `stackvec<bigint_limbs>`. fast_float.h 2505-2613. -/
abbrev stackvec := List Nat

namespace stackvec

/-- `rindex(index)`: read from the end. fast_float.h 2530-2534. -/
def rindex (v : stackvec) (index : Nat) : Res Nat :=
  if index < v.length then rd v (v.length - index - 1) else .ub .oob_read

/-- `try_push(value)`. fast_float.h 2544-2556. -/
def try_push (v : stackvec) (value : Nat) : stackvec × Bool :=
  if v.length < bigint_limbs then (v ++ [value], true) else (v, false)

/-- `try_extend(s)`. fast_float.h 2558-2571. -/
def try_extend (v : stackvec) (s : List Nat) : stackvec × Bool :=
  if v.length + s.length ≤ bigint_limbs then (v ++ s, true) else (v, false)

/-- `try_resize(new_len, value)`. fast_float.h 2572-2595. -/
def try_resize (v : stackvec) (new_len : Nat) (value : Nat) : stackvec × Bool :=
  if new_len > bigint_limbs then (v, false)
  else if new_len > v.length then (v ++ List.replicate (new_len - v.length) value, true)
  else (v.take new_len, true)

/-- `nonzero(index)`: is a limb at or below the `index`-th from the top different from 0? fast_float.h 2599-2607. -/
def nonzero (v : stackvec) (index : Nat) : Bool := (v.reverse.drop index).any (· != 0)

/-- `normalize()`. fast_float.h 2609-2613. -/
def normalize (v : stackvec) : stackvec := (v.reverse.dropWhile (· == 0)).reverse

end stackvec

/-- `scalar_add(x, y, overflow)`. fast_float.h 2666-2683. -/
def scalar_add (x y : Nat) : Nat × Bool :=
  if Platform.add_overflow then ((x + y) % 2 ^ limb_bits, decide (x + y ≥ 2 ^ limb_bits))
  else
    let z := (x + y) % 2 ^ limb_bits
    (z, decide (z < x))

/-- `scalar_mul(x, y, carry)`: result and new carry. fast_float.h 2686-2709. -/
def scalar_mul (x y carry : Nat) : Nat × Nat :=
  if Platform.limb64 then
    if Platform.int128 then
      let z := (x * y + carry) % 2 ^ 128
      (z % 2 ^ 64, (z >>> limb_bits) % 2 ^ 64)
    else
      let z := full_multiplication x y
      let (low, overflow) := scalar_add z.low carry
      (low, (z.high + overflow.toNat) % 2 ^ 64)
  else
    let z := (x * y + carry) % 2 ^ 64
    (z % 2 ^ 32, (z >>> limb_bits) % 2 ^ 32)

/-- The loop of `small_add_from`, over the limbs from `start` on: new limbs and the carry left over. fast_float.h 2716-2723. -/
def add_carry : List Nat → Nat → List Nat × Nat
  | l, 0 => (l, 0)
  | [], carry => ([], carry)
  | x :: xs, carry =>
    let (z, overflow) := scalar_add x carry
    let (r, c) := add_carry xs overflow.toNat
    (z :: r, c)

/-- `small_add_from(vec, y, start)`. fast_float.h 2713-2728. -/
def small_add_from (v : stackvec) (y start : Nat) : stackvec × Bool :=
  let (l, carry) := add_carry (v.drop start) y
  let v := v.take start ++ l
  if carry ≠ 0 then stackvec.try_push v carry else (v, true)

/-- `small_add(vec, y)`. fast_float.h 2731-2735. -/
def small_add (v : stackvec) (y : Nat) : stackvec × Bool := small_add_from v y 0

/-- The loop of `small_mul`: new limbs and the carry left over. fast_float.h 2741-2744. -/
def mul_carry (y : Nat) : List Nat → Nat → List Nat × Nat
  | [], carry => ([], carry)
  | x :: xs, carry =>
    let (z, c) := scalar_mul x y carry
    let (r, c) := mul_carry y xs c
    (z :: r, c)

/-- `small_mul(vec, y)`. fast_float.h 2738-2749. -/
def small_mul (v : stackvec) (y : Nat) : stackvec × Bool :=
  let (v, carry) := mul_carry y v 0
  if carry ≠ 0 then stackvec.try_push v carry else (v, true)

/-- The loop of `large_add_from`: the limbs of `x` from `start` on, the limbs of `y`, the carry. fast_float.h 2762-2774. -/
def add_limbs : List Nat → List Nat → Bool → Res (List Nat × Bool)
  | xs, [], carry => return (xs, carry)
  | [], _ :: _, _ => .ub .oob_read
  | xi :: xs, yi :: ys, carry => do
    let (z, c1) := scalar_add xi yi
    let (z, c2) := if carry then scalar_add z 1 else (z, false)
    let (r, c) ← add_limbs xs ys (c1 || c2)
    return (z :: r, c)

/-- `large_add_from(x, y, start)`. fast_float.h 2753-2781. -/
def large_add_from (x : stackvec) (y : List Nat) (start : Nat) : Res (stackvec × Bool) := do
  let (x, ok) := if x.length < start ∨ y.length > x.length - start then x.try_resize (y.length + start) 0 else (x, true)
  if !ok then return (x, false)
  else
    let (l, carry) ← add_limbs (x.drop start) y false
    let x := x.take start ++ l
    if carry then return small_add_from x 1 (y.length + start)
    else return (x, true)

/-- The loop of `long_mul` over the limbs of `y` from index 1 on; `z` is the copy of the original `x`. fast_float.h 2800-2812. -/
def long_mul_loop (z : stackvec) (x : stackvec) : List Nat → Nat → Res (stackvec × Bool)
  | [], _ => return (x, true)
  | yi :: ys, index => do
    if yi ≠ 0 then
      let (zi, ok) := stackvec.try_extend [] z
      if !ok then return (x, false)
      else
        let (zi, ok) := small_mul zi yi
        if !ok then return (x, false)
        else
          let (x, ok) ← large_add_from x zi index
          if !ok then return (x, false)
          else long_mul_loop z x ys (index + 1)
    else long_mul_loop z x ys (index + 1)

/-- `long_mul(x, y)`. fast_float.h 2791-2816. -/
def long_mul (x : stackvec) (y : List Nat) : Res (stackvec × Bool) := do
  let z := (stackvec.try_extend [] x).1
  match y with
  | [] => return (x.normalize, true)
  | y0 :: ys =>
    let (x, ok) := small_mul x y0
    if !ok then return (x, false)
    else
      let (x, ok) ← long_mul_loop z x ys 1
      if !ok then return (x, false) else return (x.normalize, true)

/-- `large_mul(x, y)`. fast_float.h 2819-2827. -/
def large_mul (x : stackvec) (y : List Nat) : Res (stackvec × Bool) :=
  match y with
  | [y0] => .ok (small_mul x y0)
  | _ => long_mul x y

/-- `small_power_of_5`. fast_float.h 2831-2860. -/
def small_power_of_5 : List Nat := [
  1, 5, 25, 125, 625, 3125, 15625, 78125, 390625, 1953125, 9765625, 48828125, 244140625, 1220703125, 6103515625, 30517578125,
  152587890625, 762939453125, 3814697265625, 19073486328125, 95367431640625, 476837158203125, 2384185791015625, 11920928955078125,
  59604644775390625, 298023223876953125, 1490116119384765625, 7450580596923828125]

/-- `large_power_of_5`. fast_float.h 2861-2870. -/
def large_power_of_5 : List Nat :=
  if Platform.limb64 then
    [1414648277510068013, 9180637584431281687, 4539964771860779200, 10482974169319127550, 198276706040285095]
  else
    [4279965485, 329373468, 4020270615, 2137533757, 4287402176, 1057042919, 1071430142, 2440757623, 381945767, 46164893]

/-- `struct bigint`: its only member is the vector. fast_float.h 2882-2884. -/
abbrev bigint := stackvec

namespace bigint

/-- `bigint(value)`. fast_float.h 2892-2900. -/
def ofU64 (value : Nat) : bigint :=
  if Platform.limb64 then stackvec.normalize [value]
  else stackvec.normalize [value % 2 ^ 32, (value >>> 32) % 2 ^ 32]

/-- `uint64_hi64(r0, truncated)`. fast_float.h 2622-2627. -/
def uint64_hi64_1 (r0 : Nat) : Res (Nat × Bool) := do
  let shl ← leading_zeroes r0
  return ((r0 <<< shl) % 2 ^ 64, false)

/-- `uint64_hi64(r0, r1, truncated)`. fast_float.h 2629-2640. -/
def uint64_hi64_2 (r0 r1 : Nat) : Res (Nat × Bool) := do
  let shl ← leading_zeroes r0
  if shl = 0 then return (r0, decide (r1 ≠ 0))
  else
    let shr := 64 - shl
    return ((r0 <<< shl) % 2 ^ 64 ||| r1 >>> shr, decide ((r1 <<< shl) % 2 ^ 64 ≠ 0))

/-- `uint32_hi64(r0, truncated)`. fast_float.h 2642-2645. -/
def uint32_hi64_1 (r0 : Nat) : Res (Nat × Bool) := uint64_hi64_1 r0

/-- `uint32_hi64(r0, r1, truncated)`. fast_float.h 2647-2652. -/
def uint32_hi64_2 (r0 r1 : Nat) : Res (Nat × Bool) := uint64_hi64_1 ((r0 <<< 32) % 2 ^ 64 ||| r1)

/-- `uint32_hi64(r0, r1, r2, truncated)`. fast_float.h 2654-2660. -/
def uint32_hi64_3 (r0 r1 r2 : Nat) : Res (Nat × Bool) := uint64_hi64_2 r0 ((r1 <<< 32) % 2 ^ 64 ||| r2)

/-- `hi64(truncated)` with 32-bit limbs. fast_float.h 2916-2928. -/
def hi64_limb32 (v : bigint) : Res (Nat × Bool) := do
  if v.length = 0 then return (0, false)
  else if v.length = 1 then
    let r0 ← stackvec.rindex v 0
    uint32_hi64_1 r0
  else if v.length = 2 then
    let r0 ← stackvec.rindex v 0
    let r1 ← stackvec.rindex v 1
    uint32_hi64_2 r0 r1
  else
    let r0 ← stackvec.rindex v 0
    let r1 ← stackvec.rindex v 1
    let r2 ← stackvec.rindex v 2
    let (result, truncated) ← uint32_hi64_3 r0 r1 r2
    return (result, truncated || stackvec.nonzero v 3)

/-- `hi64(truncated)` with 64-bit limbs. fast_float.h 2906-2914. -/
def hi64_limb64 (v : bigint) : Res (Nat × Bool) := do
  if v.length = 0 then return (0, false)
  else if v.length = 1 then
    let r0 ← stackvec.rindex v 0
    uint64_hi64_1 r0
  else
    let r0 ← stackvec.rindex v 0
    let r1 ← stackvec.rindex v 1
    let (result, truncated) ← uint64_hi64_2 r0 r1
    return (result, truncated || stackvec.nonzero v 2)

/-- `hi64(truncated)`. fast_float.h 2904-2930. -/
def hi64 (v : bigint) : Res (Nat × Bool) := if Platform.limb64 then hi64_limb64 v else hi64_limb32 v

/-- The loop of `compare`, over the limbs from the top down. fast_float.h 2943-2952. -/
def compare_loop : List Nat → List Nat → Int
  | xi :: xs, yi :: ys => if xi > yi then 1 else if xi < yi then -1 else compare_loop xs ys
  | _, _ => 0

/-- `compare(other)`. fast_float.h 2937-2954. -/
def compare (v other : bigint) : Int :=
  if v.length > other.length then 1
  else if v.length < other.length then -1
  else compare_loop v.reverse other.reverse

/-- The loop of `shl_bits`: new limbs and the last old limb. fast_float.h 2967-2974. -/
def shl_loop (shl : Nat) : List Nat → Nat → List Nat × Nat
  | [], prev => ([], prev)
  | xi :: xs, prev =>
    let (r, p) := shl_loop shl xs xi
    (((xi <<< shl) % 2 ^ limb_bits ||| prev >>> (limb_bits - shl)) :: r, p)

/-- `shl_bits(n)`. fast_float.h 2958-2981. -/
def shl_bits (v : bigint) (n : Nat) : bigint × Bool :=
  let (v, prev) := shl_loop n v 0
  let carry := prev >>> (limb_bits - n)
  if carry ≠ 0 then stackvec.try_push v carry else (v, true)

/-- `shl_limbs(n)`. fast_float.h 2984-3002. -/
def shl_limbs (v : bigint) (n : Nat) : bigint × Bool :=
  if n + v.length > bigint_limbs then (v, false)
  else if v.length ≠ 0 then (List.replicate n 0 ++ v, true)
  else (v, true)

/-- `shl(n)`. fast_float.h 3005-3015. -/
def shl (v : bigint) (n : Nat) : bigint × Bool :=
  let rem := n % limb_bits
  let div := n / limb_bits
  let (v, ok) := if rem ≠ 0 then shl_bits v rem else (v, true)
  if !ok then (v, false)
  else if div ≠ 0 then shl_limbs v div else (v, true)

/-- `ctlz()`. fast_float.h 3018-3030. -/
def ctlz (v : bigint) : Res Nat := do
  if v.length = 0 then return 0
  else
    let r0 ← stackvec.rindex v 0
    if Platform.limb64 then leading_zeroes r0 else leading_zeroes ((r0 <<< 32) % 2 ^ 64)

/-- `bit_length()`. fast_float.h 3033-3036. -/
def bit_length (v : bigint) : Res Int := do
  let lz ← ctlz v
  return ((limb_bits * v.length : Nat) : Int) - lz

/-- `while (exp >= large_step)`: the vector, success and what is left of `exp`. fast_float.h 3050-3053. -/
def pow5_large (v : bigint) (exp : Nat) : Res (bigint × Bool × Nat) :=
  if _h : 135 ≤ exp then do
    let (v, ok) ← large_mul v large_power_of_5
    if !ok then return (v, false, exp)
    else pow5_large v (exp - 135)
  else .ok (v, true, exp)
termination_by exp
decreasing_by omega

/-- `small_step`. fast_float.h 3055, 3058. -/
def small_step : Nat := if Platform.limb64 then 27 else 13

/-- `max_native`. fast_float.h 3056, 3059. -/
def max_native : Nat := if Platform.limb64 then 7450580596923828125 else 1220703125

/-- `while (exp >= small_step)`. fast_float.h 3061-3064. -/
def pow5_small (v : bigint) (exp : Nat) : bigint × Bool × Nat :=
  if _h : small_step ≤ exp then
    let r := small_mul v max_native
    if !r.2 then (r.1, false, exp)
    else pow5_small r.1 (exp - small_step)
  else (v, true, exp)
termination_by exp
decreasing_by
  have : 0 < small_step := by unfold small_step; split <;> decide
  omega

/-- `pow5(exp)`. fast_float.h 3046-3074. -/
def pow5 (v : bigint) (exp : Nat) : Res (bigint × Bool) := do
  let (v, ok, exp) ← pow5_large v exp
  if !ok then return (v, false)
  else
    let (v, ok, exp) := pow5_small v exp
    if !ok then return (v, false)
    else if exp ≠ 0 then
      let p ← rd small_power_of_5 exp
      return small_mul v (p % 2 ^ limb_bits)
    else return (v, true)

/-- `pow10(exp)`. fast_float.h 3077-3080. -/
def pow10 (v : bigint) (exp : Nat) : Res (bigint × Bool) := do
  let (v, ok) ← pow5 v exp
  if !ok then return (v, false) else return shl v exp

end bigint

end Utki.FastFloat
