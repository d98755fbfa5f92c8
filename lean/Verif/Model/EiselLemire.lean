import Verif.Core
import Verif.Model.Platform
import Verif.Model.FloatTable
/-!
# Model of the 64-bit decimal-to-binary step of the vendored fast_float

/repo/src_deps/fast_float/fast_float.h: `binary_format`, `full_multiplication`, `compute_product_approximation`,
`compute_float`, `compute_error`, `to_float`.

Conventions: `uint64_t` is a `Nat` below `2^64`, with the wrap-around written out where the code can wrap; `int32_t`/`int64_t`
are `Int`, unbounded — the values that occur are below 2000 in size (`q` is only converted to `int32_t` after it has been
compared with the table bounds), so nothing is lost. Reads of the table go through `rd`: an index outside it is undefined behaviour.
What depends on the platform is in Model/Platform.lean.
-/
namespace Utki.FastFloat

/-- `binary_format<T>`: the constants of a floating-point type. fast_float.h 507-531. -/
structure Format where
  mantissa_explicit_bits : Nat
  minimum_exponent : Int
  infinite_power : Int
  sign_index : Nat
  min_exponent_fast_path : Int
  max_exponent_fast_path : Int
  max_exponent_round_to_even : Int
  min_exponent_round_to_even : Int
  largest_power_of_ten : Int
  smallest_power_of_ten : Int
  max_digits : Nat
  exponent_mask : Nat
  mantissa_mask : Nat
  hidden_bit_mask : Nat
  /-- the numbers in `powers_of_ten`; the literals `1e0` to `1e22` (`1e10f`) are exactly representable -/
  powers_of_ten : List Nat
  max_mantissa : List Nat

/-- `binary_format<double>`. fast_float.h 534-574, 609-778; the exponents of the fast path are
those for `FLT_EVAL_METHOD` 0 and 1. -/
def fmtDouble : Format where
  mantissa_explicit_bits := 52
  minimum_exponent := -1023
  infinite_power := 0x7FF
  sign_index := 63
  min_exponent_fast_path := -22
  max_exponent_fast_path := 22
  max_exponent_round_to_even := 23
  min_exponent_round_to_even := -4
  largest_power_of_ten := 308
  smallest_power_of_ten := -342
  max_digits := 769
  exponent_mask := 0x7FF0000000000000
  mantissa_mask := 0x000FFFFFFFFFFFFF
  hidden_bit_mask := 0x0010000000000000
  powers_of_ten := [
    1, 10, 100, 1000, 10000, 100000, 1000000, 10000000, 100000000, 1000000000, 10000000000, 100000000000,
    1000000000000, 10000000000000, 100000000000000, 1000000000000000, 10000000000000000, 100000000000000000,
    1000000000000000000, 10000000000000000000, 100000000000000000000, 1000000000000000000000, 10000000000000000000000]
  max_mantissa := [
    0x20000000000000, 0x20000000000000 / 5, 0x20000000000000 / (5 * 5), 0x20000000000000 / (5 * 5 * 5),
    0x20000000000000 / (5 * 5 * 5 * 5), 0x20000000000000 / 3125, 0x20000000000000 / (3125 * 5),
    0x20000000000000 / (3125 * 5 * 5), 0x20000000000000 / (3125 * 5 * 5 * 5), 0x20000000000000 / (3125 * 5 * 5 * 5 * 5),
    0x20000000000000 / (3125 * 3125), 0x20000000000000 / (3125 * 3125 * 5), 0x20000000000000 / (3125 * 3125 * 5 * 5),
    0x20000000000000 / (3125 * 3125 * 5 * 5 * 5), 0x20000000000000 / (3125 * 3125 * 3125),
    0x20000000000000 / (3125 * 3125 * 3125 * 5), 0x20000000000000 / (3125 * 3125 * 3125 * 5 * 5),
    0x20000000000000 / (3125 * 3125 * 3125 * 5 * 5 * 5), 0x20000000000000 / (3125 * 3125 * 3125 * 5 * 5 * 5 * 5),
    0x20000000000000 / (3125 * 3125 * 3125 * 3125), 0x20000000000000 / (3125 * 3125 * 3125 * 3125 * 5),
    0x20000000000000 / (3125 * 3125 * 3125 * 3125 * 5 * 5), 0x20000000000000 / (3125 * 3125 * 3125 * 3125 * 5 * 5 * 5),
    0x20000000000000 / (3125 * 3125 * 3125 * 3125 * 5 * 5 * 5 * 5)]

/-- `binary_format<float>`. fast_float.h 582-601, 609-778; the exponents of the fast path are
those for `FLT_EVAL_METHOD` 0 and 1. -/
def fmtFloat : Format where
  mantissa_explicit_bits := 23
  minimum_exponent := -127
  infinite_power := 0xFF
  sign_index := 31
  min_exponent_fast_path := -10
  max_exponent_fast_path := 10
  max_exponent_round_to_even := 10
  min_exponent_round_to_even := -17
  largest_power_of_ten := 38
  smallest_power_of_ten := -64
  max_digits := 114
  exponent_mask := 0x7F800000
  mantissa_mask := 0x007FFFFF
  hidden_bit_mask := 0x00800000
  powers_of_ten := [1, 10, 100, 1000, 10000, 100000, 1000000, 10000000, 100000000, 1000000000, 10000000000]
  max_mantissa := [
    0x1000000, 0x1000000 / 5, 0x1000000 / (5 * 5), 0x1000000 / (5 * 5 * 5), 0x1000000 / (5 * 5 * 5 * 5),
    0x1000000 / 3125, 0x1000000 / (3125 * 5), 0x1000000 / (3125 * 5 * 5), 0x1000000 / (3125 * 5 * 5 * 5),
    0x1000000 / (3125 * 5 * 5 * 5 * 5), 0x1000000 / (3125 * 3125), 0x1000000 / (3125 * 3125 * 5)]

/-- `max_mantissa_fast_path()`: `uint64_t(2) << mantissa_explicit_bits()`. fast_float.h 686-689, 699-702. -/
def Format.max_mantissa_fast_path (b : Format) : Nat := 2 <<< b.mantissa_explicit_bits

/-- `struct value128`. fast_float.h 375-380. -/
structure value128 where
  low : Nat
  high : Nat
  deriving DecidableEq, Repr

/-- `struct adjusted_mantissa` with its defaulted comparison. fast_float.h 489-499. -/
structure adjusted_mantissa where
  mantissa : Nat
  power2 : Int
  deriving DecidableEq, Repr

/-- `invalid_am_bias`. fast_float.h 501-502. -/
def invalid_am_bias : Int := -0x8000

/-- `if (input_num & mask) { input_num >>= k; last_bit |= k; }`, on the pair of the two variables. fast_float.h 385-404. -/
def clz_step (mask k : Nat) (s : Nat × Nat) : Nat × Nat :=
  if s.1 &&& mask ≠ 0 then (s.1 >>> k, s.2 ||| k) else s

/-- `leading_zeroes_generic(input_num)`. fast_float.h 382-409. -/
def leading_zeroes_generic (input_num : Nat) : Nat :=
  let s := clz_step 0xffffffff00000000 32 (input_num, 0)
  let s := clz_step 0xffff0000 16 s
  let s := clz_step 0xff00 8 s
  let s := clz_step 0xf0 4 s
  let s := clz_step 0xc 2 s
  let last_bit := if s.1 &&& 0x2 ≠ 0 then s.2 ||| 1 else s.2
  63 - last_bit

/-- `leading_zeroes(input_num)`: the intrinsics are undefined for 0, and the `assert` says the same. fast_float.h 411-431. -/
def leading_zeroes [Platform] (input_num : Nat) : Res Nat :=
  if input_num = 0 then .ub .bad_argument
  else if Platform.clz then .ok (63 - input_num.log2)
  else .ok (leading_zeroes_generic input_num)

/-- `emulu(x, y)`; the arguments are 32-bit numbers. fast_float.h 434-436. -/
def emulu (x y : Nat) : Nat := x * y % 2 ^ 64

/-- `umul128_generic(ab, cd, hi)`. fast_float.h 438-448. -/
def umul128_generic (ab cd : Nat) : value128 :=
  let ad := emulu ((ab >>> 32) % 2 ^ 32) (cd % 2 ^ 32)
  let bd := emulu (ab % 2 ^ 32) (cd % 2 ^ 32)
  let adbc := (ad + emulu (ab % 2 ^ 32) ((cd >>> 32) % 2 ^ 32)) % 2 ^ 64
  let adbc_carry := (decide (adbc < ad)).toNat
  let lo := (bd + (adbc <<< 32) % 2 ^ 64) % 2 ^ 64
  let hi := (emulu ((ab >>> 32) % 2 ^ 32) ((cd >>> 32) % 2 ^ 32) + (adbc >>> 32) + (adbc_carry <<< 32) +
    (decide (lo < bd)).toNat) % 2 ^ 64
  { low := lo, high := hi }

/-- `full_multiplication(a, b)`. fast_float.h 463-487. -/
def full_multiplication [Platform] (a b : Nat) : value128 :=
  if Platform.wide_product then { low := a * b % 2 ^ 64, high := a * b / 2 ^ 64 % 2 ^ 64 }
  else umul128_generic a b

/-- `compute_product_approximation<bit_precision>(q, w)`. fast_float.h 2269-2301. `bit_precision` is 55 or 26. -/
def compute_product_approximation [Platform] (bit_precision : Nat) (q : Int) (w : Nat) : Res value128 := do
  let index := (2 * (q - fmtDouble.smallest_power_of_ten)).toNat
  let hi ← rd power_of_five_128 index
  let firstproduct := full_multiplication w hi
  let precision_mask := (2 ^ 64 - 1) >>> bit_precision
  if firstproduct.high &&& precision_mask = precision_mask then
    let lo ← rd power_of_five_128 (index + 1)
    let secondproduct := full_multiplication w lo
    let low := (firstproduct.low + secondproduct.high) % 2 ^ 64
    if secondproduct.high > low then
      return { low := low, high := (firstproduct.high + 1) % 2 ^ 64 }
    else
      return { low := low, high := firstproduct.high }
  else
    return firstproduct

/-- `detail::power(q)`; the shift of a negative number is arithmetic. fast_float.h 2319-2321. -/
def power (q : Int) : Int := ((152170 + 65536) * q) >>> 16 + 63

/-- `compute_error_scaled<binary>(q, w, lz)`. fast_float.h 2324-2336. -/
def compute_error_scaled (b : Format) (q : Int) (w : Nat) (lz : Int) : adjusted_mantissa :=
  let hilz := (w >>> 63) ^^^ 1
  let bias := b.mantissa_explicit_bits - b.minimum_exponent
  { mantissa := (w <<< hilz) % 2 ^ 64
    power2 := power q + bias - hilz - lz - 62 + invalid_am_bias }

/-- `compute_error<binary>(q, w)`. fast_float.h 2338-2348. -/
def compute_error [Platform] (b : Format) (q : Int) (w : Nat) : Res adjusted_mantissa := do
  let lz ← leading_zeroes w
  let w := (w <<< lz) % 2 ^ 64
  let product ← compute_product_approximation (b.mantissa_explicit_bits + 3) q w
  return compute_error_scaled b q product.high lz

/-- The part of `compute_float` for results below the normal range: `power2 ≤ 0` on entry. fast_float.h 2402-2430. -/
def compute_float_subnormal (b : Format) (mantissa : Nat) (power2 : Int) : adjusted_mantissa :=
  if -power2 + 1 ≥ 64 then
    { mantissa := 0, power2 := 0 }
  else
    let mantissa := mantissa >>> (-power2 + 1).toNat
    let mantissa := mantissa + (mantissa &&& 1)
    let mantissa := mantissa >>> 1
    { mantissa := mantissa
      power2 := if mantissa < 1 <<< b.mantissa_explicit_bits then 0 else 1 }

/-- The last part of `compute_float`, rounding in the normal range; `round_down` is the outcome of the test for a tie.
`mantissa &= ~uint64_t(1)` clears the lowest bit. fast_float.h 2432-2460. -/
def compute_float_normal (b : Format) (mantissa : Nat) (power2 : Int) (round_down : Bool) : adjusted_mantissa :=
  let mantissa := if round_down then mantissa - (mantissa &&& 1) else mantissa
  let mantissa := mantissa + (mantissa &&& 1)
  let mantissa := mantissa >>> 1
  let (mantissa, power2) :=
    if mantissa ≥ 2 <<< b.mantissa_explicit_bits then (1 <<< b.mantissa_explicit_bits, power2 + 1)
    else (mantissa, power2)
  let mantissa := mantissa &&& ((2 ^ 64 - 1) ^^^ (1 <<< b.mantissa_explicit_bits))
  if power2 ≥ b.infinite_power then { mantissa := 0, power2 := b.infinite_power }
  else { mantissa := mantissa, power2 := power2 }

/-- `compute_float<binary>(q, w)`. fast_float.h 2350-2461. -/
def compute_float [Platform] (b : Format) (q : Int) (w : Nat) : Res adjusted_mantissa :=
  if w = 0 ∨ q < b.smallest_power_of_ten then .ok { mantissa := 0, power2 := 0 }
  else if q > b.largest_power_of_ten then .ok { mantissa := 0, power2 := b.infinite_power }
  else do
    let lz ← leading_zeroes w
    let w := (w <<< lz) % 2 ^ 64
    let product ← compute_product_approximation (b.mantissa_explicit_bits + 3) q w
    let upperbit := product.high >>> 63
    let shift := upperbit + 64 - b.mantissa_explicit_bits - 3
    let mantissa := product.high >>> shift
    let power2 := power q + upperbit - lz - b.minimum_exponent
    if power2 ≤ 0 then
      return compute_float_subnormal b mantissa power2
    else
      let round_down :=
        product.low ≤ 1 ∧ q ≥ b.min_exponent_round_to_even ∧ q ≤ b.max_exponent_round_to_even ∧ mantissa &&& 3 = 1 ∧
        (mantissa <<< shift) % 2 ^ 64 = product.high
      return compute_float_normal b mantissa power2 (decide round_down)

/-- `to_float(negative, am, value)`: the bit pattern of the result. fast_float.h 780-793.
`power2` is between 0 and `infinite_power` whenever the code gets here. -/
def to_float (b : Format) (negative : Bool) (am : adjusted_mantissa) : Nat :=
  am.mantissa ||| (am.power2.toNat <<< b.mantissa_explicit_bits) ||| (negative.toNat <<< b.sign_index)

end Utki.FastFloat
