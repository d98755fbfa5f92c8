import Verif.Model.Bigint
import Verif.Model.FloatParse
/-!
# Model of the exact decimal-to-binary conversion of the vendored fast_float

/repo/src_deps/fast_float/fast_float.h 3098-3534, for `UC = char`: what decides the rounding of numbers with more than 19 digits.

As in the other models of this library: pointers are indices into the text, reads go through `rd`; `uint64_t` and `size_t` are `Nat`s with the
wrap-around written out where it can happen; `int32_t` is `Int`; a null `fraction.ptr` is the start index 0, where no fraction can start.
`FASTFLOAT_ASSERT(x)` evaluates `x` and drops the result. A shift by an amount the type does not allow is undefined behaviour.
-/
namespace Utki.FastFloat

variable [Platform]

/-- `powers_of_ten_uint64`. fast_float.h 3099-3118. -/
def powers_of_ten_uint64 : List Nat := [
  1, 10, 100, 1000, 10000, 100000, 1000000, 10000000, 100000000, 1000000000, 10000000000, 100000000000, 1000000000000,
  10000000000000, 100000000000000, 1000000000000000, 10000000000000000, 100000000000000000, 1000000000000000000,
  10000000000000000000]

/-- `while (mantissa >= d) { mantissa /= d; exponent += k; }`; `d` is 10000, 100 or 10. fast_float.h 3129-3132, 3133-3136, 3137-3140. -/
def scientific_loop (d : Nat) (k : Int) (mantissa : Nat) (exponent : Int) : Nat × Int :=
  if _h : 2 ≤ d ∧ d ≤ mantissa then scientific_loop d k (mantissa / d) (exponent + k) else (mantissa, exponent)
termination_by mantissa
decreasing_by exact Nat.div_lt_self (by omega) (by omega)

/-- `scientific_exponent(num)`. fast_float.h 3124-3142. -/
def scientific_exponent (num : parsed_number_string) : Int :=
  let r := scientific_loop 10000 4 num.mantissa num.exponent
  let r := scientific_loop 100 2 r.1 r.2
  let r := scientific_loop 10 1 r.1 r.2
  r.2

/-- `binary_format<T>::mantissa_explicit_bits() - binary_format<T>::minimum_exponent()`. fast_float.h 3154-3155, 3431-3432. -/
def Format.extended_bias (b : Format) : Int := b.mantissa_explicit_bits - b.minimum_exponent

/-- `to_extended(value)`; the argument is the bit pattern of `value`. fast_float.h 3145-3175. -/
def to_extended (b : Format) (bits : Nat) : adjusted_mantissa :=
  if bits &&& b.exponent_mask = 0 then
    { power2 := 1 - b.extended_bias, mantissa := bits &&& b.mantissa_mask }
  else
    { power2 := (((bits &&& b.exponent_mask) >>> b.mantissa_explicit_bits : Nat) : Int) - b.extended_bias
      mantissa := (bits &&& b.mantissa_mask) ||| b.hidden_bit_mask }

/-- `to_extended_halfway(value)`. fast_float.h 3180-3188. -/
def to_extended_halfway (b : Format) (bits : Nat) : adjusted_mantissa :=
  let am := to_extended b bits
  { mantissa := ((am.mantissa <<< 1) % 2 ^ 64 + 1) % 2 ^ 64, power2 := am.power2 - 1 }

/-- `round(am, cb)`. fast_float.h 3191-3223. -/
def round (b : Format) (am : adjusted_mantissa) (cb : adjusted_mantissa → Int → Res adjusted_mantissa) : Res adjusted_mantissa := do
  let mantissa_shift : Int := 64 - b.mantissa_explicit_bits - 1
  if -am.power2 ≥ mantissa_shift then
    let shift := -am.power2 + 1
    let am ← cb am (min shift 64)
    return { mantissa := am.mantissa, power2 := if am.mantissa < 1 <<< b.mantissa_explicit_bits then 0 else 1 }
  else
    let am ← cb am mantissa_shift
    let am : adjusted_mantissa :=
      if am.mantissa ≥ 2 <<< b.mantissa_explicit_bits then
        { mantissa := 1 <<< b.mantissa_explicit_bits, power2 := am.power2 + 1 }
      else am
    let mantissa := am.mantissa &&& ((2 ^ 64 - 1) ^^^ (1 <<< b.mantissa_explicit_bits))
    if am.power2 ≥ b.infinite_power then return { mantissa := 0, power2 := b.infinite_power }
    else return { mantissa := mantissa, power2 := am.power2 }

/-- `am.mantissa = 0` or `am.mantissa >>= shift`, then `am.power2 += shift`: `round_down(am, shift)`, and the same lines of
`round_nearest_tie_even`. fast_float.h 3247-3255, 3236-3241. -/
def round_down (am : adjusted_mantissa) (shift : Int) : Res adjusted_mantissa :=
  if shift < 0 ∨ 64 < shift then .ub .bad_shift
  else .ok { mantissa := if shift = 64 then 0 else am.mantissa >>> shift.toNat, power2 := am.power2 + shift }

/-- `round_nearest_tie_even(am, shift, cb)`; the callback gets `is_odd`, `is_halfway`, `is_above`. fast_float.h 3225-3245. -/
def round_nearest_tie_even (am : adjusted_mantissa) (shift : Int) (cb : Bool → Bool → Bool → Bool) : Res adjusted_mantissa := do
  let r ← round_down am shift
  let mask := if shift = 64 then 2 ^ 64 - 1 else 2 ^ shift.toNat - 1
  let halfway := if shift = 0 then 0 else 2 ^ (shift.toNat - 1)
  let truncated_bits := am.mantissa &&& mask
  let is_above := decide (truncated_bits > halfway)
  let is_halfway := decide (truncated_bits = halfway)
  let is_odd := decide (r.mantissa &&& 1 = 1)
  return { mantissa := (r.mantissa + (cb is_odd is_halfway is_above).toNat) % 2 ^ 64, power2 := r.power2 }

/-- `int_cmp_zeros<char>()`. fast_float.h 816-824. -/
def int_cmp_zeros : Nat := 0x3030303030303030

/-- The first loop of `skip_zeros`, eight characters at a time. fast_float.h 3260-3267. -/
def skip_zeros8 (s : List Byte) (first last : Nat) : Res Nat :=
  if _h : first + 8 ≤ last then do
    let val ← read8_to_u64 s first
    if val ≠ int_cmp_zeros then return first else skip_zeros8 s (first + 8) last
  else .ok first
termination_by last - first
decreasing_by omega

/-- The second loop of `skip_zeros`; the third argument is `last - first`. fast_float.h 3268-3273. -/
def skip_zeros1 (s : List Byte) (first : Nat) : Nat → Res Nat
  | 0 => return first
  | n + 1 => do
    let c ← rd s first
    if c ≠ ch '0' then return first else skip_zeros1 s (first + 1) n

/-- `skip_zeros(first, last)`. fast_float.h 3256-3274. -/
def skip_zeros_range (s : List Byte) (first last : Nat) : Res Nat := do
  let first ← skip_zeros8 s first last
  skip_zeros1 s first (last - first)

/-- The first loop of `is_truncated`: where it ends, or `none` for `return true`. fast_float.h 3283-3290. -/
def is_truncated8 (s : List Byte) (first last : Nat) : Res (Option Nat) :=
  if _h : first + 8 ≤ last then do
    let val ← read8_to_u64 s first
    if val ≠ int_cmp_zeros then return none else is_truncated8 s (first + 8) last
  else .ok (some first)
termination_by last - first
decreasing_by omega

/-- The second loop of `is_truncated`; the third argument is `last - first`. fast_float.h 3291-3297. -/
def is_truncated1 (s : List Byte) (first : Nat) : Nat → Res Bool
  | 0 => return false
  | n + 1 => do
    let c ← rd s first
    if c ≠ ch '0' then return true else is_truncated1 s (first + 1) n

/-- `is_truncated(first, last)`. fast_float.h 3278-3298. -/
def is_truncated (s : List Byte) (first last : Nat) : Res Bool := do
  let r ← is_truncated8 s first last
  match r with
  | none => return true
  | some first => is_truncated1 s first (last - first)

/-- The number of values of `size_t`. -/
def size_range : Nat := if Platform.size64 then 2 ^ 64 else 2 ^ 32

/-- `step`. fast_float.h 3351, 3353. -/
def step : Nat := if Platform.limb64 then 19 else 9

/-- The loop over `parse_eight_digits(p, value, counter, digits)`. Returns the four. fast_float.h 3362-3365, 3396-3399, 3305-3313. -/
def eight_digits_loop (s : List Byte) (pend max_digits : Nat) (p value counter digits : Nat) : Res (Nat × Nat × Nat × Nat) :=
  if _h : p + 8 ≤ pend ∧ (step + size_range - counter) % size_range ≥ 8 ∧ (max_digits + size_range - digits) % size_range ≥ 8 then do
    let val ← read8_to_u64 s p
    eight_digits_loop s pend max_digits (p + 8) ((value * 100000000 + parse_eight_digits_unrolled val) % 2 ^ limb_bits) (counter + 8)
      (digits + 8)
  else .ok (p, value, counter, digits)
termination_by pend - p
decreasing_by omega

/-- The loop over `parse_one_digit(p, value, counter, digits)`. fast_float.h 3366-3368, 3400-3402, 3315-3323. -/
def one_digit_loop (s : List Byte) (pend max_digits : Nat) (p value counter digits : Nat) : Res (Nat × Nat × Nat × Nat) :=
  if _h : counter < step ∧ p ≠ pend ∧ digits < max_digits then do
    let c ← rd s p
    one_digit_loop s pend max_digits (p + 1) ((value * 10 + ((c.toInt - 48) % 2 ^ limb_bits).toNat) % 2 ^ limb_bits) (counter + 1)
      (digits + 1)
  else .ok (p, value, counter, digits)
termination_by step - counter
decreasing_by omega

/-- `add_native(big, power, value)`. fast_float.h 3325-3329. -/
def add_native (big : bigint) (power value : Nat) : bigint :=
  (small_add (small_mul big power).1 value).1

/-- `round_up_bigint(big, count)`. fast_float.h 3331-3337. -/
def round_up_bigint (big : bigint) (count : Nat) : bigint × Nat := (add_native big 10 1, count + 1)

/-- `limb(powers_of_ten_uint64[counter])`. fast_float.h 3371, 3381, 3405, 3412, 3420. -/
def limb_power_of_ten (counter : Nat) : Res Nat := do
  let power ← rd powers_of_ten_uint64 counter
  return power % 2 ^ limb_bits

/-- How one of the two outer loops of `parse_mantissa` ends: by `return` with the result and the number of digits, or because
the range is exhausted, with the variables as they are then. -/
inductive MantissaLoop where
  | returned (result : bigint) (digits : Nat)
  | exhausted (result : bigint) (digits value counter : Nat)

/-- `while (p != pend)`. `more` is `is_truncated(num.fraction)` in the loop over the integer part, where there is a fraction, and `false`
otherwise. The first argument bounds the number of rounds; running out of it is the outcome `diverge`. fast_float.h 3361-3385, 3395-3416. -/
def mantissa_loop (s : List Byte) (pend max_digits : Nat) (more : Res Bool) :
    Nat → Nat → Nat → Nat → Nat → bigint → Res MantissaLoop
  | 0, _, _, _, _, _ => .diverge
  | fuel + 1, p, value, counter, digits, result =>
    if p ≠ pend then do
      let (p, value, counter, digits) ← eight_digits_loop s pend max_digits p value counter digits
      let (p, value, counter, digits) ← one_digit_loop s pend max_digits p value counter digits
      let power ← limb_power_of_ten counter
      if digits = max_digits then
        let result := add_native result power value
        let truncated ← is_truncated s p pend
        let truncated2 ← more
        if truncated || truncated2 then
          let (result, digits) := round_up_bigint result digits
          return .returned result digits
        else return .returned result digits
      else
        let result := add_native result power value
        mantissa_loop s pend max_digits more fuel p 0 0 digits result
    else return .exhausted result digits value counter

/-- The part of `parse_mantissa` after the integer part. fast_float.h 3387-3422. -/
def parse_mantissa_fraction (s : List Byte) (num : parsed_number_string) (max_digits : Nat) (result : bigint)
    (digits value counter : Nat) : Res (bigint × Nat) := do
  let r ← (if num.fraction.1 ≠ 0 then do
      let pend := num.fraction.1 + num.fraction.2
      let p ← (if digits = 0 then skip_zeros_range s num.fraction.1 pend else .ok num.fraction.1 : Res Nat)
      mantissa_loop s pend max_digits (.ok false) (pend - p + 1) p value counter digits result
    else .ok (.exhausted result digits value counter) : Res MantissaLoop)
  match r with
  | .returned result digits => return (result, digits)
  | .exhausted result digits value counter =>
    if counter ≠ 0 then
      let power ← limb_power_of_ten counter
      return (add_native result power value, digits)
    else return (result, digits)

/-- `parse_mantissa(result, num, max_digits, digits)`: what it leaves in `result`, which is 0 at first, and in `digits`. fast_float.h 3340-3422. -/
def parse_mantissa (s : List Byte) (num : parsed_number_string) (max_digits : Nat) : Res (bigint × Nat) := do
  let pend := num.integer.1 + num.integer.2
  let p ← skip_zeros_range s num.integer.1 pend
  let more : Res Bool := if num.fraction.1 ≠ 0 then is_truncated s num.fraction.1 (num.fraction.1 + num.fraction.2) else .ok false
  let r ← mantissa_loop s pend max_digits more (pend - p + 1) p 0 0 0 []
  match r with
  | .returned result digits => return (result, digits)
  | .exhausted result digits value counter => parse_mantissa_fraction s num max_digits result digits value counter

/-- `positive_digit_comp(bigmant, exponent)`. fast_float.h 3424-3445. -/
def positive_digit_comp (b : Format) (bigmant : bigint) (exponent : Int) : Res adjusted_mantissa := do
  let (bigmant, _) ← bigint.pow10 bigmant exponent.toNat
  let (mantissa, truncated) ← bigint.hi64 bigmant
  let bl ← bigint.bit_length bigmant
  round b { mantissa := mantissa, power2 := bl - 64 + b.extended_bias } fun a shift =>
    round_nearest_tie_even a shift fun is_odd is_halfway is_above =>
      is_above || (is_halfway && truncated) || (is_odd && is_halfway)

/-- `negative_digit_comp(bigmant, am, exponent)`. fast_float.h 3452-3501. -/
def negative_digit_comp (b : Format) (bigmant : bigint) (am : adjusted_mantissa) (exponent : Int) : Res adjusted_mantissa := do
  let real_digits := bigmant
  let real_exp := exponent
  let am_b ← round b am round_down
  let bits := to_float b false am_b
  let theor := to_extended_halfway b bits
  let theor_digits := bigint.ofU64 theor.mantissa
  let theor_exp := theor.power2
  let pow2_exp := theor_exp - real_exp
  let pow5_exp := (-real_exp).toNat
  let (theor_digits, _) ← (if pow5_exp ≠ 0 then bigint.pow5 theor_digits pow5_exp else .ok (theor_digits, true) : Res (bigint × Bool))
  let theor_digits := if pow2_exp > 0 then (bigint.shl theor_digits pow2_exp.toNat).1 else theor_digits
  let real_digits := if pow2_exp < 0 then (bigint.shl real_digits (-pow2_exp).toNat).1 else real_digits
  let ord := bigint.compare real_digits theor_digits
  round b am fun a shift =>
    round_nearest_tie_even a shift fun is_odd _ _ => if ord > 0 then true else if ord < 0 then false else is_odd

/-- `digit_comp(num, am)`. fast_float.h 3516-3534. -/
def digit_comp (b : Format) (s : List Byte) (num : parsed_number_string) (am : adjusted_mantissa) : Res adjusted_mantissa := do
  let am : adjusted_mantissa := { am with power2 := am.power2 - invalid_am_bias }
  let sci_exp := scientific_exponent num
  let (bigmant, digits) ← parse_mantissa s num b.max_digits
  let exponent := sci_exp + 1 - digits
  if exponent ≥ 0 then positive_digit_comp b bigmant exponent
  else negative_digit_comp b bigmant am exponent

end Utki.FastFloat
