import Verif.Model.DigitComp
import Verif.Model.Parser
/-!
# Model of `utki::from_chars` for floating-point numbers

/repo/src/utki/string.cpp 249-317 and the entry points of the vendored fast_float it calls,
/repo/src_deps/fast_float/fast_float.h 3611-3857, for `UC = char`.

A floating-point value is its bit pattern. The arithmetic the code leaves to the processor is a parameter, `Fpu`: what is assumed about it
is in Spec/FloatEnv.lean and in the hypotheses of the theorems. `T` is `float` or `double`, given by its `Format`.
-/
namespace Utki.FastFloat

/-- The floating-point unit, as far as the code uses it: conversion, product and quotient in the type `T`, after the assignment to a variable
of that type; sum and difference of numbers of type `float`, as they are compared. -/
structure Fpu where
  ofU64 : Nat → Nat
  mul : Nat → Nat → Nat
  div : Nat → Nat → Nat
  add32 : Nat → Nat → Nat
  sub32 : Nat → Nat → Nat

/-- The bit patterns of `std::numeric_limits<float>::min()` and of `1.0f`. -/
def float_min : Nat := 0x00800000
def float_one : Nat := 0x3f800000

variable [Platform]

/-- `rounds_to_nearest()`: `fmini + 1.0f == 1.0f - fmini`. fast_float.h 3616-3673. -/
def rounds_to_nearest (u : Fpu) : Bool :=
  if Platform.excess then false else u.add32 float_min float_one = u.sub32 float_one float_min

/-- `min_exponent_fast_path()`. fast_float.h 609-625. -/
def Format.min_exponent_fast (b : Format) : Int := if Platform.excess then 0 else b.min_exponent_fast_path

/-- The bit pattern the compiler makes of a decimal literal for a whole number that the type represents exactly. -/
def Format.literal (b : Format) (n : Nat) : Nat :=
  if n = 0 then 0
  else ((n.log2 : Int) - b.minimum_exponent - 1).toNat * 2 ^ b.mantissa_explicit_bits + n * 2 ^ b.mantissa_explicit_bits / 2 ^ n.log2

/-- `exact_power_of_ten(power)`. fast_float.h 713-723. -/
def exact_power_of_ten (b : Format) (power : Int) : Res Nat := do
  if power < 0 then .ub .oob_read
  else
    let n ← rd b.powers_of_ten power.toNat
    return b.literal n

/-- `max_mantissa_fast_path(power)`. fast_float.h 690-698, 703-711. -/
def max_mantissa_fast_path_at (b : Format) (power : Int) : Res Nat :=
  if power < 0 then .ub .oob_read else rd b.max_mantissa power.toNat

/-- `value = -value` if `negative`: the sign bit of the pattern is flipped. fast_float.h 3772-3774, 3793-3795. -/
def negate_if (b : Format) (negative : Bool) (value : Nat) : Nat :=
  if negative then value ^^^ (1 <<< b.sign_index) else value

/-- Clinger's fast path: the value it returns, or `none` if the code goes on. `cpp20_and_in_constexpr()` is false at run time.
fast_float.h 3747-3799. -/
def clinger (b : Format) (u : Fpu) (pns : parsed_number_string) : Res (Option Nat) := do
  if b.min_exponent_fast ≤ pns.exponent ∧ pns.exponent ≤ b.max_exponent_fast_path ∧ !pns.too_many_digits then
    if rounds_to_nearest u then
      if pns.mantissa ≤ b.max_mantissa_fast_path then
        let value := u.ofU64 pns.mantissa
        if pns.exponent < 0 then
          let ten ← exact_power_of_ten b (-pns.exponent)
          return some (negate_if b pns.negative (u.div value ten))
        else
          let ten ← exact_power_of_ten b pns.exponent
          return some (negate_if b pns.negative (u.mul value ten))
      else return none
    else
      if pns.exponent ≥ 0 then
        let max ← max_mantissa_fast_path_at b pns.exponent
        if pns.mantissa ≤ max then
          if (Platform.clang ∨ Platform.bits32) ∧ pns.mantissa = 0 then
            return some (pns.negative.toNat <<< b.sign_index)
          else
            let ten ← exact_power_of_ten b pns.exponent
            return some (negate_if b pns.negative (u.mul (u.ofU64 pns.mantissa) ten))
        else return none
      else return none
  else return none

/-- `std::errc`, the values that occur; `none` is `std::errc()`. -/
inductive errc where
  | none | invalid_argument | result_out_of_range
  deriving DecidableEq, Repr

/-- `from_chars_result` together with what has been stored in the output parameter, if anything. -/
structure from_chars_result where
  value : Option Nat
  ptr : Nat
  ec : errc
  deriving DecidableEq, Repr

/-- `am` after the attempts with 19 digits and, if these do not settle it, with all digits. fast_float.h 3800-3812. -/
def adjusted (b : Format) (s : List Byte) (pns : parsed_number_string) : Res adjusted_mantissa := do
  let am ← compute_float b pns.exponent pns.mantissa
  let am ← (if pns.too_many_digits ∧ am.power2 ≥ 0 then do
      let am1 ← compute_float b pns.exponent ((pns.mantissa + 1) % 2 ^ 64)
      if am ≠ am1 then compute_error b pns.exponent pns.mantissa else .ok am
    else .ok am : Res adjusted_mantissa)
  if am.power2 < 0 then digit_comp b s pns am else return am

/-- `from_chars_advanced(pns, value)`. fast_float.h 3734-3820. -/
def from_chars_advanced_pns (b : Format) (u : Fpu) (s : List Byte) (pns : parsed_number_string) : Res from_chars_result := do
  let fast ← clinger b u pns
  match fast with
  | some value => return { value := some value, ptr := pns.lastmatch, ec := .none }
  | none =>
    let am ← adjusted b s pns
    let out := (pns.mantissa ≠ 0 ∧ am.mantissa = 0 ∧ am.power2 = 0) ∨ am.power2 = b.infinite_power
    return { value := some (to_float b pns.negative am), ptr := pns.lastmatch,
             ec := if out then .result_out_of_range else .none }

/-- `std::numeric_limits<T>::infinity()` and `quiet_NaN()`, and their negatives. fast_float.h 3578-3579, 3602-3603. -/
def special_value (b : Format) : InfNan → Nat
  | .inf negative => negate_if b negative b.exponent_mask
  | .nan negative => negate_if b negative (b.exponent_mask ||| b.hidden_bit_mask >>> 1)

/-- `from_chars_advanced(first, last, value, options)`; utki has no way of asking for `no_infnan`. `fast_float::from_chars` is this
function. fast_float.h 3822-3857, 3721-3727. -/
def from_chars_advanced (b : Format) (u : Fpu) (s : List Byte) (fmt : chars_format) : Res from_chars_result := do
  if s.length = 0 then return { value := none, ptr := 0, ec := .invalid_argument }
  else
    let pns ← parse_number_string s fmt
    if !pns.valid then
      let r ← parse_infnan s
      match r with
      | some (v, ptr) => return { value := some (special_value b v), ptr := ptr, ec := .none }
      | none => return { value := none, ptr := 0, ec := .invalid_argument }
    else from_chars_advanced_pns b u s pns

end Utki.FastFloat

namespace Utki

open FastFloat

variable [Platform]

/-- `utki::chars_format`. string.hpp:318-323. -/
inductive CharsFormat where
  | scientific | fixed | hex | general
  deriving DecidableEq, Repr

/-- `to_fast_float_format(f)`. string.cpp:249-262. -/
def to_fast_float_format : CharsFormat → chars_format
  | .scientific => chars_format.scientific
  | .fixed => chars_format.fixed
  | .hex => chars_format.hex
  | .general => chars_format.general

/-- `utki::from_chars(first, last, float&, fmt)`. string.cpp:265-281. -/
def from_chars_float (u : Fpu) (s : List Byte) (fmt : CharsFormat) : Res from_chars_result :=
  from_chars_advanced fmtFloat u s (to_fast_float_format fmt)

/-- `utki::from_chars(first, last, double&, fmt)`. string.cpp:283-299. -/
def from_chars_double (u : Fpu) (s : List Byte) (fmt : CharsFormat) : Res from_chars_result :=
  from_chars_advanced fmtDouble u s (to_fast_float_format fmt)

/-- `utki::from_chars(first, last, long double&, fmt)`; the value is the pattern of the double that is converted. string.cpp:301-317. -/
def from_chars_long_double (u : Fpu) (s : List Byte) (fmt : CharsFormat) : Res from_chars_result := do
  let ret ← from_chars_double u s fmt
  return { ret with value := if ret.ec = .none then ret.value else none }

/-- What `read_number` sees of a result; `value` is 0 before the call. string.hpp:470-481. -/
def toFromChars (r : from_chars_result) : FromChars Nat :=
  match r.ec with
  | .invalid_argument => .invalid_argument
  | .result_out_of_range => .out_of_range r.ptr
  | .none => .ok (r.value.getD 0) r.ptr

/-- `read_number<float>()` (`double`, `long double`), with the conversion as argument. string.hpp:466-482, 537-562. -/
def Parser.read_number_float (dbg : Bool) (conv : List Byte → CharsFormat → Res from_chars_result) : Meth Parser Nat := do
  Parser.skip_whitespaces
  let v ← Meth.get
  let r ← Meth.lift (conv v .general)
  Parser.finishNumber dbg 0 (toFromChars r)

end Utki
