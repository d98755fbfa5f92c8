import Verif.Core
import Verif.Model.Platform
/-!
# Model of the number scanner of the vendored fast_float

/repo/src_deps/fast_float/fast_float.h, for `UC = char`. The characters `[first, last)` are a list, a pointer is an index into it and
`pend` is its length; reads go through `rd`, so a read at or after `last` is undefined behaviour. `uint64_t` is a `Nat` below `2^64`
with the wrap-around written out. The JSON and FORTRAN formats, which utki has no way of asking for, are left out, and so are the branches
that are disabled by default (leading plus, white space). There is no SIMD for `char`.
-/
namespace Utki.FastFloat

/-- `enum chars_format`: a bit set; only the values utki can pass. fast_float.h 153-170. -/
abbrev chars_format := Nat
def chars_format.scientific : chars_format := 1
def chars_format.fixed : chars_format := 4
def chars_format.hex : chars_format := 8
def chars_format.general : chars_format := 5

/-- `is_integer(c)`. fast_float.h 1002-1007. -/
def is_integer (c : Byte) : Bool := !(c.toNat > 57 || c.toNat < 48)

/-- Bytes in memory as a little-endian number. -/
def readLE (s : List Byte) (p : Nat) : Nat → Res Nat
  | 0 => .ok 0
  | n + 1 => do
    let b ← rd s p
    let r ← readLE s (p + 1) n
    return b.toNat + 256 * r

/-- Bytes in memory as a big-endian number; the last argument is what the bytes before amount to. -/
def readBE (s : List Byte) (p : Nat) : Nat → Nat → Res Nat
  | 0, acc => .ok acc
  | n + 1, acc => do
    let b ← rd s p
    readBE s (p + 1) n (256 * acc + b.toNat)

/-- `byteswap(val)`. fast_float.h 1009-1014. -/
def byteswap (val : Nat) : Nat :=
  (val &&& 0xFF00000000000000) >>> 56 ||| (val &&& 0x00FF000000000000) >>> 40 ||| (val &&& 0x0000FF0000000000) >>> 24 |||
    (val &&& 0x000000FF00000000) >>> 8 ||| ((val &&& 0x00000000FF000000) <<< 8) % 2 ^ 64 |||
    ((val &&& 0x0000000000FF0000) <<< 24) % 2 ^ 64 ||| ((val &&& 0x000000000000FF00) <<< 40) % 2 ^ 64 |||
    ((val &&& 0x00000000000000FF) <<< 56) % 2 ^ 64

/-- `::memcpy(&val, chars, sizeof(uint64_t))`: what the word is depends on the byte order of the platform. fast_float.h 1029. -/
def memcpy64 [Platform] (s : List Byte) (p : Nat) : Res Nat := if Platform.big_endian then readBE s p 8 0 else readLE s p 8

/-- `read8_to_u64(chars)`: the `memcpy` branch. fast_float.h 1016-1035. -/
def read8_to_u64 [Platform] (s : List Byte) (p : Nat) : Res Nat := do
  let val ← memcpy64 s p
  if Platform.big_endian then return byteswap val else return val

/-- `parse_eight_digits_unrolled(val)`. fast_float.h 1089-1099. -/
def parse_eight_digits_unrolled (val : Nat) : Nat :=
  let mask := 0x000000FF000000FF
  let mul1 := 0x000F424000000064
  let mul2 := 0x0000271000000001
  let val := (val + 2 ^ 64 - 0x3030303030303030) % 2 ^ 64
  let val := (val * 10 + (val >>> 8)) % 2 ^ 64
  let val := (((val &&& mask) * mul1 + ((val >>> 16) &&& mask) * mul2) % 2 ^ 64) >>> 32
  val % 2 ^ 32

/-- `is_made_of_eight_digits_fast(val)`. fast_float.h 1111-1116. -/
def is_made_of_eight_digits_fast (val : Nat) : Bool :=
  (((val + 0x4646464646464646) % 2 ^ 64 ||| (val + 2 ^ 64 - 0x3030303030303030) % 2 ^ 64) &&& 0x8080808080808080) == 0

/-- `loop_parse_if_eight_digits(p, pend, i)` for `char`; the third argument is `pend - p`. Returns `p` and `i`. fast_float.h 1193-1204. -/
def loop_parse_if_eight_digits [Platform] (s : List Byte) (p : Nat) : Nat → Nat → Res (Nat × Nat)
  | n + 8, i => do
    let val ← read8_to_u64 s p
    if is_made_of_eight_digits_fast val then
      loop_parse_if_eight_digits s (p + 8) n ((i * 100000000 + parse_eight_digits_unrolled val) % 2 ^ 64)
    else return (p, i)
  | _, i => return (p, i)

/-- `while ((p != pend) && is_integer(*p)) { i = 10 * i + ...; ++p; }`; the third argument is `pend - p`. fast_float.h 1292-1299, 1323-1327. -/
def digit_loop (s : List Byte) (p : Nat) : Nat → Nat → Res (Nat × Nat)
  | 0, i => return (p, i)
  | n + 1, i => do
    let c ← rd s p
    if is_integer c then digit_loop s (p + 1) n ((10 * i + (c.toNat - 48)) % 2 ^ 64)
    else return (p, i)

/-- The loop over the digits of the exponent, with its guard against overflow; the third argument is `pend - p`. fast_float.h 1372-1378. -/
def exponent_loop (s : List Byte) (p : Nat) : Nat → Int → Res (Nat × Int)
  | 0, e => return (p, e)
  | n + 1, e => do
    let c ← rd s p
    if is_integer c then
      exponent_loop s (p + 1) n (if e < 0x10000000 then 10 * e + (c.toNat - 48) else e)
    else return (p, e)

/-- `while ((start != pend) && (*start == '0' || *start == '.'))`: the digit count after skipping zeroes;
the third argument is `pend - start`. fast_float.h 1404-1409. -/
def skip_zeros (s : List Byte) (start : Nat) : Nat → Int → Res Int
  | 0, dc => return dc
  | n + 1, dc => do
    let c ← rd s start
    if c = ch '0' then skip_zeros s (start + 1) n (dc - 1)
    else if c = ch '.' then skip_zeros s (start + 1) n dc
    else return dc

/-- `while ((i < minimal_nineteen_digit_integer) && (p != end))`; the third argument is `end - p`. fast_float.h 1420-1423, 1429-1432. -/
def nineteen_loop (s : List Byte) (p : Nat) : Nat → Nat → Res (Nat × Nat)
  | 0, i => return (p, i)
  | n + 1, i =>
    if i < 1000000000000000000 then do
      let c ← rd s p
      nineteen_loop s (p + 1) n ((i * 10 + (c.toNat - 48)) % 2 ^ 64)
    else return (p, i)

/-- `struct parsed_number_string_t`, without the error code, which nobody reads; the spans are start and length. fast_float.h 1225-1236. -/
structure parsed_number_string where
  exponent : Int
  mantissa : Nat
  lastmatch : Nat
  negative : Bool
  valid : Bool
  too_many_digits : Bool
  integer : Nat × Nat
  fraction : Nat × Nat
  deriving DecidableEq, Repr

/-- `report_parse_error(p, error)`. fast_float.h 1241-1249. -/
def report_parse_error (p : Nat) : parsed_number_string :=
  { exponent := 0, mantissa := 0, lastmatch := p, negative := false, valid := false, too_many_digits := false,
    integer := (0, 0), fraction := (0, 0) }

/-- The sign: whether there is a minus, and where the digits start; `none` for the errors reported here. fast_float.h 1263-1287. -/
def parse_sign (s : List Byte) : Res (Option (Bool × Nat)) := do
  let c ← rd s 0
  if c = ch '-' then
    if 1 = s.length then return none
    else
      let c1 ← rd s 1
      if !is_integer c1 && c1 ≠ ch '.' then return none
      else return some (true, 1)
  else return some (false, 0)

/-- The fractional part: has a decimal point, `p` and `i` after it. fast_float.h 1314-1331. -/
def parse_fraction [Platform] (s : List Byte) (p i : Nat) : Res (Bool × Nat × Nat) := do
  if p ≠ s.length then
    let c ← rd s p
    if c = ch '.' then
      let (p1, i1) ← loop_parse_if_eight_digits s (p + 1) (s.length - (p + 1)) i
      let (p2, i2) ← digit_loop s p1 (s.length - p1) i1
      return (true, p2, i2)
    else return (false, p, i)
  else return (false, p, i)

/-- The sign of the exponent: position of its first digit and whether it is negative. fast_float.h 1353-1361. -/
def parse_exponent_sign (s : List Byte) (p : Nat) : Res (Nat × Bool) := do
  if p ≠ s.length then
    let c ← rd s p
    if c = ch '-' then return (p + 1, true)
    else if c = ch '+' then return (p + 1, false)
    else return (p, false)
  else return (p, false)

/-- Is there a character at `p`, and is it a digit? The negation of `(p == pend) || !is_integer(*p)`. fast_float.h 1362. -/
def digit_at (s : List Byte) (p : Nat) : Res Bool := do
  if p = s.length then return false
  else
    let c ← rd s p
    return is_integer c

/-- Is there an `e` or `E` at `p`? fast_float.h 1343-1344. -/
def e_at (s : List Byte) (p : Nat) : Res Bool := do
  if p = s.length then return false
  else
    let c ← rd s p
    return c = ch 'e' || c = ch 'E'

/-- The exponential part: `none` for the errors reported here, otherwise `p` after it and `exp_number`. fast_float.h 1342-1389. -/
def parse_exponent (s : List Byte) (fmt : chars_format) (p : Nat) : Res (Option (Nat × Int)) := do
  let e ← (if fmt &&& chars_format.scientific ≠ 0 then e_at s p else .ok false : Res Bool)
  if e then
    let location_of_e := p
    let (p, neg_exp) ← parse_exponent_sign s (p + 1)
    let d ← digit_at s p
    if !d then
      if fmt &&& chars_format.fixed = 0 then return none
      else return some (location_of_e, 0)
    else
      let (p, exp_number) ← exponent_loop s p (s.length - p) 0
      return some (p, if neg_exp then -exp_number else exp_number)
  else
    if fmt &&& chars_format.scientific ≠ 0 ∧ fmt &&& chars_format.fixed = 0 then return none
    else return some (p, 0)

/-- The second scan for numbers of more than 19 digits, which keeps the first 19 significant ones: `i` and the exponent.
fast_float.h 1416-1436. -/
def rescan (s : List Byte) (integer fraction : Nat × Nat) (exp_number : Int) : Res (Nat × Int) := do
  let (p, i) ← nineteen_loop s integer.1 integer.2 0
  if i ≥ 1000000000000000000 then
    return (i, (integer.1 + integer.2 : Nat) - (p : Int) + exp_number)
  else
    let (p, i) ← nineteen_loop s fraction.1 fraction.2 i
    return (i, (fraction.1 : Int) - p + exp_number)

/-- `parse_number_string(p, pend, options)`; `options.decimal_point` is `.`. The caller has checked that there is a first character.
fast_float.h 1251-1441. -/
def parse_number_string [Platform] (s : List Byte) (fmt : chars_format) : Res parsed_number_string := do
  let sign ← parse_sign s
  match sign with
  | none => return report_parse_error 0
  | some (negative, start_digits) =>
    let (end_of_integer_part, i) ← digit_loop s start_digits (s.length - start_digits) 0
    let (has_decimal_point, p, i) ← parse_fraction s end_of_integer_part i
    let integer := (start_digits, end_of_integer_part - start_digits)
    let before := end_of_integer_part + 1
    let fraction := if has_decimal_point then (before, p - before) else (0, 0)
    let exponent : Int := if has_decimal_point then (before : Int) - p else 0
    let digit_count : Int := (end_of_integer_part : Int) - start_digits - exponent
    if digit_count = 0 then return report_parse_error p
    else
      let ex ← parse_exponent s fmt p
      match ex with
      | none => return report_parse_error p
      | some (lastmatch, exp_number) =>
        let digit_count ← (if digit_count > 19 then skip_zeros s start_digits (s.length - start_digits) digit_count
          else .ok digit_count : Res Int)
        if digit_count > 19 then
          let (i, exponent) ← rescan s integer fraction exp_number
          return { exponent := exponent, mantissa := i, lastmatch := lastmatch, negative := negative, valid := true,
                   too_many_digits := true, integer := integer, fraction := fraction }
        else
          return { exponent := exponent + exp_number, mantissa := i, lastmatch := lastmatch, negative := negative, valid := true,
                   too_many_digits := false, integer := integer, fraction := fraction }

/-- `fastfloat_strncasecmp(input1, input2, length)`: `input1` in memory at `p`, `input2` a lower-case literal. The differences of all
characters are or-ed together. fast_float.h 346-354. -/
def strncasecmp (s : List Byte) (p : Nat) (lit : List Byte) : Res Bool :=
  go p lit 0
where
  go (p : Nat) : List Byte → Byte → Res Bool
    | [], d => return d = 0 || d = 32
    | x :: xs, d => do
      let c ← rd s p
      go (p + 1) xs (d ||| (c ^^^ x))

/-- The loop over `nan(n-char-seq)`: where the pointer ends up; the argument before last is `last - ptr`, the last one the position to
return if there is no closing parenthesis. fast_float.h 3583-3592. -/
def nan_payload (s : List Byte) (ptr : Nat) : Nat → Nat → Res Nat
  | 0, stop => return stop
  | n + 1, stop => do
    let c ← rd s ptr
    if c = ch ')' then return ptr + 1
    else if !((97 ≤ c.toNat && c.toNat ≤ 122) || (65 ≤ c.toNat && c.toNat ≤ 90) || (48 ≤ c.toNat && c.toNat ≤ 57) || c = ch '_')
    then return stop
    else nan_payload s (ptr + 1) n stop

/-- What a text can denote besides a number. -/
inductive InfNan where
  | nan (negative : Bool)
  | inf (negative : Bool)
  deriving DecidableEq, Repr

/-- `first != last && *first == c`. fast_float.h 3582. -/
def char_at (s : List Byte) (p : Nat) (c : Byte) : Res Bool := do
  if p = s.length then return false
  else
    let x ← rd s p
    return x = c

/-- `detail::parse_infnan(first, last, value)`: the value and the end of what was matched, or `none` for `invalid_argument`.
fast_float.h 3551-3609. -/
def parse_infnan (s : List Byte) : Res (Option (InfNan × Nat)) := do
  let c ← rd s 0
  let minusSign := decide (c = ch '-')
  let first := if minusSign then 1 else 0
  if s.length - first ≥ 3 then
    let isnan ← strncasecmp s first (str "nan")
    if isnan then
      let first := first + 3
      let paren ← char_at s first (ch '(')
      let ptr ← (if paren then nan_payload s (first + 1) (s.length - (first + 1)) first else .ok first : Res Nat)
      return some (.nan minusSign, ptr)
    else
      let isinf ← strncasecmp s first (str "inf")
      if isinf then
        let long ← (if s.length - first ≥ 8 then strncasecmp s (first + 3) (str "inity") else .ok false : Res Bool)
        return some (.inf minusSign, if long then first + 8 else first + 3)
      else return none
  else return none

end Utki.FastFloat
