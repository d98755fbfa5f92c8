import Verif.Core
/-!
# What the vendored fast_float asks the preprocessor about the platform

/repo/src_deps/fast_float/fast_float.h chooses between different code for different targets and compilers. A `Platform` is the outcome of
these questions. The questions are kept independent of each other: every combination is modelled, also those that no real target has.
-/
namespace Utki.FastFloat

/-- The conditions of the conditional compilation. -/
class Platform where
  /-- `FASTFLOAT_32BIT` is defined. fast_float.h 190-215. -/
  bits32 : Bool
  /-- `FASTFLOAT_64BIT_LIMB` is defined: limbs are `uint64_t`, otherwise `uint32_t`. fast_float.h 2484-2492. -/
  limb64 : Bool
  /-- `__SIZEOF_INT128__` is defined, as seen by `scalar_mul`. fast_float.h 2689. -/
  int128 : Bool
  /-- `full_multiplication` uses an instruction or a type of the compiler (`__umulh`, the intrinsic `_umul128`, `__uint128_t`), otherwise
  `umul128_generic`, under this name or as the `_umul128` the code itself defines. fast_float.h 450-487. -/
  wide_product : Bool
  /-- `leading_zeroes` uses an intrinsic (`__builtin_clzll`, `_BitScanReverse64`), otherwise `leading_zeroes_generic`. fast_float.h 418-430. -/
  clz : Bool
  /-- `__has_builtin(__builtin_add_overflow)`. fast_float.h 2670-2671. -/
  add_overflow : Bool
  /-- `FASTFLOAT_IS_BIG_ENDIAN`: the byte order of the memory. fast_float.h 226-260. -/
  big_endian : Bool
  /-- `SIZE_MAX` is `2^64 - 1`, otherwise `2^32 - 1`. -/
  size64 : Bool
  /-- `__clang__` is defined. fast_float.h 3784. -/
  clang : Bool
  /-- `FLT_EVAL_METHOD` is neither 0 nor 1: results of operations may have more precision and range than the type. fast_float.h 611, 620, 3618. -/
  excess : Bool
  /-- `FLT_EVAL_METHOD` is 1: operations on `float` are evaluated with the precision and range of `double`. The code does not ask this, but
  the comparison at fast_float.h 3672 sees the difference. A product or quotient that is assigned to a `float` is rounded twice then, which
  gives the same as rounding once, because 53 ≥ 2 · 24 + 2. -/
  eval_double : Bool

/-- GCC on x86-64. -/
@[reducible] def Platform.gcc_x86_64 : Platform where
  bits32 := false
  limb64 := true
  int128 := true
  wide_product := true
  clz := true
  add_overflow := true
  big_endian := false
  size64 := true
  clang := false
  excess := false
  eval_double := false

/-- Visual Studio for 32-bit x86. -/
@[reducible] def Platform.msvc_x86 : Platform where
  bits32 := true
  limb64 := false
  int128 := false
  wide_product := false
  clz := false
  add_overflow := false
  big_endian := false
  size64 := false
  clang := false
  excess := false
  eval_double := false

/-- GCC on s390x, a 64-bit target with big-endian memory. -/
@[reducible] def Platform.gcc_s390x : Platform := { Platform.gcc_x86_64 with big_endian := true }

/-- GCC on 32-bit x86 with the x87 floating-point unit. -/
@[reducible] def Platform.gcc_x87 : Platform where
  bits32 := true
  limb64 := false
  int128 := false
  wide_product := false
  clz := true
  add_overflow := true
  big_endian := false
  size64 := false
  clang := false
  excess := true
  eval_double := false

end Utki.FastFloat
