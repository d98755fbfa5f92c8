import Verif.Core
/-!
# Model of `base64_decode`

/repo/src/utki/base64.cpp.
-/
namespace Utki.Base64

/-- `decode_table`, base64.cpp:40-55, copied literally (256 entries). -/
def decode_table : List (BitVec 8) := [
  0,    0,    0,    0,    0,    0,    0,    0,    0,    0,    0,    0,    0,    0,    0,    0,    0,    0,    0,
  0,    0,    0,    0,    0,    0,    0,    0,    0,    0,    0,    0,    0,    0,    0,    0,    0,    0,    0,
  0,    0,    0,    0,    0,    0x3E, 0,    0,    0,    0x3F, 0x34, 0x35, 0x36, 0x37, 0x38, 0x39, 0x3A, 0x3B, 0x3C,
  0x3D, 0,    0,    0,    0,    0,    0,    0,    0x00, 0x01, 0x02, 0x03, 0x04, 0x05, 0x06, 0x07, 0x08, 0x09, 0x0A,
  0x0B, 0x0C, 0x0D, 0x0E, 0x0F, 0x10, 0x11, 0x12, 0x13, 0x14, 0x15, 0x16, 0x17, 0x18, 0x19, 0,    0,    0,    0,
  0,    0,    0x1A, 0x1B, 0x1C, 0x1D, 0x1E, 0x1F, 0x20, 0x21, 0x22, 0x23, 0x24, 0x25, 0x26, 0x27, 0x28, 0x29, 0x2A,
  0x2B, 0x2C, 0x2D, 0x2E, 0x2F, 0x30, 0x31, 0x32, 0x33, 0,    0,    0,    0,    0,    0,    0,    0,    0,    0,
  0,    0,    0,    0,    0,    0,    0,    0,    0,    0,    0,    0,    0,    0,    0,    0,    0,    0,    0,
  0,    0,    0,    0,    0,    0,    0,    0,    0,    0,    0,    0,    0,    0,    0,    0,    0,    0,    0,
  0,    0,    0,    0,    0,    0,    0,    0,    0,    0,    0,    0,    0,    0,    0,    0,    0,    0,    0,
  0,    0,    0,    0,    0,    0,    0,    0,    0,    0,    0,    0,    0,    0,    0,    0,    0,    0,    0,
  0,    0,    0,    0,    0,    0,    0,    0,    0,    0,    0,    0,    0,    0,    0,    0,    0,    0,    0,
  0,    0,    0,    0,    0,    0,    0,    0,    0,    0,    0,    0,    0,    0,    0,    0,    0,    0,    0,
  0,    0,    0,    0,    0,    0,    0,    0,    0
]

/-- The index expression `decode_table[c]` for a `char c`: where `char` is signed (`sgn`), bytes from 0x80 are negative
and the index converts to a huge `size_t`. -/
def charIndex (sgn : Bool) (c : Byte) : Nat :=
  if sgn && c.msb then 2 ^ 64 - (256 - c.toNat) else c.toNat

/-- `decode_table[c]`; `std::array::operator[]` outside the array is undefined. -/
def lookup (sgn : Bool) (c : Byte) : Res (BitVec 8) := rd decode_table (charIndex sgn c)

/-- `base64_decode_quad(a, b, c, d)`, base64.cpp:57-71. The entries are promoted to `int`, shifted by 18, 12 and 6
(results below 2^24, no overflow) and or-ed into a `uint32_t`. -/
def base64_decode_quad (sgn : Bool) (a b c d : Byte) : Res (BitVec 8 × BitVec 8 × BitVec 8) := do
  let ta ← lookup sgn a
  let tb ← lookup sgn b
  let tc ← lookup sgn c
  let td ← lookup sgn d
  let quad : BitVec 32 :=
    (ta.setWidth 32 <<< (6 * 3)) ||| (tb.setWidth 32 <<< (6 * 2)) ||| (tc.setWidth 32 <<< 6) ||| td.setWidth 32
  return (((quad >>> (8 * 2)) &&& 0xff).setWidth 8, ((quad >>> 8) &&& 0xff).setWidth 8, (quad &&& 0xff).setWidth 8)

/-- The loop over whole quads, base64.cpp:98-113. `counter` counts down the quads still to do (the code counts up
to `num_quads`); `i` is the iterator position. Returns the vector and the iterator. -/
def quadLoop (dbg sgn : Bool) (s : List Byte) : (counter i : Nat) → (ret : List Byte) → Res (List Byte × Nat)
  | 0, i, ret => .ok (ret, i)
  | counter + 1, i, ret => do
    ASSERT dbg (i < s.length)
    ASSERT dbg (i + 4 ≤ s.length)
    let a ← rd s i
    let b ← rd s (i + 1)
    let c ← rd s (i + 2)
    let d ← rd s (i + 3)
    let (x, y, z) ← base64_decode_quad sgn a b c d
    quadLoop dbg sgn s counter (i + 4) (ret ++ [x, y, z])

/-- The part after padding was stripped, base64.cpp:96-138. -/
def decodeStripped (dbg sgn : Bool) (s : List Byte) (num_quads : Nat) : Res (List Byte) := do
  let (ret, i) ← quadLoop dbg sgn s num_quads 0 []
  ASSERT dbg (i ≤ s.length)
  if i = s.length then return ret
  let a ← rd s i
  let i := i + 1
  ASSERT dbg (i ≠ s.length)
  let b ← rd s i
  let i := i + 1
  if i = s.length then
    let (x, _, _) ← base64_decode_quad sgn a b (ch 'A') (ch 'A')
    return ret ++ [x]
  let c ← rd s i
  let (x, y, _) ← base64_decode_quad sgn a b c (ch 'A')
  return ret ++ [x] ++ [y]

/-- `base64_decode(str)`, base64.cpp:74-139. -/
def base64_decode (dbg sgn : Bool) (s : List Byte) : Res (List Byte) := do
  if s.isEmpty then return []
  let num_quads := s.length / 4
  let back ← rd s (s.length - 1)
  if back = ch '=' then
    if num_quads = 0 then .throw .invalid_argument
    else
      let num_quads := num_quads - 1
      let s := s.take (s.length - 1)
      let back ← rd s (s.length - 1)
      if back = ch '=' then
        decodeStripped dbg sgn (s.take (s.length - 1)) num_quads
      else
        decodeStripped dbg sgn s num_quads
  else
    decodeStripped dbg sgn s num_quads

end Utki.Base64
