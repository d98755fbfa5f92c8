import Verif.Core
import Verif.Model.Span
/-!
# Model of UTF-8 conversion

/repo/src/utki/unicode.hpp, /repo/src/utki/unicode.cpp.
-/
namespace Utki

/-- `utf8_iterator`, unicode.hpp:42-46. Pointers are positions in the object `mem`; `end = none` is the null pointer of
the NUL-terminated constructor. -/
structure Utf8Iter where
  mem : List Byte
  c : BitVec 32
  p : Nat
  «end» : Option Nat
  deriving DecidableEq, Repr

namespace Utf8Iter

/-- `p == end` -/
def atEnd (it : Utf8Iter) (p : Nat) : Bool := it.end == some p

/-- The loop of `operator++`, unicode.cpp:79-93, from loop counter `i` on, and the final update 95. `fuel` bounds the
number of iterations; running out of it is reported as divergence (proved impossible). The shift `b << i` is done in
`int` (at most 255 << 9, no overflow) and truncated to `uint8_t`; the last shift is undefined if its count is not below
32, the width of `char32_t`. -/
def incLoop (it : Utf8Iter) (b : Byte) : (fuel i : Nat) → (c : BitVec 32) → (p : Nat) → Res Utf8Iter
  | 0, _, _, _ => .diverge
  | fuel + 1, i, c, p =>
    if (b <<< i) >>> 7 ≠ 0 then
      if it.atEnd p then
        .ok { it with c := 0, p := p }
      else do
        let x ← rd it.mem p
        incLoop it b fuel (i + 1) ((c <<< 6) ||| (x &&& 0x3f).setWidth 32) (p + 1)
    else if 6 * (i - 1) ≥ 32 then
      .ub .bad_shift
    else
      .ok { it with c := c ||| (((b <<< (i + 1)) >>> (i + 1)).setWidth 32 <<< (6 * (i - 1))), p := p }

/-- `utf8_iterator::operator++`, unicode.cpp:54-98. -/
def inc (it : Utf8Iter) : Res Utf8Iter :=
  if it.atEnd it.p then
    .ok { it with c := 0 }
  else do
    let b ← rd it.mem it.p
    let p := it.p + 1
    if b &&& 0x80 = 0 then
      return { it with c := b.setWidth 32, p := p }
    if it.atEnd p then
      return { it with c := 0, p := p }
    let x ← rd it.mem p
    incLoop it b 8 2 ((x &&& 0x3f).setWidth 32) (p + 1)

/-- `utf8_iterator(utki::span<const uint8_t>)`, unicode.cpp:36-41 (also the `string_view` constructor, unicode.hpp:64-66,
which converts to a span). -/
def ofSpan (s : Span Byte) : Res Utf8Iter := inc ⟨s.mem, 0, s.off, some (s.off + s.size)⟩

/-- `utf8_iterator(const char*)`, unicode.cpp:45-50; `p` is the position of the string in the object `mem`. -/
def ofCStr (mem : List Byte) (p : Nat) : Res Utf8Iter := inc ⟨mem, 0, p, none⟩

/-- `character()`, unicode.hpp:78-81 -/
def character (it : Utf8Iter) : BitVec 32 := it.c

/-- `is_end()`, unicode.hpp:100-103 -/
def is_end (it : Utf8Iter) : Bool := it.c == 0

end Utf8Iter

/-- The loop of `to_utf32`, unicode.cpp:197-199 and 209-211: append the character, advance. `fuel` bounds the number of
iterations (divergence if exhausted; proved impossible). -/
def toUtf32Loop : (fuel : Nat) → Utf8Iter → (buf : List (BitVec 32)) → Res (List (BitVec 32))
  | 0, _, _ => .diverge
  | fuel + 1, it, buf =>
    if it.is_end then .ok buf
    else do
      let buf := buf ++ [it.character]
      let it ← it.inc
      toUtf32Loop fuel it buf

/-- `to_utf32(utf8_iterator)`, unicode.cpp:194-201. Every iteration consumes a byte of `mem`, so `mem.length + 2`
iterations are never exceeded. -/
def to_utf32_iter (it : Utf8Iter) : Res (List (BitVec 32)) := toUtf32Loop (it.mem.length + 2) it []

/-- `to_utf32(utki::span<const uint8_t>)`, unicode.cpp:203-214; the overloads for `span<const char>` and `string_view`,
unicode.hpp:145-159, only convert the argument. -/
def to_utf32_span (s : Span Byte) : Res (List (BitVec 32)) := do
  let it ← Utf8Iter.ofSpan s
  toUtf32Loop (s.mem.length + 2) it []

/-- `to_utf32(const char*)` and `to_utf32(const std::string&)`, unicode.hpp:118-131. -/
def to_utf32_cstr (mem : List Byte) (p : Nat) : Res (List (BitVec 32)) := do
  let it ← Utf8Iter.ofCStr mem p
  to_utf32_iter it

/-- `to_utf8(char32_t)`, unicode.cpp:100-178. The 7-byte array starts with indeterminate contents `junk`; `ret[k] = v` is
a checked write. `char(…)` truncates to 8 bits. The `switch` on `num_bytes` is merged with the `if` chain that computes
it (every value 2..6 has its own case; `default`/1 is unreachable). -/
def to_utf8_char (junk : List Byte) (c : BitVec 32) : Res (List Byte) := do
  let ret := junk
  if c ≤ 0x7f#32 then
    let ret ← wr ret 0 (c.setWidth 8)
    wr ret 1 0
  else if c ≤ 0x7ff#32 then
    let ret ← wr ret 0 ((0xc0#32 ||| ((c >>> 6) &&& 0x1f#32)).setWidth 8)
    let ret ← wr ret 1 ((0x80#32 ||| (c &&& 0x3f#32)).setWidth 8)
    wr ret 2 0
  else if c ≤ 0xffff#32 then
    let ret ← wr ret 0 ((0xe0#32 ||| ((c >>> 12) &&& 0xf#32)).setWidth 8)
    let ret ← wr ret 1 ((0x80#32 ||| ((c >>> 6) &&& 0x3f#32)).setWidth 8)
    let ret ← wr ret 2 ((0x80#32 ||| (c &&& 0x3f#32)).setWidth 8)
    wr ret 3 0
  else if c ≤ 0x1fffff#32 then
    let ret ← wr ret 0 ((0xf0#32 ||| ((c >>> 18) &&& 0x7#32)).setWidth 8)
    let ret ← wr ret 1 ((0x80#32 ||| ((c >>> 12) &&& 0x3f#32)).setWidth 8)
    let ret ← wr ret 2 ((0x80#32 ||| ((c >>> 6) &&& 0x3f#32)).setWidth 8)
    let ret ← wr ret 3 ((0x80#32 ||| (c &&& 0x3f#32)).setWidth 8)
    wr ret 4 0
  else if c ≤ 0x3ffffff#32 then
    let ret ← wr ret 0 ((0xf8#32 ||| ((c >>> 24) &&& 0x3#32)).setWidth 8)
    let ret ← wr ret 1 ((0x80#32 ||| ((c >>> 18) &&& 0x3f#32)).setWidth 8)
    let ret ← wr ret 2 ((0x80#32 ||| ((c >>> 12) &&& 0x3f#32)).setWidth 8)
    let ret ← wr ret 3 ((0x80#32 ||| ((c >>> 6) &&& 0x3f#32)).setWidth 8)
    let ret ← wr ret 4 ((0x80#32 ||| (c &&& 0x3f#32)).setWidth 8)
    wr ret 5 0
  else if c ≤ 0x7fffffff#32 then
    let ret ← wr ret 0 ((0xfc#32 ||| ((c >>> 30) &&& 0x1#32)).setWidth 8)
    let ret ← wr ret 1 ((0x80#32 ||| ((c >>> 24) &&& 0x3f#32)).setWidth 8)
    let ret ← wr ret 2 ((0x80#32 ||| ((c >>> 18) &&& 0x3f#32)).setWidth 8)
    let ret ← wr ret 3 ((0x80#32 ||| ((c >>> 12) &&& 0x3f#32)).setWidth 8)
    let ret ← wr ret 4 ((0x80#32 ||| ((c >>> 6) &&& 0x3f#32)).setWidth 8)
    let ret ← wr ret 5 ((0x80#32 ||| (c &&& 0x3f#32)).setWidth 8)
    wr ret 6 0
  else
    wr ret 0 0

/-- What `ss << buf.data()` appends: the bytes up to the first NUL; reading past the array is undefined. -/
def cstrBytes : List Byte → Res (List Byte)
  | [] => .ub .oob_read
  | b :: rest => if b = 0 then .ok [] else do
      let t ← cstrBytes rest
      return b :: t

/-- `to_utf8(utki::span<const char32_t>)`, unicode.cpp:182-192. `junk k` is what the uninitialised array of the `k`-th
call happens to contain; `ss` is the stream contents. -/
def toUtf8Loop (junk : Nat → List Byte) : List (BitVec 32) → (k : Nat) → (ss : List Byte) → Res (List Byte)
  | [], _, ss => .ok ss
  | c :: rest, k, ss => do
    let buf ← to_utf8_char (junk k) c
    let t ← cstrBytes buf
    toUtf8Loop junk rest (k + 1) (ss ++ t)

/-- `to_utf8(utki::span<const char32_t>)`, unicode.cpp:182-192, and `to_utf8(const std::u32string&)`,
unicode.hpp:182-185. -/
def to_utf8 (junk : Nat → List Byte) (s : List (BitVec 32)) : Res (List Byte) := toUtf8Loop junk s 0 []

end Utki
