import Verif.Core
/-!
# Specification: UTF-8 with the historic 5- and 6-byte forms (RFC 2279)

The `n`-byte form has a lead byte with `n` one bits (none for `n = 1`), a zero bit and the top bits of the character,
followed by `n - 1` continuation bytes `10xxxxxx` with six bits each.
-/
namespace Utki.Spec.Utf8

/-- Smallest number that does not fit in the `n`-byte form. -/
def capacity : Nat → Nat
  | 1 => 0x80
  | 2 => 0x800
  | 3 => 0x10000
  | 4 => 0x200000
  | 5 => 0x4000000
  | 6 => 0x80000000
  | _ => 0

/-- Fixed bits of the lead byte. -/
def lead : Nat → Nat
  | 1 => 0x00
  | 2 => 0xC0
  | 3 => 0xE0
  | 4 => 0xF0
  | 5 => 0xF8
  | _ => 0xFC

/-- The last `k` continuation bytes of `c`. -/
def conts : (k c : Nat) → List Byte
  | 0, _ => []
  | k + 1, c => BitVec.ofNat 8 (0x80 + c / 64 ^ k % 64) :: conts k c

/-- The `n`-byte form of `c < capacity n`. -/
def form (n c : Nat) : List Byte := BitVec.ofNat 8 (lead n + c / 64 ^ (n - 1)) :: conts (n - 1) c

/-- Length of the shortest form, `0` if there is none. -/
def size (c : Nat) : Nat :=
  if c < 0x80 then 1
  else if c < 0x800 then 2
  else if c < 0x10000 then 3
  else if c < 0x200000 then 4
  else if c < 0x4000000 then 5
  else if c < 0x80000000 then 6
  else 0

/-- The UTF-8 encoding: the shortest form; nothing if there is none. -/
def encode (c : Nat) : List Byte := if size c = 0 then [] else form (size c) c

/-- The encoding of a text. -/
def encodeAll (s : List (BitVec 32)) : List Byte := s.flatMap (fun c => encode c.toNat)

end Utki.Spec.Utf8
