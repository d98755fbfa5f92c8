import Verif.Core
/-!
# Model of the serialization functions

/repo/src/utki/utility.hpp:282-576.  An object of the unsigned type with `sizeof == n` is a
`BitVec (8 * n)`.  Memory is a list of bytes, a pointer is a position in it; reading or
writing outside is undefined behaviour.
-/
namespace Utki

/-- `value >> k` on an unsigned type: undefined if `k` is not below the width.
(For 8- and 16-bit types the operand is first promoted to `int`, whose width is larger; the shift
amounts that occur are below the smaller width anyway, which the theorems establish.) -/
def shrChecked {w : Nat} (v : BitVec w) (k : Nat) : Res (BitVec w) :=
  if k < w then .ok (v >>> k) else .ub .bad_shift

/-- `T(b) << k` on an unsigned type of width `w`. -/
def shlChecked {w : Nat} (v : BitVec w) (k : Nat) : Res (BitVec w) :=
  if k < w then .ok (v <<< k) else .ub .bad_shift

/-- Loop of `serialize_le`, utility.hpp:294-299. `todo` is the number of bytes of the span
`make_span(out_buf, sizeof(value))` not yet visited, `p` the address of the next one. -/
def serializeLeLoop {n : Nat} (value : BitVec (8 * n)) :
    (todo index p : Nat) → List Byte → Res (List Byte × Nat)
  | 0, _, p, mem => .ok (mem, p)
  | todo + 1, index, p, mem => do
    let shifted ← shrChecked value (8 * index)
    let mem ← wr mem p ((shifted &&& BitVec.ofNat (8 * n) 0xff).setWidth 8)
    serializeLeLoop value todo (index + 1) (p + 1) mem

/-- `serialize_le(value, out_buf)`, utility.hpp:288-302. Returns the memory after the call and the
returned pointer (`end_pointer(span)`, utility.hpp:119-123). -/
def serialize_le {n : Nat} (value : BitVec (8 * n)) (mem : List Byte) (out_buf : Nat) :
    Res (List Byte × Nat) :=
  serializeLeLoop value n 0 out_buf mem

/-- Loop of `deserialize_le`, utility.hpp:351-358. -/
def deserializeLeLoop {n : Nat} (mem : List Byte) :
    (todo index p : Nat) → BitVec (8 * n) → Res (BitVec (8 * n))
  | 0, _, _, ret => .ok ret
  | todo + 1, index, p, ret => do
    let b ← rd mem p
    let s ← shlChecked (b.setWidth (8 * n)) (8 * index)
    deserializeLeLoop mem todo (index + 1) (p + 1) (ret ||| s)

/-- `deserialize_le<T>(buf)`, utility.hpp:345-361. -/
def deserialize_le (n : Nat) (mem : List Byte) (buf : Nat) : Res (BitVec (8 * n)) :=
  deserializeLeLoop mem n 0 buf 0

/-- Loop of `serialize_be`, utility.hpp:439-448. `index` is the value *before* `--index`. -/
def serializeBeLoop (dbg : Bool) {n : Nat} (value : BitVec (8 * n)) :
    (todo index p : Nat) → List Byte → Res (List Byte × Nat)
  | 0, _, p, mem => .ok (mem, p)
  | todo + 1, index, p, mem => do
    ASSERT dbg (index > 0)
    let index := index - 1
    ASSERT dbg (8 * index ≤ n * 8)
    let shifted ← shrChecked value (8 * index)
    let mem ← wr mem p ((shifted &&& BitVec.ofNat (8 * n) 0xff).setWidth 8)
    serializeBeLoop dbg value todo index (p + 1) mem

/-- `serialize_be(value, out_buf)`, utility.hpp:433-451. -/
def serialize_be (dbg : Bool) {n : Nat} (value : BitVec (8 * n)) (mem : List Byte) (out_buf : Nat) :
    Res (List Byte × Nat) :=
  serializeBeLoop dbg value n n out_buf mem

/-- Loop of `deserialize_be`, utility.hpp:500-509. -/
def deserializeBeLoop (dbg : Bool) {n : Nat} (mem : List Byte) :
    (todo index p : Nat) → BitVec (8 * n) → Res (BitVec (8 * n))
  | 0, _, _, ret => .ok ret
  | todo + 1, index, p, ret => do
    let b ← rd mem p
    let index := index - 1
    ASSERT dbg (index ≤ n)
    let s ← shlChecked (b.setWidth (8 * n)) (8 * index)
    deserializeBeLoop dbg mem todo index (p + 1) (ret ||| s)

/-- `deserialize_be<T>(buf)`, utility.hpp:494-512. -/
def deserialize_be (dbg : Bool) (n : Nat) (mem : List Byte) (buf : Nat) : Res (BitVec (8 * n)) :=
  deserializeBeLoop dbg mem n n buf 0

/-- utility.hpp:311-314 -/
def serialize16le (v : BitVec 16) := serialize_le (n := 2) v
/-- utility.hpp:323-326 -/
def serialize32le (v : BitVec 32) := serialize_le (n := 4) v
/-- utility.hpp:335-338 -/
def serialize64le (v : BitVec 64) := serialize_le (n := 8) v
/-- utility.hpp:370-373 -/
def deserialize16le (mem : List Byte) (buf : Nat) : Res (BitVec 16) := deserialize_le 2 mem buf
/-- utility.hpp:382-385 -/
def deserialize32le (mem : List Byte) (buf : Nat) : Res (BitVec 32) := deserialize_le 4 mem buf
/-- utility.hpp:394-397 -/
def deserialize64le (mem : List Byte) (buf : Nat) : Res (BitVec 64) := deserialize_le 8 mem buf
/-- utility.hpp:460-463 -/
def serialize16be (dbg : Bool) (v : BitVec 16) := serialize_be dbg (n := 2) v
/-- utility.hpp:472-475 -/
def serialize32be (dbg : Bool) (v : BitVec 32) := serialize_be dbg (n := 4) v
/-- utility.hpp:484-487 -/
def serialize64be (dbg : Bool) (v : BitVec 64) := serialize_be dbg (n := 8) v
/-- utility.hpp:521-524 -/
def deserialize16be (dbg : Bool) (mem : List Byte) (buf : Nat) : Res (BitVec 16) := deserialize_be dbg 2 mem buf
/-- utility.hpp:533-536 -/
def deserialize32be (dbg : Bool) (mem : List Byte) (buf : Nat) : Res (BitVec 32) := deserialize_be dbg 4 mem buf
/-- utility.hpp:545-548 -/
def deserialize64be (dbg : Bool) (mem : List Byte) (buf : Nat) : Res (BitVec 64) := deserialize_be dbg 8 mem buf

/-- A `float`, represented by its object representation read as a `uint32_t`.
Simplification: the code reinterprets the object through `reinterpret_cast`
(utility.hpp:408-410, 422-424), formally an aliasing violation, which every supported compiler
treats as a bit copy; the model takes it as a bit copy. -/
structure CFloat where
  bits : BitVec 32
  deriving DecidableEq, Repr

/-- utility.hpp:405-411 -/
def serialize_float_le (value : CFloat) (mem : List Byte) (out_buf : Nat) := serialize32le value.bits mem out_buf
/-- utility.hpp:418-425 -/
def deserialize_float_le (mem : List Byte) (buf : Nat) : Res CFloat := do
  let val ← deserialize32le mem buf
  return ⟨val⟩
/-- utility.hpp:556-562 -/
def serialize_float_be (dbg : Bool) (value : CFloat) (mem : List Byte) (out_buf : Nat) :=
  serialize32be dbg value.bits mem out_buf
/-- utility.hpp:569-576 -/
def deserialize_float_be (dbg : Bool) (mem : List Byte) (buf : Nat) : Res CFloat := do
  let val ← deserialize32be dbg mem buf
  return ⟨val⟩

end Utki
