import Verif.Model.Serialize
import Verif.Model.Span
/-!
# Model of `utki::deserializer`

/repo/src/utki/deserializer.hpp:35-71, /repo/src/utki/deserializer.cpp:36-168.
The object's only field is `utki::span<const uint8_t> data`.
-/
namespace Utki

/-- `class deserializer`, deserializer.hpp:35-37: state of the object. -/
abbrev Deserializer := Span Byte

namespace Deserializer

/-- `size()`, deserializer.hpp:49-52 -/
def size (d : Deserializer) : Nat := Span.size d
/-- `empty()`, deserializer.hpp:44-47 -/
def empty (d : Deserializer) : Bool := Span.empty d

/-- `read_string(length)`, deserializer.cpp:36-47. The string view is returned as the characters it views. -/
def read_string (dbg : Bool) (length : Nat) : Meth Deserializer (List Byte) := do
  let d ← Meth.get
  if d.size < length then Meth.throw .invalid_argument
  else
    let sub ← Meth.lift (d.subspan dbg 0 length)
    let ret ← Meth.lift (make_string_view sub)
    let rest ← Meth.lift (d.subspan dbg length)
    Meth.set rest
    return ret

/-- `read_span(length)`, deserializer.cpp:49-60 -/
def read_span (dbg : Bool) (length : Nat) : Meth Deserializer (Span Byte) := do
  let d ← Meth.get
  if d.size < length then Meth.throw .invalid_argument
  else
    let ret ← Meth.lift (d.subspan dbg 0 length)
    let rest ← Meth.lift (d.subspan dbg length)
    Meth.set rest
    return ret

/-- `read_uint8()`, deserializer.cpp:62-71 -/
def read_uint8 (dbg : Bool) : Meth Deserializer (BitVec 8) := do
  let d ← Meth.get
  if d.size < 1 then Meth.throw .invalid_argument
  else
    let ret ← Meth.lift (d.front dbg)
    let rest ← Meth.lift (d.subspan dbg 1)
    Meth.set rest
    return ret

/-- `read_uint16_le()`, deserializer.cpp:73-82 -/
def read_uint16_le (dbg : Bool) : Meth Deserializer (BitVec 16) := do
  let d ← Meth.get
  if d.size < 2 then Meth.throw .invalid_argument
  else
    let ret ← Meth.lift (deserialize16le d.mem d.off)
    let rest ← Meth.lift (d.subspan dbg 2)
    Meth.set rest
    return ret

/-- `read_uint32_le()`, deserializer.cpp:84-93 -/
def read_uint32_le (dbg : Bool) : Meth Deserializer (BitVec 32) := do
  let d ← Meth.get
  if d.size < 4 then Meth.throw .invalid_argument
  else
    let ret ← Meth.lift (deserialize32le d.mem d.off)
    let rest ← Meth.lift (d.subspan dbg 4)
    Meth.set rest
    return ret

/-- `read_uint64_le()`, deserializer.cpp:95-104 -/
def read_uint64_le (dbg : Bool) : Meth Deserializer (BitVec 64) := do
  let d ← Meth.get
  if d.size < 8 then Meth.throw .invalid_argument
  else
    let ret ← Meth.lift (deserialize64le d.mem d.off)
    let rest ← Meth.lift (d.subspan dbg 8)
    Meth.set rest
    return ret

/-- `read_float_le()`, deserializer.cpp:106-115 -/
def read_float_le (dbg : Bool) : Meth Deserializer CFloat := do
  let d ← Meth.get
  if d.size < 4 then Meth.throw .invalid_argument
  else
    let ret ← Meth.lift (deserialize_float_le d.mem d.off)
    let rest ← Meth.lift (d.subspan dbg 4)
    Meth.set rest
    return ret

/-- `read_uint16_be()`, deserializer.cpp:117-126 -/
def read_uint16_be (dbg : Bool) : Meth Deserializer (BitVec 16) := do
  let d ← Meth.get
  if d.size < 2 then Meth.throw .invalid_argument
  else
    let ret ← Meth.lift (deserialize16be dbg d.mem d.off)
    let rest ← Meth.lift (d.subspan dbg 2)
    Meth.set rest
    return ret

/-- `read_uint32_be()`, deserializer.cpp:128-137 -/
def read_uint32_be (dbg : Bool) : Meth Deserializer (BitVec 32) := do
  let d ← Meth.get
  if d.size < 4 then Meth.throw .invalid_argument
  else
    let ret ← Meth.lift (deserialize32be dbg d.mem d.off)
    let rest ← Meth.lift (d.subspan dbg 4)
    Meth.set rest
    return ret

/-- `read_uint64_be()`, deserializer.cpp:139-148 -/
def read_uint64_be (dbg : Bool) : Meth Deserializer (BitVec 64) := do
  let d ← Meth.get
  if d.size < 8 then Meth.throw .invalid_argument
  else
    let ret ← Meth.lift (deserialize64be dbg d.mem d.off)
    let rest ← Meth.lift (d.subspan dbg 8)
    Meth.set rest
    return ret

/-- `read_float_be()`, deserializer.cpp:150-159 -/
def read_float_be (dbg : Bool) : Meth Deserializer CFloat := do
  let d ← Meth.get
  if d.size < 4 then Meth.throw .invalid_argument
  else
    let ret ← Meth.lift (deserialize_float_be dbg d.mem d.off)
    let rest ← Meth.lift (d.subspan dbg 4)
    Meth.set rest
    return ret

/-- `skip(length)`, deserializer.cpp:161-168 -/
def skip (dbg : Bool) (length : Nat) : Meth Deserializer Unit := do
  let d ← Meth.get
  if d.size < length then Meth.throw .invalid_argument
  else
    let rest ← Meth.lift (d.subspan dbg length)
    Meth.set rest

end Deserializer

/-- A call on a deserializer. -/
inductive DCall where
  | u8 | u16le | u32le | u64le | f32le | u16be | u32be | u64be | f32be
  | string (length : Nat) | span (length : Nat) | skip (length : Nat)
  deriving DecidableEq, Repr

/-- What a call returns: an integer of some width (as a number), float bits, bytes, or nothing. -/
inductive DVal where
  | int (bits : Nat) (v : Nat)
  | float (f : CFloat)
  | bytes (l : List Byte)
  | unit
  deriving DecidableEq, Repr

/-- Dispatch of a call to the member function, with the result tagged. -/
def DCall.run (dbg : Bool) : DCall → Meth Deserializer DVal
  | .u8 => do let v ← Deserializer.read_uint8 dbg; return .int 8 v.toNat
  | .u16le => do let v ← Deserializer.read_uint16_le dbg; return .int 16 v.toNat
  | .u32le => do let v ← Deserializer.read_uint32_le dbg; return .int 32 v.toNat
  | .u64le => do let v ← Deserializer.read_uint64_le dbg; return .int 64 v.toNat
  | .f32le => do let v ← Deserializer.read_float_le dbg; return .float v
  | .u16be => do let v ← Deserializer.read_uint16_be dbg; return .int 16 v.toNat
  | .u32be => do let v ← Deserializer.read_uint32_be dbg; return .int 32 v.toNat
  | .u64be => do let v ← Deserializer.read_uint64_be dbg; return .int 64 v.toNat
  | .f32be => do let v ← Deserializer.read_float_be dbg; return .float v
  | .string n => do let v ← Deserializer.read_string dbg n; return .bytes v
  | .span n => do
      let s ← Deserializer.read_span dbg n
      let v ← Meth.lift s.toList
      return .bytes v
  | .skip n => do Deserializer.skip dbg n; return .unit

/-- A history: calls one after the other, exceptions caught by the caller and execution continued.
Gives the outcome of every call and the final object. -/
def runCalls (dbg : Bool) : List DCall → Deserializer → List (Res DVal) × Deserializer
  | [], d => ([], d)
  | c :: cs, d =>
    let (r, d') := c.run dbg d
    let (rs, d'') := runCalls dbg cs d'
    (r :: rs, d'')

/-- A typed field of a record. -/
inductive Field where
  | u8 (v : BitVec 8) | u16le (v : BitVec 16) | u32le (v : BitVec 32) | u64le (v : BitVec 64) | f32le (v : CFloat)
  | u16be (v : BitVec 16) | u32be (v : BitVec 32) | u64be (v : BitVec 64) | f32be (v : CFloat)
  | string (l : List Byte) | block (l : List Byte)
  deriving DecidableEq, Repr

/-- `std::copy` of bytes to a pointer (how user code stores strings and blocks). -/
def copyBytes : List Byte → List Byte → Nat → Res (List Byte × Nat)
  | [], mem, p => .ok (mem, p)
  | b :: bs, mem, p => do
    let mem ← wr mem p b
    copyBytes bs mem (p + 1)

/-- Writing one field with the utki serialization functions. -/
def Field.write (dbg : Bool) : Field → List Byte → Nat → Res (List Byte × Nat)
  | .u8 v, mem, p => serialize_le (n := 1) v mem p
  | .u16le v, mem, p => serialize16le v mem p
  | .u32le v, mem, p => serialize32le v mem p
  | .u64le v, mem, p => serialize64le v mem p
  | .f32le v, mem, p => serialize_float_le v mem p
  | .u16be v, mem, p => serialize16be dbg v mem p
  | .u32be v, mem, p => serialize32be dbg v mem p
  | .u64be v, mem, p => serialize64be dbg v mem p
  | .f32be v, mem, p => serialize_float_be dbg v mem p
  | .string l, mem, p => copyBytes l mem p
  | .block l, mem, p => copyBytes l mem p

/-- Writing fields one after the other, each at the pointer returned by the previous write. -/
def writeFields (dbg : Bool) : List Field → List Byte → Nat → Res (List Byte × Nat)
  | [], mem, p => .ok (mem, p)
  | f :: fs, mem, p => do
    let (mem, p) ← f.write dbg mem p
    writeFields dbg fs mem p

/-- The deserializer call that reads a field of this type (and size, for strings and blocks). -/
def Field.call : Field → DCall
  | .u8 _ => .u8
  | .u16le _ => .u16le
  | .u32le _ => .u32le
  | .u64le _ => .u64le
  | .f32le _ => .f32le
  | .u16be _ => .u16be
  | .u32be _ => .u32be
  | .u64be _ => .u64be
  | .f32be _ => .f32be
  | .string l => .string l.length
  | .block l => .span l.length

/-- The value a field holds. -/
def Field.value : Field → DVal
  | .u8 v => .int 8 v.toNat
  | .u16le v => .int 16 v.toNat
  | .u32le v => .int 32 v.toNat
  | .u64le v => .int 64 v.toNat
  | .f32le v => .float v
  | .u16be v => .int 16 v.toNat
  | .u32be v => .int 32 v.toNat
  | .u64be v => .int 64 v.toNat
  | .f32be v => .float v
  | .string l => .bytes l
  | .block l => .bytes l

end Utki
