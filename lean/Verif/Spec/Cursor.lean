import Verif.Model.Deserializer
import Verif.Spec.Bytes
/-!
# Specification of a deserializer: a cursor over a list of bytes

Only the vocabulary of calls and values (`DCall`, `DVal`) is shared with the model.
-/
namespace Utki.Spec

/-- How many bytes a call asks for. -/
def need : DCall → Nat
  | .u8 => 1
  | .u16le | .u16be => 2
  | .u32le | .u32be | .f32le | .f32be => 4
  | .u64le | .u64be => 8
  | .string n | .span n | .skip n => n

/-- What these bytes mean for the call. -/
def decode (c : DCall) (bs : List Byte) : DVal :=
  match c with
  | .u8 => .int 8 (leValue bs)
  | .u16le => .int 16 (leValue bs)
  | .u32le => .int 32 (leValue bs)
  | .u64le => .int 64 (leValue bs)
  | .f32le => .float ⟨BitVec.ofNat 32 (leValue bs)⟩
  | .u16be => .int 16 (beValue bs)
  | .u32be => .int 32 (beValue bs)
  | .u64be => .int 64 (beValue bs)
  | .f32be => .float ⟨BitVec.ofNat 32 (beValue bs)⟩
  | .string _ | .span _ => .bytes bs
  | .skip _ => .unit

/-- One call on the remaining bytes: enough bytes → their decoding, and they are consumed;
otherwise an exception, and nothing is consumed. -/
def cursorStep (rest : List Byte) (c : DCall) : Res DVal × List Byte :=
  if need c ≤ rest.length then (.ok (decode c (rest.take (need c))), rest.drop (need c))
  else (.throw .invalid_argument, rest)

/-- A history of calls. -/
def cursorRun : List DCall → List Byte → List (Res DVal) × List Byte
  | [], rest => ([], rest)
  | c :: cs, rest =>
    let (r, rest') := cursorStep rest c
    let (rs, rest'') := cursorRun cs rest'
    (r :: rs, rest'')

end Utki.Spec
